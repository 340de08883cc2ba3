import Verif.Lemmas.BinMap
import Verif.Lemmas.Bytes
import Verif.Lemmas.Outline
import Verif.Lemmas.Wad
import Verif.Lemmas.WadIter
import Verif.Model.Archive
import Verif.Model.BareOutline
import Verif.Model.BinMap
import Verif.Model.Cli
import Verif.Model.Compute
import Verif.Model.F64
import Verif.Model.Flip
import Verif.Model.Float
import Verif.Model.FullMap
import Verif.Model.Holes
import Verif.Model.Intersect
import Verif.Model.Main
import Verif.Model.MapName
import Verif.Model.Nom
import Verif.Model.Prim
import Verif.Model.Route
import Verif.Model.Segment
import Verif.Model.Shape
import Verif.Model.Svg
import Verif.Model.Sweep
import Verif.Model.SweepLine
import Verif.Model.Tables
import Verif.Model.Textures
import Verif.Model.Texturex
import Verif.Model.Wad
import Verif.Model.WadIter
import Verif.Props.Again
import Verif.Props.AgainDouble
import Verif.Props.AgainExample
import Verif.Props.Archive
import Verif.Props.Areas
import Verif.Props.AreasDouble
import Verif.Props.AreasGroup
import Verif.Props.AreasLeft
import Verif.Props.AreasOrder
import Verif.Props.AreasOutline
import Verif.Props.AreasPlan
import Verif.Props.AreasResult
import Verif.Props.BareOutline
import Verif.Props.Below
import Verif.Props.BinMap
import Verif.Props.BinMapOutcome
import Verif.Props.Checked
import Verif.Props.CheckedCompute
import Verif.Props.CheckedExample
import Verif.Props.CheckedLoop
import Verif.Props.CheckedSweep
import Verif.Props.Cli
import Verif.Props.Compute
import Verif.Props.ComputeExamples
import Verif.Props.CrossDouble
import Verif.Props.CrossLine
import Verif.Props.CrossMade
import Verif.Props.CrossMake
import Verif.Props.Crossed
import Verif.Props.CrossedExample
import Verif.Props.CutAlong
import Verif.Props.CutBehind
import Verif.Props.CutBlocks
import Verif.Props.CutCmp
import Verif.Props.CutEdges
import Verif.Props.CutFinish
import Verif.Props.CutGeom
import Verif.Props.CutHandle
import Verif.Props.CutHi
import Verif.Props.CutLate
import Verif.Props.CutLeft
import Verif.Props.CutLoop
import Verif.Props.CutNear
import Verif.Props.CutPair
import Verif.Props.CutPend
import Verif.Props.CutQueue
import Verif.Props.CutRel
import Verif.Props.CutRuns
import Verif.Props.CutSetup
import Verif.Props.CutSplit
import Verif.Props.CutStep
import Verif.Props.CutTrace
import Verif.Props.CutUpper
import Verif.Props.Dilate
import Verif.Props.DoubleCross
import Verif.Props.DoubleIntersect
import Verif.Props.DoubleSame
import Verif.Props.DoubleTurn
import Verif.Props.Endpoint
import Verif.Props.Exact
import Verif.Props.F64
import Verif.Props.Flip
import Verif.Props.Flood
import Verif.Props.FloodInv
import Verif.Props.FloodTotal
import Verif.Props.FullMap
import Verif.Props.Grid
import Verif.Props.GridCompute
import Verif.Props.GridDraws
import Verif.Props.GridExample
import Verif.Props.GridMeet
import Verif.Props.GridSim
import Verif.Props.GridStretch
import Verif.Props.GridSweep
import Verif.Props.GridTrace
import Verif.Props.Holes
import Verif.Props.HolesExamples
import Verif.Props.HolesSorted
import Verif.Props.IntVal
import Verif.Props.Intersect
import Verif.Props.Level
import Verif.Props.Lift
import Verif.Props.LoopArea
import Verif.Props.LoopParity
import Verif.Props.Main
import Verif.Props.MapNames
import Verif.Props.Moved
import Verif.Props.MovedDouble
import Verif.Props.MovedExample
import Verif.Props.Narrow
import Verif.Props.Narrow100
import Verif.Props.Narrow16
import Verif.Props.Narrow24
import Verif.Props.Narrow32
import Verif.Props.Narrow8
import Verif.Props.Orientation
import Verif.Props.Outline
import Verif.Props.Plan
import Verif.Props.PlanAll
import Verif.Props.PlanArea
import Verif.Props.PlanBelow
import Verif.Props.PlanCmp
import Verif.Props.PlanEven
import Verif.Props.PlanExample
import Verif.Props.PlanFinish
import Verif.Props.PlanGeom
import Verif.Props.PlanHoles
import Verif.Props.PlanKeep
import Verif.Props.PlanKey
import Verif.Props.PlanLeft
import Verif.Props.PlanLoop
import Verif.Props.PlanOrbit
import Verif.Props.PlanParity
import Verif.Props.PlanRot
import Verif.Props.PlanSetup
import Verif.Props.PlanSweep
import Verif.Props.PlanTrace
import Verif.Props.PlanWalk
import Verif.Props.RealOfDouble
import Verif.Props.Redrawn
import Verif.Props.RedrawnCrossed
import Verif.Props.RedrawnDouble
import Verif.Props.RedrawnExample
import Verif.Props.Removed
import Verif.Props.RemovedExample
import Verif.Props.Result
import Verif.Props.Room
import Verif.Props.RoomFound
import Verif.Props.RoomSample
import Verif.Props.Route
import Verif.Props.RouteEval1
import Verif.Props.RouteEval2
import Verif.Props.RouteEval3
import Verif.Props.RouteEval4
import Verif.Props.RouteEval5
import Verif.Props.RouteExamples
import Verif.Props.RouteMap
import Verif.Props.RouteSvg
import Verif.Props.SegmentOrder
import Verif.Props.Shape
import Verif.Props.Sharp
import Verif.Props.SharpExample
import Verif.Props.SharpPlan
import Verif.Props.SharpPlanExample
import Verif.Props.Stretched
import Verif.Props.StretchedBox
import Verif.Props.StretchedExample
import Verif.Props.StretchedResult
import Verif.Props.Suite
import Verif.Props.SuiteCompute
import Verif.Props.SuiteFlood
import Verif.Props.SuiteFound
import Verif.Props.SuitePolygons
import Verif.Props.SuiteRun
import Verif.Props.Svg
import Verif.Props.SvgFull
import Verif.Props.Sweep
import Verif.Props.SweepLine
import Verif.Props.Tables
import Verif.Props.Textures
import Verif.Props.Texturex
import Verif.Props.Tidy
import Verif.Props.TidyAll
import Verif.Props.TidyCmp
import Verif.Props.TidyCorner
import Verif.Props.TidyEvents
import Verif.Props.TidyExample
import Verif.Props.TidyFinish
import Verif.Props.TidyGeom
import Verif.Props.TidyHoles
import Verif.Props.TidyHolesExample
import Verif.Props.TidyLib
import Verif.Props.TidyLoop
import Verif.Props.TidyNet
import Verif.Props.TidyOrbit
import Verif.Props.TidyParity
import Verif.Props.TidyRing
import Verif.Props.TidySetup
import Verif.Props.TidyStep
import Verif.Props.TidySweep
import Verif.Props.TidyTrace
import Verif.Props.TidyWalk
import Verif.Props.Trace
import Verif.Props.TraceEnds
import Verif.Props.WadBetween
import Verif.Props.WadIter
import Verif.Props.WadParse
import Verif.Props.WadRoundTrip
import Verif.Props.Walk
import Verif.Props.Walks
import Verif.Props.WallFits
import Verif.Props.Witness
import Verif.Spec.Again
import Verif.Spec.Archive
import Verif.Spec.Areas
import Verif.Spec.Between
import Verif.Spec.BinMap
import Verif.Spec.Bytes
import Verif.Spec.Checked
import Verif.Spec.Cli
import Verif.Spec.Compute
import Verif.Spec.Crossed
import Verif.Spec.CrossedCheck
import Verif.Spec.Crossing
import Verif.Spec.Dilate
import Verif.Spec.Double
import Verif.Spec.Endpoint
import Verif.Spec.Flip
import Verif.Spec.Float
import Verif.Spec.FullMap
import Verif.Spec.Grid
import Verif.Spec.Holes
import Verif.Spec.Intersect
import Verif.Spec.Level
import Verif.Spec.Lib
import Verif.Spec.Main
import Verif.Spec.Moved
import Verif.Spec.Outline
import Verif.Spec.Plan
import Verif.Spec.PlanCheck
import Verif.Spec.Rat
import Verif.Spec.Removed
import Verif.Spec.Result
import Verif.Spec.Room
import Verif.Spec.Route
import Verif.Spec.RouteSvg
import Verif.Spec.SegmentOrder
import Verif.Spec.Shape
import Verif.Spec.Sharp
import Verif.Spec.SharpCheck
import Verif.Spec.SharpPlan
import Verif.Spec.SharpPlanCheck
import Verif.Spec.Simple
import Verif.Spec.Stretched
import Verif.Spec.Suite
import Verif.Spec.Svg
import Verif.Spec.SweepLine
import Verif.Spec.Textures
import Verif.Spec.Texturex
import Verif.Spec.Tidy
import Verif.Spec.TidyCheck
import Verif.Spec.Wad
import Verif.Spec.WadIter
import Verif.Spec.WadWrite
