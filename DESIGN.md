# Formal model of eevee/idchoppers — design

The model is Lean 4 (4.33.0, `/verif/lean`). Model modules are under `Verif/Model`, the
small independent specifications under `Verif/Spec`, helper lemmas under `Verif/Lemmas`,
and the property theorems (one file per area) under `Verif/Props`.

## How the code is modelled

* Rust `Result` plus panics: `Res α = ok a | err ErrorKind | panic Panic` (`diverge` is used only
  where a loop runs on a fuel argument; theorems show it never happens, or are stated for
  terminating runs where the code itself may not terminate).
* `&[u8]` / `Vec<u8>` / `&str`: `List UInt8`.  `i16`, `u16`, `u8`, `u32`, `i32`: Lean's fixed-width
  `Int16`, `UInt16`, ... .  `usize`: `Nat`, 64-bit (`as usize` of a negative number sign-extends to 2^64-k).
* nom 4 (feature `verbose-errors`, enabled in Cargo.toml): the combinators used (`tag!`, `alt!`, `le_*`,
  `take!`, `verify!`, `map_res!`, `count!`, `many0!`, `complete!`, `return_error!`, `do_parse!`) are
  re-implemented from their documented source, including Incomplete/Error/Failure and the
  Code/List error contexts.
* Debug/release difference of integer overflow: a `Profile` parameter (debug = panic, release = wrap).
* `f64`/`f32`: a class `FloatOps` of uninterpreted operations and comparisons. Structural theorems
  (termination, invariants, who-uses-what) hold for **every** such structure, hence for IEEE-754.
  Theorems that need arithmetic assume `IntExact`: on integers of magnitude <= 2^53 the operations
  whose result is again such an integer are exact — which IEEE double satisfies — or are stated over
  an exact ordered field and labelled so.
* std containers whose tie-breaking is unspecified (BinaryHeap pop, sort, binary_search) are
  parameters constrained only by their documented contract.
* Object identity (addresses) of vertices/segments is modelled by index.

## Plan per property

| id | modelled | proof |
|----|----------|-------|
| C01–C03 | parse_wad over the nom model | case analysis + induction over the directory; C03's InvalidMagic part is expected to be false (return_error! in verbose mode yields Context::List): negation proved, rest partial |
| C04 | spec writer `encodeWad`, parse_wad, entry_slice | induction over the lump list |
| C05 | fixed_length_ascii | induction on the field |
| C06, C07 | entry_slice, extract_slice, first_entry | direct, iff statements |
| C08, C09 | BareWADBetweenIterator as a state machine | invariant over the prefix read |
| C10, C11 | vanilla_map_name, Display | case analysis; "MAP+5" counterexample + partial |
| C12–C18 | WADIterator::next and the `for` loop over it | induction over MAP_LUMP_ORDER / directory; C15–C17 negated with witnesses, exact characterisation proved |
| C19–C21 | WADArchive::from_bare, first_entry, both parse routes | simulation |
| C22–C28 | lump parsers, write_to, parse_doom_map | induction over many0 |
| C29, C30 | parse_texturex_names | iff; panic witness for C30 |
| C31–C34 | do_flip's byte-level output | refinement to mirrored maps; uses C04, C25 |
| C35–C40 | Map::from_bare and accessors, bbox, find_player_start | list induction |
| C41–C44 | both sector_to_polygons | loop invariants, fuel bound |
| C45, C46 | count_textures | fold invariant; C46 negated |
| C47, C48 | extracted tables | kernel evaluation of the whole finite table, lifted |
| C49–C53 | Contour, Polygon, compute_holes | state machine invariants |
| C54–C56 | triangle area, endpoint order, SweepLine2 | algebra over exact ordered fields; refinement |
| C57–C61 | the whole of shapeops::compute on an arena of segments | invariants over sweep and trace loops, any float behaviour |
| C62, C63 | the whole of route_map_as_svg up to drawing (polygons of sectors and lines, compute, point location, flood fill) | graph-search invariants; C62_terminates/C62_succeeds by a measure |
| C64, C65 | dilation hexagon, view boxes of both charts | linear arithmetic over ℝ; integer arithmetic in both overflow profiles |
| C66 (InputBuffer) | the buffer over a world of files that may change later (a shared map shows the file as it is now) | case analysis |
| C67 | intersect_segments over ℝ (rounding step included) | algebra over ℝ; the tolerance makes the full claim false, negation proved with witnesses |
| C68 | SweepSegment's comparison over ℝ | algebra: sign of areas = comparison of heights; negations with witnesses |
| C69 | compute on touching polygons | kernel evaluation over exact rationals: the claim is false |
| C70 | the tracing half of compute | the visited flags grow at every step: measure |
| C71 | map_as_svg for bare and full maps | list induction, exact document |
| C72, C74, C75 | the chart, route, info subcommands | the loop over the WAD's items |
| C73 | drawing in route_map_as_svg | list induction |
| C76 | compute on polygons whose outlines do not touch, exact arithmetic | the sweep keeps an invariant at every corner (order of the active segments, flags = parity of what is below); tracing follows the successor permutation of the edges; parity of the active segments = even-odd rule of the specification |
| C78, C79 | main, run, dispatch over a model of files and permissions | case analysis; end to end with C72 |
| C77 | clockwise on simple outlines; external and holes of compute's result in the setting of C76 | the even-odd parity next to a closed chain and the sign of its area both follow from a sum over the edges (LoopParity, LoopArea); the sweep's below-pointer is the last active segment (invariant of C76) |
| C80 | compute with any arithmetic that rounds to 53 bits (`Double`), and IEEE binary64 itself (`F64`, proved to be such an arithmetic) | simulation: both arithmetics run on the same whole numbers; every comparison is exact (products below 2^53), the quotients of intersect_segments only matter by their side of 0 and 1, where rounding cannot change it |
| C81 | compute on outlines that share corners and edges (exact arithmetic): `Planar` in Spec/Plan, the area left of an edge by the even-odd rule (`AreaLeft`), turning order at a corner (`TurnsThrough`), the next edge below (`NextBelow`) | invariant of the sweep: the status line is the list of edges sorted by height, coinciding ones by number, and flags below are parities of the edges below (mod 2); edges around a corner are in cyclic order, so tracing walks the orbits of one permutation; each orbit has a leftmost start and one area; the sign of its area from a walk along the boundary of a face |
| C82 | the same as C81 with any arithmetic that rounds to 53 bits (`Double`), and IEEE binary64 itself | simulation as for C80; coinciding segments; cosines at a corner: directions differ by 180° or more than 0.019°, so that cosines on the same side differ by more than the rounding of quotient and root |
| C83 | intersect_segments in IEEE binary64 on segments with whole coordinates at an angle; compute on crossing rectangles | error analysis: products are exact, the quotient and the point are rounded (DoubleCross); two kernel-evaluated counterexamples to exactness |
| C84 | compute on outlines that cross (exact arithmetic): `Crossed polys polys'` in Spec/Crossed says that polys' is polys with corners added where edges cross or touch | refinement: the sweep over polys and the sweep over polys' run side by side; a segment of the former stands for the run of pieces not yet split off (`Cut`, `Ghost`), handle_intersections splits it at the next corner on it before that is reached, because another edge comes there from the left, or when the event at that corner is handled, because an edge starts there and goes right, along or below (`Met`; without that the claim is false: C84_touching_above). In the second case the two sweeps disagree for a moment: the events at the corner are queued late, and the labels of the pieces there are computed twice (`Pend`, `Behind`); the finished arenas have the same wanted ends in the same order, so tracing gives the same outlines; then C81 and the even-odd rule is not changed by added corners.  `Crossing polys` in Spec/Crossing states the conditions on polys alone and is shown to be equivalent to the existence of such polys' |
| C85 | compute with RemoveEdges polygons on outlines as in C81 and C84: `Removable`, `KeptOutlines`, `Orphan` in Spec/Removed | the sweep's invariant is that of C81 with one more field (which polygons are left out); tracing is C81's on the arrangement of the kept edges (`Plan.keep`), whose areas are those of the result because of `Removable.blind`; the trace panics at the first orphan and else goes through; crossings by C84_same_run, double precision by the simulation of C82; kernel-evaluated counterexamples without the hypotheses |
| C86 | compute on outlines as in C81, C84, C85: `IsResult` (all requirements together), `Redrawn`, `reorder`, `relabel` in Spec/Result | a walk along kept edges from a given edge is unique, outlines are ordered by their leftmost corners, so KeptOutlines has one solution and the other fields are determined; the requirements depend only on the undirected edges of each polygon, which redrawing keeps; C84 by refinement, double precision by C82 |
| C87 | compute on outlines as in C81, C84, C85: `movePt`, `moveAll` in Spec/Moved | each notion of Spec/Plan, Removed and Result is kept by the map (areas scale by k², heights by k), and the map has an inverse of the same kind; then C86_exact on both sides; C84_same_run for crossings; double_of_result for double precision |
| C88 | compute on outlines as in C81, C84, C85: `InArea`, `PointFlags` in Spec/Areas | an outline is itself a polygon of the plan, so the parity argument of C81 applies to it: the side to the left of its edges is inside of it exactly if it is external (signed area), a hole has the same sides as the outline below, an earlier outline is never inside of a later one; so an external outline with its holes is a polygon, too, and what is inside of it is found edge by edge from below (`climb`); then every point off the edges is where the left side of some edge is |
| C89 | compute on its own results: `areasOf`, `ownLabels` in Spec/Again | the areas (or the whole result) fit into the plan of the input and what is left of an edge is inside of one exactly if the edge is its own (C88's `climb`); so the requirements of C86 on the result for the areas are met by the old result, and C86_exact says that the second run returns it; the next edge below is the same among fewer edges if it is still there, and unique |
| C90 | compute on stretched polygons: `AxisParallel`, `stretchAll`, `KeepOrder` in Spec/Stretched | every replacement that keeps the order on the finitely many coordinates extends to an order isomorphism of the plane's axes; what lies left of an edge and what is below a corner are seen from the box next to it, in which nothing is drawn, and boxes are kept; so the requirements of C86 on the result carry over, the sign of a loop's area by the side its inside lies on; C86_exact does the rest |
| C91 | `routeMap` on a map that is a rectangular room: `IsRoom` in Spec/Room | the outline of the sector and the dilated walls are computed symbolically and are the polygons for a room of 100 by 100, stretched; for that one the crossings are checked, the result in double precision is computed by the kernel (an F64 model), and is the exact one by C85_double_iff; C90_crossed stretches it, C62 gives the chunks; for narrow rooms there are 24 layouts by the order of the walls and their zones, whose checked runs (C93) the kernel evaluates |
| C92 | two runs of `compute` on the same grid of coordinates, drawn in two ways in two exact arithmetics (`Grid`, `OnLines`, `Exact` in Spec/Grid) | every decision of the sweep and of the tracing (comparisons, intersections, turns, cosines) is a function of the order of the coordinates (`Draws`), so the runs go in step (`Sim`); the area is the one exception and is asked for; that there are no new coordinates follows by drawing the points off the grid in two ways |
| C93 | `checkedCompute` in Spec/Checked: `compute` with sorted lists that gives up where another implementation might do something else | the run with any lawful containers is a permutation of the queue and a run with fewer endpoints without effect taken away from it (`SameQueue`, `run_loop`); on a grid all comparisons are total preorders (`ordered_draw`); then C92 |
| C94 | `routeMap` on a map of two rooms: `IsSuite`, `suiteAreas`, `CanClimb`, `StartsIn` in Spec/Suite | the polygons are computed symbolically and are those of two rooms of 100 by 100, stretched; the kernel evaluates the checked run of those with rational numbers, C93_layout does the rest; the flood fill is followed step by step (`Row`) |
| C95 | `routeMap`: `ChunksBegin`, `Separates` and `FullMap.Level` in Spec/Level | an invariant of the flood fill: every deferred contour was deferred because of a reason at an area of the current or an earlier chunk |

## Which code is modelled

| /repo file | modelled | not modelled |
|---|---|---|
| src/parse/util.rs, wad.rs, mod.rs, texturex.rs, map.rs | all functions | `Debug` output |
| src/archive/wad.rs, mod.rs | all | – |
| src/map.rs | `Map`, `from_bare`, accessors, `bbox`, `find_player_start`, `sector_to_polygons`, names | `Handle`'s phantom type; `add_*` helpers only as used by `from_bare` |
| src/errors.rs | the error kinds and the nom-error conversion | messages |
| src/universe.rs, src/vanilladoom.rs | tables (extracted by tools/tables.py), `lookup_thing_type` | sprites/radii of actors beyond the fields used |
| src/geom.rs | type aliases | – |
| src/shapeops.rs | contours, polygons, compute_holes, segments, endpoints, sweep line, intersection, sweep, tracing, neighbours | progress output, the SVG debugging dump, the dead code in comments |
| src/input_buffer.rs | all, over a model of the operating system (`World`): read to end, open, shared map | – |
| programs/src/idchoppers.rs | main, run, info, chart, flip, route, shapeops; both map_as_svg; dilation | clap, colours, progress messages |

## Module map

`Model/Prim` (Res, fixed-width arithmetic, profiles), `Nom`, `Wad`, `MapName`, `WadIter`, `Archive`,
`BinMap`, `Texturex`, `FullMap`, `BareOutline`, `Textures`, `Tables`, `Flip`, `Float`, `Shape`, `Segment`,
`Holes`, `SweepLine`, `Intersect`, `Sweep`, `Compute`, `Route`, `Svg`, `Cli`, `Main`. The specification of a property
in `Props/X` is in `Spec/X` (or is plain Lean/Mathlib).

C76 is proved in steps: `TidyGeom` (segments that meet only in ends, made generic by a small shear), `TidyCmp`, `TidyEvents` (the
comparisons of the code agree with the geometry), `TidySweep`, `TidyCorner`, `TidyStep`, `TidyLoop` (the sweep), `TidyOrbit`,
`TidyTrace`, `TidyAll`, `TidyFinish` (tracing, holes, neighbours), `TidyRing`, `TidyNet`, `TidySetup` (from polygons to segments),
`TidyWalk`, `TidyParity`, `Tidy` (back to outlines; the theorems), `TidyExample`.
C77: `LoopParity`, `LoopArea` (closed chains of edges: parity and area), `Orientation` (one outline), `Below` (which edge is the first
below a corner), `TidyHoles` (external outlines and holes), `TidyHolesExample`.
C80: `IntVal` (whole numbers in either arithmetic), `DoubleIntersect` (intersect_segments, rounded), `Lift` (the simulation, function by
function), `Sharp` (the theorems), `SharpExample`; `Model/F64`, `Props/F64` (IEEE binary64 has the laws of `Spec/Double`).
C81: `PlanGeom` (edges of an arrangement, sheared so that no edge is vertical), `PlanKey`, `PlanCmp` (the comparisons of the code order
them), `PlanParity` (flags as parities), `PlanSweep`, `PlanLeft`, `PlanLoop` (the sweep's invariant), `PlanRot`, `PlanOrbit` (edges around a
corner, the permutation), `PlanArea` (the sign of an orbit's area), `PlanTrace`, `PlanWalk`, `PlanAll`, `PlanFinish` (the tracing loop and
the rest of compute), `PlanSetup` (from polygons to an arrangement), `PlanEven` (parities are the even-odd rule), `Plan`, `PlanBelow`,
`PlanHoles` (the theorems), `PlanExample` (a check for `Planar`, samples).
C82: `DoubleSame` (a segment and itself, rounded), `DoubleTurn` (cosines, rounded), `Lift` (as for C80), `SharpPlan` (the theorems), `SharpPlanExample`;
`Spec/SharpPlan`, `Spec/SharpPlanCheck`.

`Separate` in Spec/Intersect is what C81 and C84 to C91 ask of coordinates: all whole numbers (`whole_separate`), all multiples of 1/k for k up to 3000
(`grid_separate`), and all others that the tolerances of the code (1e-9, 1e-15, 1e-7) do not confuse.

C83: `DoubleCross` (error bounds), `CrossDouble` (the theorems).
C84: `CutGeom` (runs of pieces on one line), `CutCmp` (comparisons of runs and of pieces agree), `CutHandle`, `CutPair` (intersect_segments and
handle_intersections on two runs), `CutRel`, `CutRuns`, `CutSplit` (splitting keeps the relation), `CutQueue`, `CutStep`, `CutLeft` (events at which nothing is late),
`CutLate`, `CutPend`, `CutNear`, `CutHi`, `CutBehind`, `CutUpper`, `CutAlong` (segments split at the point the sweep is at), `CutLoop` (the two sweeps side by side), `CutTrace`, `CutFinish` (tracing), `CutEdges`, `CutBlocks`, `CutSetup` (from polygons to runs), `Crossed` (the theorems),
`CrossedExample` (a check for `Crossed`, samples), `CrossLine`, `CrossMake` (from polygons that cross to the cut ones), `CrossMade` (`Crossing polys` says the same without naming the added
corners: C84_cut; C84_crossing); `Spec/Crossed`, `Spec/Crossing`, `Spec/CrossedCheck`.

C85: `PlanKeep` (the arrangement of the kept edges), `Plan`, `PlanHoles` (C85_outlines to C85_holes; C81 is the case without RemoveEdges), `Removed` (crossing outlines, double precision),
`RemovedExample` (a sample, and what goes wrong without the hypotheses); `Spec/Removed`.

C86: `Walks` (walks are unique), `HolesSorted` (compute_kept, for all F), `Result` (C86_unique, C86_exact), `Redrawn`, `RedrawnDouble`, `RedrawnCrossed`, `RedrawnExample`; `Spec/Result`.
C87: `Moved` (C87_moved), `MovedDouble` (C87_crossed, C87_double), `MovedExample`; `Spec/Moved`.
C88: `AreasPlan`, `AreasLeft`, `AreasOutline`, `AreasResult`, `AreasOrder`, `AreasGroup`, `Areas` (C88_in_one_area, C88_in_no_area, C88_label, C88_whole_label, C88_union, C88_crossed_*), `AreasDouble` (C88_double and samples); `Spec/Areas`.
C89: `Again` (C89_areas, C89_one, C89_again, C89_crossed_*; C88_even_odd), `AgainDouble`, `AgainExample`; `Spec/Again`.
C90: `StretchedBox` (what the box beside an edge sees), `Stretched` (Planar, Removable, outlines), `StretchedResult` (C90_stretched, C90_crossed, C90_double), `StretchedExample`; `Spec/Stretched`.
C95: `Level`; `Spec/Level`. C94: `Suite`, `SuitePolygons` (the polygons of any two rooms), `SuiteRun` (the evaluated run), `SuiteCompute`, `SuiteFlood`, `SuiteFound` (C94_suite and its sample); `Spec/Suite`. C93: `Checked`, `CheckedSweep`, `CheckedLoop` (other containers do the same), `CheckedCompute` (C93_layout), `CheckedExample`; `Spec/Checked`. C92: `Exact`, `Grid`, `GridMeet`, `GridStretch` (decisions on a grid), `GridSim`, `GridSweep`, `GridTrace` (the two runs), `GridDraws`, `GridCompute` (C92_stretched_anyhow, C92_corners), `GridExample`; `Spec/Grid`. C91: `RoomSample` (the room of 100 by 100), `Room` (the polygons of any room), `RoomFound` (C91_room and its sample), `WallFits`, `Narrow8` to `Narrow100` (evaluated runs), `Narrow` (C91_narrow); `Spec/Room`. C85: `RealOfDouble` (C85_double_iff: a run in double precision that returns is the exact run).

## Findings

Claims found false of the code; each is a theorem (a concrete witness evaluated by the kernel, or a general negation),
next to a `_partial` theorem for what does hold:

* C03 a wrong magic is never reported as InvalidMagic; C10/C11 `MAP+5` is taken for a map name;
* C15 a bad map hides everything after it; C16 a map cut off by the end of the directory is yielded; C17 `last_index`;
* C24 a bad sidedef/sector silently drops the rest; C30 a TEXTUREx offset past the end panics; C34 negating -32768;
* C38 signs and light levels lost in `from_bare`; C42 open outlines; C45/C46 upper textures and openings;
* C50 stale or wrong orientation; C58 a hole recorded as a hole of a hole, hence C63 (unreached islands) and C73 (undrawn holes);
* C60 a stray first edge of a contour; C61 the operation is ignored; C69 panics for touching polygons; C84 wrong labels where a leftmost corner is on an edge from above;
* C62 panics for areas in no sector; C65 too wide maps, things outside; C67 nearly parallel segments; C68 segment order;
* C71 no player starts recognised; C72 nothing drawn for WADs without (non-UDMF) maps; C74 MAP00–MAP14 skipped, Hexen ignored;
  C75 TEXTURE2 ignored if TEXTURE1 is there, panic for a lump outside the file;
* `flip` is implemented but not declared as a subcommand, so it is unreachable from the command line (not a theorem: clap is not modelled);
* C83 in double precision a crossing at whole coordinates may be reported beside it (`fract().abs() < 1e-9` rounds only from above), so crossing
  rectangles can give slanted edges (C84 holds in exact arithmetic only);
* C85 compute panics on a square within, or with an edge in common with, a polygon whose edges are removed, and on a clockwise outline above such an edge;
  whether an edge that one polygon removes and another does not is removed depends on the order of the polygons;
* C66 a mapped file shows later changes, and kills the process if it was truncated; C79 the exit status is 0 after an error,
  an unwritable output file makes chart and route panic.

## Trusted base

* Lean's kernel; every theorem depends on at most `propext`, `Classical.choice`, `Quot.sound` (Mathlib's usual
  three; `vcheck` prints them per theorem). No axioms of our own, no `native_decide`.
* The reading of the Rust source in the model, definition by definition (each cites its lines).
* nom 4's macros (`Model/Nom`), written from their documented expansion; nom's source is not in the sandbox.
* Floating point: class `FloatOps F` without laws, so a theorem "for all F" needs nothing. Theorems with arithmetic say so in
  their type: `IntExact F` (comparison, sum, difference, product of integers up to 2^53 exact, as IEEE 754 gives),
  `SmallIntOrder` (comparison of small integers), or `F = ℝ` (exact arithmetic; what is proved is the algorithm, not its rounding).
  C80 and C82 assume `Double F` (Spec/Double: results are the exact ones rounded to 53 bits by a monotone rounding, square roots accurate to 51 bits; nothing about numbers
  over 2^200 or not finite). `Model/F64` defines IEEE binary64 (as sign and rational magnitude); `Double F64`, `IntExact F64` and
  `SmallIntOrder F64` are proved. That `F64` is what the hardware does is trusted; tools/f64_test.py compares it with the
  hardware's results on random numbers (2007 cases, no difference).
  Kernel-evaluated examples use `F = ℚ`. Unary minus of a float is `0 - x`.
* std containers: sort, BinaryHeap, binary_search, BTreeSet as a parameter `Lib`. Theorems assume only `Lib.Ok`
  (elements are kept, found means equal), `Lib.SearchLawful` where order matters, `Lib.Ends` where termination matters, `Lib.Lawful` (what std documents for a total order) for C76, C77, C80 to C82, C84 to C91, C93 and C94. C84
  also assumes `Lib.SearchHonest`: a binary search that finds no equal element says so, even if the slice is not sorted with respect to the
  element searched (std's documentation leaves the result open then; the implementation returns `Ok` only for an equal element). It is needed
  because the right event of a segment that has been split stays in the queue.
  `listLib` shows that the contracts can be met. HashMap/HashSet are association lists; where iteration order matters it is a parameter.
* bit_vec: `union`, `set`, `get` with their panics (length mismatch, out of range) as lists of Booleans; euclid's `Rect`, `Point2D`.
* RefCell double borrows panic and are modelled; addresses of vertices and segments are indices into their vectors.
* i32 height differences in the route finder cannot overflow for heights read from i16 and are modelled as integers.
* Numbers as text, the style sheet, clap, file IO and progress messages are not modelled.
