import Verif.Props.RouteSvg
import Verif.Props.Textures
import Verif.Props.WadIter
import Verif.Props.Shape
import Verif.Props.TidyLib
import Verif.Props.Endpoint
import Verif.Props.SweepLine
import Verif.Spec.Float

/-!
# Concrete cases meeting the hypotheses of theorems whose own files show none

Each theorem here takes one non-trivial input and shows that the theorems named in its comment apply to it.
-/

namespace Idc

/-- A directory with a lump, a Hexen map and a lump (for C12, C13, C16, C17). -/
def hexenWad : BareWAD :=
  dirWad ["INTRO", "MAP01", "THINGS", "LINEDEFS", "SIDEDEFS", "VERTEXES", "SECTORS", "BEHAVIOR", "CREDITS"]

/-- The map in `hexenWad`. -/
def hexenBlock : MapEntryBlock where
  format := .Hexen
  name := .MAPxx 1
  marker_index := 1
  last_index := 8
  things_index := some 2
  linedefs_index := some 3
  sidedefs_index := some 4
  vertexes_index := some 5
  sectors_index := some 6
  behavior_index := some 7

theorem C12_hypotheses_met : hexenBlock ∈ hexenWad.iterMaps ∧ hexenBlock.lumps.map (·.2) = [2, 3, 4, 5, 6, 7] ∧
    hexenBlock.marker_index + hexenBlock.lumps.length + 1 < hexenWad.directory.length := by
  refine ⟨(mem_iterMaps _ _).mpr ?_, by decide, by decide⟩
  unfold BareWAD.items
  rw [wadItems_unfold]
  have h1 : wadNext (enumFrom 0 hexenWad.directory) = (some (.entry 0 (ent "INTRO")), enumFrom 1 (hexenWad.directory.drop 1)) := by
    decide
  rw [h1]
  simp only
  rw [wadItems_unfold]
  have h2 : wadNext (enumFrom 1 (hexenWad.directory.drop 1)) = (some (.map hexenBlock), enumFrom 8 (hexenWad.directory.drop 8)) := by
    decide
  rw [h2]
  simp

/-- The map `wellFormedSample` with a player start behind another thing (for C36, C39, C40). -/
def startSample : BareDoomMap := { wellFormedSample with things := [⟨5, 5, 0, 3001, 7⟩, ⟨10, 20, 90, 1, 7⟩] }

theorem C40_hypotheses_met {F : Type} [FloatOps F] : ∃ m : FullMap F, FullMap.fromBare startSample = .ok m ∧
    startSample.vertices ≠ [] ∧ m.findPlayerStart = some ⟨FloatOps.ofInt 10, FloatOps.ofInt 20⟩ := by
  refine ⟨_, fromBare_eq _, by decide, ?_⟩
  refine (C40_player_start startSample _ (fromBare_eq _) _).mpr
    ⟨[⟨5, 5, 0, 3001, 7⟩], ⟨10, 20, 90, 1, 7⟩, [], rfl, by decide, by decide, ?_⟩
  congr 1

/-- The rectangle around `wellFormedSample` is the one of its three vertices (for C39). -/
theorem C39_hypotheses_met : ∃ m : FullMap ℝ, FullMap.fromBare wellFormedSample = .ok m ∧ wellFormedSample.vertices ≠ [] ∧
    m.bbox = { x := 0, y := 0, width := 64, height := 64 } := by
  refine ⟨_, fromBare_eq _, by decide, ?_⟩
  obtain ⟨x0, y0, x1, y1, hb, he⟩ := C39_bbox (F := ℝ) wellFormedSample _ (fromBare_eq _) (by decide)
  have h : x0 = 0 ∧ y0 = 0 ∧ x1 = 64 ∧ y1 = 64 := by
    obtain ⟨hi, ⟨a, ha, ha'⟩, ⟨b, hb, hb'⟩, ⟨c, hc, hc'⟩, ⟨d, hd, hd'⟩⟩ := hb
    have e : (wellFormedSample.vertices.map fun v => (v.x.toInt, v.y.toInt)) = [(0, 0), (64, 0), (64, 64)] := by decide
    rw [e] at hi ha hb hc hd
    simp only [List.mem_cons, List.not_mem_nil, or_false] at hi ha hb hc hd
    have h1 := hi _ (Or.inl rfl)
    have h2 := hi _ (Or.inr (Or.inl rfl))
    have h3 := hi _ (Or.inr (Or.inr rfl))
    dsimp only at h1 h2 h3
    rcases ha with rfl | rfl | rfl <;> rcases hb with rfl | rfl | rfl <;> rcases hc with rfl | rfl | rfl <;>
      rcases hd with rfl | rfl | rfl <;> dsimp only at ha' hb' hc' hd' <;> omega
  obtain ⟨rfl, rfl, rfl, rfl⟩ := h
  rw [he]
  simp [FloatOps.ofInt]

/-- C36: the second line of `wellFormedSample` has no back side, and the first has both. -/
theorem C36_hypotheses_met {F : Type} [FloatOps F] : ∃ m : FullMap F, FullMap.fromBare wellFormedSample = .ok m ∧
    m.lines.map (fun l => (l.isOneSided, l.isTwoSided)) = [(false, true), (true, false)] := by
  refine ⟨_, fromBare_eq _, rfl⟩

/-- Exact arithmetic meets the assumption on small integers. -/
instance : SmallIntOrder ℝ where
  pos n _ := by simp [FloatOps.lt, FloatOps.ofInt]

/-- C45_no_empty_texture: counting succeeds on a window between two rooms, in both profiles. -/
theorem C45_hypotheses_met (pr : Profile) : ∃ counts : TexCounts ℝ, (windowMap 0 128 0 96).countTextures pr = .ok counts ∧
    Reports counts ((windowMap 0 128 0 96).wallAreas chargedParts) :=
  C45_counts_partial pr _ (C46_hypotheses_met (F := ℝ)).1 (C46_hypotheses_met (F := ℝ)).2.1

/-- C49: a square drawn counterclockwise has points, and `set_clockwise` reverses it. -/
theorem C49_hypotheses_met : (exRect 0 0 10 10).points ≠ [] ∧
    ((exRect 0 0 10 10).setClockwise.map fun c => c.points.map fun p => (p.x, p.y)) = .ok [(0, 10), (10, 10), (10, 0), (0, 0)] ∧
    ((exRect 0 0 10 10).setCounterclockwise.map fun c => c.points.map fun p => (p.x, p.y)) = .ok [(0, 0), (10, 0), (10, 10), (0, 10)] ∧
    (Contour.ofPoints ([] : List (Pt Rat))).is_clockwise = none := by
  decide +kernel

/-- C55: the edges of a triangle are well formed, in whichever direction they are given. -/
theorem C55_hypotheses_met : (∃ s : SweepSegment ℝ Unit, SweepSegment.new ⟨0, 0⟩ ⟨4, 1⟩ 0 0 () = .ok s ∧ s.WellFormed) ∧
    ∃ s : SweepSegment ℝ Unit, SweepSegment.new ⟨4, 1⟩ ⟨4, -3⟩ 1 1 () = .ok s ∧ s.WellFormed := by
  refine ⟨?_, ?_⟩
  · obtain ⟨s, hs⟩ : ∃ s : SweepSegment ℝ Unit, SweepSegment.new ⟨0, 0⟩ ⟨4, 1⟩ 0 0 () = .ok s := by
      unfold SweepSegment.new
      rw [if_neg (by norm_num [Pt.beq, FloatOps.eq])]
      split <;> exact ⟨_, rfl⟩
    exact ⟨s, hs, C55_new_wellFormed hs⟩
  · obtain ⟨s, hs⟩ : ∃ s : SweepSegment ℝ Unit, SweepSegment.new ⟨4, 1⟩ ⟨4, -3⟩ 1 1 () = .ok s := by
      unfold SweepSegment.new
      rw [if_neg (by norm_num [Pt.beq, FloatOps.eq])]
      split <;> exact ⟨_, rfl⟩
    exact ⟨s, hs, C55_new_wellFormed hs⟩

/-- C56: sorted lists meet what is assumed of the library, and here is a run. -/
theorem C56_hypotheses_met : listLib.SearchLawful ∧
    (runLine listLib [.insert 5, .insert 1, .insertAndGetNeighbors 3, .getPrevious 5, .remove 4, .removeAndGetNeighbors 3] ([] : List Nat)).map
      (fun r => (r.1.map fun a => (a.found, a.prev, a.next), r.2)) =
      .ok ([(none, none, none), (none, none, none), (none, some 1, some 5), (none, some 3, none), (some false, none, none),
        (some true, some 1, some 5)], [1, 5]) :=
  ⟨listLib_searchLawful, by decide +kernel⟩

/-- C60_all_edges_removed: two overlapping squares, both with their edges to be removed. -/
theorem C60_hypotheses_met : (compute listLib 200 (exCorner.map fun p => (p.1, .removeEdges)) .union).map (fun r => r.contours.length) = .ok 0 ∧
    ∀ p ∈ exCorner.map fun p => (p.1, PolygonMode.removeEdges), p.2 = .removeEdges := by
  decide +kernel

/-- C73: the route through the two rooms of `exRooms` is found, and so drawn. -/
theorem C73_hypotheses_met : ∃ r distance chunks doc, routeMap listLib 400 (exRooms 0 24) = .ok (r, distance, chunks) ∧
    r.contours.length = 3 ∧ routeMapAsSvg listLib 400 (exRooms 0 24) = .ok doc ∧ doc.shapes.map (fun s => s.id) = externals r.contours := by
  have h := C62_two_rooms.1
  unfold exRoute at h
  cases hr : routeMap listLib 400 (exRooms 0 24) with
  | ok v =>
    obtain ⟨r, distance, chunks⟩ := v
    rw [hr] at h
    simp only [Res.map, Res.ok.injEq, Prod.mk.injEq] at h
    obtain ⟨doc, hd⟩ := C73_succeeds listLib listLib_ok 400 (exRooms 0 24) r distance chunks hr
    obtain ⟨r', d', c', h1, h2, _⟩ := C73_drawing listLib 400 (exRooms 0 24) doc hd
    rw [hr] at h1
    cases h1
    refine ⟨r, distance, chunks, doc, rfl, ?_, hd, h2⟩
    have := congrArg List.length h.1
    simpa using this
  | _ => rw [hr] at h; cases h

end Idc
