import Verif.Props.FloodTotal
import Verif.Props.RouteEval5
/-!
# C62, C63 for whole maps
-/

namespace Idc

open FloatOps

variable {F : Type} [FloatOps F]

theorem routeMap_ok {lib : Lib} {fuel : Nat} {m : FullMap F} {r : Polygon F} {distance : List Int} {chunks : List (List Nat)}
    (h : routeMap lib fuel m = .ok (r, distance, chunks)) :
    floodContours m (routeRefs m) r.contours fuel = .ok (distance, chunks) := by
  unfold routeMap at h
  obtain ⟨ps, _, h⟩ := Res.bind_eq_ok h
  obtain ⟨r', _, h⟩ := Res.bind_eq_ok h
  obtain ⟨⟨d, cs⟩, h3, h⟩ := Res.bind_eq_ok h
  cases h
  exact h3

/-- **C62, C63 for a map**: the result of the route finder on a map. -/
theorem C62_route_map (lib : Lib) (fuel : Nat) (m : FullMap F) (r : Polygon F) (distance : List Int) (chunks : List (List Nat))
    (h : routeMap lib fuel m = .ok (r, distance, chunks)) :
    ChunksPartition ((m.findPlayerStart).getD ⟨ofInt 0, ofInt 0⟩) r.contours distance chunks ∧
    ChunksConnected m (routeRefs m) r.contours chunks :=
  ⟨C62_partition _ _ _ _ _ _ (routeMap_ok h), C63_connected _ _ _ _ _ _ (routeMap_ok h)⟩

/-- The handles in a map are valid. -/
structure FullMap.HandlesOk (m : FullMap F) : Prop where
  sides : ∀ l ∈ m.lines, ∀ h, l.front = some h ∨ l.back = some h → h < m.sides.length
  sectors : ∀ sd ∈ m.sides, sd.sector < m.sectors.length

theorem mapList_length {α β : Type} {f : α → Res β} {l : List α} {l' : List β} (h : Res.mapList f l = .ok l') : l'.length = l.length :=
  (mapList_getElem h).1

theorem routePolygons_length {m : FullMap F} {fuel : Nat} {ps : List (Polygon F × PolygonMode)} (h : routePolygons m fuel = .ok ps) :
    ps.length = (routeRefs m).length := by
  unfold routePolygons at h
  obtain ⟨a, h1, h⟩ := Res.bind_eq_ok h
  obtain ⟨b, h2, h⟩ := Res.bind_eq_ok h
  cases h
  simp [routeRefs, mapList_length h1, mapList_length h2]

theorem routeRefs_sector {m : FullMap F} {p : Nat} (h : p < m.sectors.length) : (routeRefs m)[p]? = some (.sector p) := by
  unfold routeRefs
  rw [List.getElem?_append_left (by simpa using h)]
  simp [h]

/-- **C62, a map**: if the handles of a map are valid, the areas of its polygons were found and each of them is in a
sector, the search for routes succeeds. -/
theorem C62_map_succeeds (lib : Lib) (hl : lib.Ok) (fuel : Nat) (m : FullMap F) (hm : m.HandlesOk) (polygons : List (Polygon F × PolygonMode))
    (hp : routePolygons m fuel = .ok polygons) (r : Polygon F) (hr : compute lib fuel polygons .union = .ok r)
    (hin : ∀ c ∈ r.contours, ∃ (s : Nat), s < m.sectors.length ∧ c.from_polygons[s]? = some true)
    (hf : (r.contours.length + 1) ^ 2 ≤ fuel) : ∃ distance chunks, routeMap lib fuel m = .ok (r, distance, chunks) := by
  have hlen := routePolygons_length hp
  have R : RouteReady m (routeRefs m) r.contours := by
    refine ⟨?_, ?_, ?_, hm.sectors, (C57_neighbors lib hl fuel _ _ r hr).length, ?_, ?_⟩
    · intro c hc p hp
      have := (C59_from_polygons lib hl fuel _ _ r hr c hc).1
      have := (List.getElem?_eq_some_iff.1 hp).1
      omega
    · intro h hh
      simpa [routeRefs] using hh
    · intro l hh
      simp only [routeRefs, List.mem_append, List.mem_map, PolygonRef.line.injEq, exists_eq_right, reduceCtorEq, and_false,
        exists_false, false_or] at hh
      exact hm.sides l hh
    · intro c hc h hh
      obtain ⟨p, hp⟩ := List.getElem?_of_mem hc
      exact ((C58_holes lib hl fuel _ _ r hr).1.order p c hp h hh).2
    · intro c hc
      obtain ⟨s, hs, hfl⟩ := hin c hc
      exact ⟨s, s, hfl, routeRefs_sector hs, fun q hq _ => ⟨q, routeRefs_sector (by omega)⟩⟩
  obtain ⟨⟨d, cs⟩, hd⟩ := C62_succeeds m (routeRefs m) r.contours R
  refine ⟨d, cs, ?_⟩
  unfold routeMap
  rw [hp]
  show (compute lib fuel polygons .union >>= _) = _
  rw [hr]
  show (floodContours m (routeRefs m) r.contours fuel >>= _) = _
  rw [hd fuel hf]
  rfl

/-! ### Examples -/

/-- The first room, the door and the second room: one chunk on even ground and up a step of 24, two if the
second floor is higher. -/
theorem C62_two_rooms :
    exRoute (exRooms 0 24) = .ok ([[(16, 16), (84, 16), (84, 84), (16, 84)], [(84, 16), (100, 16), (116, 16), (116, 84), (100, 84), (84, 84)],
      [(116, 16), (184, 16), (184, 84), (116, 84)]], [1, 1, 1], [[0, 1, 2]]) ∧
    (exRoute (exRooms 0 25)).map (fun r => r.2) = .ok ([1, 2, 2], [[0], [1, 2]]) ∧
    (exRoute (exRooms 1 0)).map (fun r => r.2) = .ok ([1, 2, 2], [[0], [1, 2]]) := by
  exact ⟨rooms_24, rooms_25, rooms_blocked⟩

/-- The hypothesis of `C62_map_succeeds` on handles is met. -/
theorem C62_handles_met : (exRooms 0 0).HandlesOk := by
  constructor
  · intro l hl h hh
    simp only [exRooms, exLine, List.mem_cons, List.not_mem_nil, or_false] at hl
    rcases hl with rfl | rfl | rfl | rfl | rfl | rfl | rfl <;> simp [exRooms] at hh ⊢ <;> omega
  · decide

/-- Without the hypothesis that every area is in a sector, `C62_map_succeeds` fails: here the areas are found, but the
search panics where only the second line is (it stops looking for sectors at the blocking line, and takes the
highest of no floors). -/
theorem C62_panics_outside :
    ((routePolygons exVoid 400).bind fun ps => (compute listLib 400 ps .union).map fun r => r.contours.length) = .ok 6 ∧
    exRoute exVoid = .panic .unwrap := by
  exact ⟨void_areas, void_panics⟩

end Idc
