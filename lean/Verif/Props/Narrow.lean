import Verif.Props.RoomFound
import Verif.Props.CheckedCompute
import Verif.Props.Narrow8
import Verif.Props.Narrow16
import Verif.Props.Narrow24
import Verif.Props.Narrow32
import Verif.Props.Narrow100
/-!
# A room at most 32 units wide or high has no place for the player (C91)
-/

namespace Idc

variable {m : FullMap ℝ} {x y W H : ℤ}

theorem narrow_checked {V V' : ℤ} (hV : V ∈ [8, 16, 24, 32, 100]) (hV' : V' ∈ [8, 16, 24, 32, 100]) (h : V ≤ 32 ∨ V' ≤ 32) :
    checkedCompute 1000 (asPolygons ℚ (roomPolys V V')) = .ok ⟨[]⟩ := by
  simp only [List.mem_cons, List.not_mem_nil, or_false] at hV hV'
  rcases hV with rfl | rfl | rfl | rfl | rfl <;> rcases hV' with rfl | rfl | rfl | rfl | rfl
  · exact narrow_8_8
  · exact narrow_8_16
  · exact narrow_8_24
  · exact narrow_8_32
  · exact narrow_8_100
  · exact narrow_16_8
  · exact narrow_16_16
  · exact narrow_16_24
  · exact narrow_16_32
  · exact narrow_16_100
  · exact narrow_24_8
  · exact narrow_24_16
  · exact narrow_24_24
  · exact narrow_24_32
  · exact narrow_24_100
  · exact narrow_32_8
  · exact narrow_32_16
  · exact narrow_32_24
  · exact narrow_32_32
  · exact narrow_32_100
  · exact narrow_100_8
  · exact narrow_100_16
  · exact narrow_100_24
  · exact narrow_100_32
  · omega

theorem exists_alike (hW : 0 < W) : ∃ V ∈ ([8, 16, 24, 32, 100] : List ℤ), Alike V W ∧ (W ≤ 32 → V ≤ 32) := by
  rcases lt_trichotomy W 16 with h | rfl | h
  · exact ⟨8, by simp, ⟨by norm_num, hW, by rw [compare_lt_iff_lt.2 h]; rfl, by rw [compare_lt_iff_lt.2 (by omega : W < 32)]; rfl⟩, by norm_num⟩
  · exact ⟨16, by simp, ⟨by norm_num, hW, rfl, rfl⟩, by norm_num⟩
  · rcases lt_trichotomy W 32 with h' | rfl | h'
    · exact ⟨24, by simp, ⟨by norm_num, hW, by rw [compare_gt_iff_gt.2 h]; rfl, by rw [compare_lt_iff_lt.2 h']; rfl⟩, by norm_num⟩
    · exact ⟨32, by simp, ⟨by norm_num, hW, rfl, rfl⟩, by norm_num⟩
    · exact ⟨100, by simp, ⟨by norm_num, hW, by rw [compare_gt_iff_gt.2 h]; rfl, by rw [compare_gt_iff_gt.2 h']; rfl⟩, by omega⟩

/-- The stretched sample is the polygons of the room. -/
theorem fits_polygons {V V' : ℤ} {f g : ℤ → ℤ} (hf : WallFits V W x f) (hg : WallFits V' H y g) :
    asPolygons ℝ (stretchAll f g (roomPolys V V')) = stretchAll (roomMap x W) (roomMap y H) (chamberSample.map fun p => (zPolygon p.1, p.2)) := by
  obtain ⟨a1, a2, a3, a4, a5, a6, _⟩ := hf
  obtain ⟨b1, b2, b3, b4, b5, b6, _⟩ := hg
  simp only [asPolygons, asPolygon, asContour, asPt, FloatOps.ofInt, roomPolys, wholePolygon, stretchAll, chamberSample, List.map_cons, List.map_nil, zPolygon, stretchPolygon, stretchContour, Contour.new, stretchPt,
    ZPt.toPt, roomMap, a1, a2, a3, a4, a5, a6, b1, b2, b3, b4, b5, b6]
  norm_num [sub_eq_add_neg]

/-- What `compute` returns for a narrow room. -/
theorem narrow_compute {lib : Lib} (hl : lib.Lawful) (hs : lib.SearchHonest) (hW : 0 < W) (hH : 0 < H) (hn : W ≤ 32 ∨ H ≤ 32) (hW' : W ≤ 3130) (hH' : H ≤ 3130) (op : BooleanOpType) :
    ∃ N, ∀ fuel, N ≤ fuel → compute lib fuel (stretchAll (roomMap x W) (roomMap y H) (chamberSample.map fun p => (zPolygon p.1, p.2))) op = .ok ⟨[]⟩ := by
  obtain ⟨V, v1, v2, v3⟩ := exists_alike hW
  obtain ⟨V', v1', v2', v3'⟩ := exists_alike hH
  have hb : ∀ {V : ℤ}, V ∈ ([8, 16, 24, 32, 100] : List ℤ) → 0 < V ∧ V ≤ 3130 := fun h => by
    simp only [List.mem_cons, List.not_mem_nil, or_false] at h
    omega
  have h1 := fitMap_fits v2 x
  have h2 := fitMap_fits v2' y
  rw [← fits_polygons h1 h2]
  exact C93_layout (F := ℝ) (E := ℚ) hl hs op (z := ⟨[]⟩) (roomPolys_lines V V') (fits_id.grid fits_id (hb v1).1 (hb v1').1 (hb v1).2 (hb v1').2) (h1.grid h2 hW hH hW' hH')
    (narrow_checked v1 v1' (hn.imp v3 v3')) (by simp)

theorem unreachable_nil {p : Pt ℝ} {i : ℕ} (h : RouteReachable p ([] : List (Contour ℝ)) i) : False := by
  cases h with
  | start k => obtain ⟨c, k, _⟩ := k; simp at k
  | step _ k => obtain ⟨c, k, _⟩ := k; simp at k

/-- **C91.** In a rectangular room at most 32 units wide or high the route finder finds no area at all, wherever the player starts. -/
theorem C91_narrow {lib : Lib} (ho : lib.Ok) (hl : lib.Lawful) (hs : lib.SearchHonest) (hm : IsRoom m x y W H) (hW : 0 < W) (hH : 0 < H) (hn : W ≤ 32 ∨ H ≤ 32) (hW' : W ≤ 3130)
    (hH' : H ≤ 3130) : ∃ N, ∀ fuel, N ≤ fuel → routeMap lib fuel m = .ok (⟨[]⟩, [], []) := by
  obtain ⟨N, hN⟩ := narrow_compute (x := x) (y := y) hl hs hW hH hn hW' hH' .union
  refine ⟨N + 4, fun fuel hf => ?_⟩
  obtain ⟨distance, chunks, h⟩ := C62_map_succeeds lib ho fuel m hm.handles _ (hm.polygons hW hH (fuel := fuel) (by omega)) _ (hN fuel (by omega)) (by simp) (by show (0 + 1) ^ 2 ≤ fuel; omega)
  obtain ⟨hpart, hcon⟩ := C62_route_map lib fuel m _ _ _ h
  obtain rfl : distance = [] := List.length_eq_zero_iff.1 hpart.length
  have hch : chunks = [] := by
    match chunks, hpart, hcon with
    | [], _, _ => rfl
    | l :: rest, hpart, hcon =>
      exfalso
      obtain ⟨s, k, hk⟩ := hcon.paths l (by simp)
      exact unreachable_nil ((hpart.reached s).1 (List.mem_flatten.2 ⟨l, by simp, k⟩))
  rw [h, hch]

/-- A corridor 24 wide and 600 high, the player in it. -/
noncomputable def corridorSample : FullMap ℝ where
  vertices := [⟨-64, 32⟩, ⟨-64, 632⟩, ⟨-40, 632⟩, ⟨-40, 32⟩]
  lines := [exLine 0 0 1 (some 0) none, exLine 1 1 2 (some 1) none 1, ⟨2, 2, 3, 1, 97, 5, some 2, none⟩, exLine 3 3 0 (some 0) none]
  sides := [exSide 0, exSide 0, exSide 0]
  sectors := [⟨0, 0, -8, 128, 160⟩]
  things := [⟨⟨100, 100⟩, 3001⟩, ⟨⟨-52, 80⟩, 1⟩]

theorem C91_narrow_met : listLib.Ok ∧ listLib.Lawful ∧ listLib.SearchHonest ∧ IsRoom corridorSample (-64) 32 24 600 := by
  refine ⟨listLib_ok, listLib_lawful, listLib_honest, ⟨by norm_num [corridorSample], rfl, ?_, ?_, ?_, rfl⟩⟩
  · intro i l h
    rcases i with _ | _ | _ | _ | i <;> simp [corridorSample, exLine] at h <;> subst h <;> simp
  · intro l hl
    simp only [corridorSample, exLine, List.mem_cons, List.not_mem_nil, or_false] at hl
    rcases hl with rfl | rfl | rfl | rfl <;> simp [corridorSample]
  · intro s hs
    simp only [corridorSample, exSide, List.mem_cons, List.not_mem_nil, or_false] at hs
    rcases hs with rfl | rfl | rfl <;> rfl

end Idc
