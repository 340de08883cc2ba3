import Verif.Props.SuitePolygons
import Verif.Props.GridExample
/-!
# C94: what `compute` returns for two rooms
-/

namespace Idc

variable {x y W V H : ℤ}

theorem suite_lines : OnLines {t | t ∈ [-16, 0, 16, 84, 100, 116, 184, 200, 216]} {t | t ∈ [-16, 0, 16, 84, 100, 116]} suitePolys := onLines_of_check (by decide +kernel)

theorem suite_grid_id : Grid {t : ℤ | t ∈ [-16, 0, 16, 84, 100, 116, 184, 200, 216]} {t : ℤ | t ∈ [-16, 0, 16, 84, 100, 116]} id id := grid_of_check (by decide +kernel)

theorem suiteMap_apart (hW : 32 < W) (hV : 32 < V) {a b : ℤ} (ha : a ∈ ([-16, 0, 16, 84, 100, 116, 184, 200, 216] : List ℤ)) (hb : b ∈ ([-16, 0, 16, 84, 100, 116, 184, 200, 216] : List ℤ)) (h : a < b) :
    suiteMap x W V a + min 16 (min (W - 32) (V - 32)) ≤ suiteMap x W V b := by
  simp only [List.mem_cons, List.not_mem_nil, or_false] at ha hb
  unfold suiteMap
  split_ifs <;> omega

theorem suiteMap_near (hW : 32 < W) (hV : 32 < V) {a b : ℤ} (ha : a ∈ ([-16, 0, 16, 84, 100, 116, 184, 200, 216] : List ℤ)) (hb : b ∈ ([-16, 0, 16, 84, 100, 116, 184, 200, 216] : List ℤ)) :
    |suiteMap x W V a - suiteMap x W V b| ≤ W + V + 32 := by
  simp only [List.mem_cons, List.not_mem_nil, or_false] at ha hb
  unfold suiteMap
  rw [abs_le]
  split_ifs <;> omega

theorem zRoomMap_apart (hH : 32 < H) {a b : ℤ} (ha : a ∈ ([-16, 0, 16, 84, 100, 116] : List ℤ)) (hb : b ∈ ([-16, 0, 16, 84, 100, 116] : List ℤ)) (h : a < b) :
    zRoomMap y H a + min 16 (H - 32) ≤ zRoomMap y H b := by
  simp only [List.mem_cons, List.not_mem_nil, or_false] at ha hb
  unfold zRoomMap
  split_ifs <;> omega

theorem zRoomMap_near (hH : 32 < H) {a b : ℤ} (ha : a ∈ ([-16, 0, 16, 84, 100, 116] : List ℤ)) (hb : b ∈ ([-16, 0, 16, 84, 100, 116] : List ℤ)) :
    |zRoomMap y H a - zRoomMap y H b| ≤ H + 32 := by
  simp only [List.mem_cons, List.not_mem_nil, or_false] at ha hb
  unfold zRoomMap
  rw [abs_le]
  split_ifs <;> omega

theorem suite_grid (hW : 32 < W) (hV : 32 < V) (hH : 32 < H) (hr : W + V + 32 ≤ 3162 * min 16 (H - 32)) (hr' : H + 32 ≤ 3162 * min 16 (min (W - 32) (V - 32))) :
    Grid {t : ℤ | t ∈ [-16, 0, 16, 84, 100, 116, 184, 200, 216]} {t : ℤ | t ∈ [-16, 0, 16, 84, 100, 116]} (suiteMap x W V) (zRoomMap y H) where
  monoX a ha b hb hab := by
    have := suiteMap_apart (x := x) hW hV ha hb hab
    omega
  monoY a ha b hb hab := by
    have := zRoomMap_apart (y := y) hH ha hb hab
    omega
  apartX a ha a' ha' hn b hb b' hb' := by
    have h1 := zRoomMap_near (y := y) hH hb hb'
    rcases lt_or_gt_of_ne hn with h | h
    · have := suiteMap_apart (x := x) hW hV ha ha' h
      rw [abs_of_neg (a := suiteMap x W V a - _) (by omega)]
      omega
    · have := suiteMap_apart (x := x) hW hV ha' ha h
      rw [abs_of_pos (a := suiteMap x W V a - _) (by omega)]
      omega
  apartY a ha a' ha' b hb b' hb' hn := by
    have h1 := suiteMap_near (x := x) hW hV ha ha'
    rcases lt_or_gt_of_ne hn with h | h
    · have := zRoomMap_apart (y := y) hH hb hb' h
      rw [abs_of_neg (a := zRoomMap y H b - _) (by omega)]
      omega
    · have := zRoomMap_apart (y := y) hH hb' hb h
      rw [abs_of_pos (a := zRoomMap y H b - _) (by omega)]
      omega

theorem suite_compute {lib : Lib} (hl : lib.Lawful) (hs : lib.SearchHonest) (hW : 32 < W) (hV : 32 < V) (hH : 32 < H) (hr : W + V + 32 ≤ 3162 * min 16 (H - 32))
    (hr' : H + 32 ≤ 3162 * min 16 (min (W - 32) (V - 32))) (op : BooleanOpType) :
    ∃ N, ∀ fuel, N ≤ fuel → compute lib fuel (asPolygons ℝ (stretchAll (suiteMap x W V) (zRoomMap y H) suitePolys)) op = .ok ⟨suiteAreas x y W V H⟩ := by
  obtain ⟨N, hN⟩ := C93_layout (F := ℝ) (E := ℚ) hl hs op suite_lines suite_grid_id (suite_grid (x := x) (y := y) hW hV hH hr hr') suite_run (by
    intro c hc
    simp only [suiteResult, List.mem_cons, List.not_mem_nil, or_false] at hc
    rcases hc with rfl | rfl | rfl
    · have : 0 < (W - 32) * (H - 32) := mul_pos (by omega) (by omega)
      rw [show (ptsArea _).sign = 1 from Int.sign_eq_one_iff_pos.2 _, show (ptsArea _).sign = 1 from by decide]
      simp [stretchContour, stretchPt, ptsArea, suiteMap, zRoomMap]
      nlinarith
    · rw [show (ptsArea _).sign = 1 from Int.sign_eq_one_iff_pos.2 _, show (ptsArea _).sign = 1 from by decide]
      simp [stretchContour, stretchPt, ptsArea, suiteMap, zRoomMap]
      nlinarith
    · have : 0 < (V - 32) * (H - 32) := mul_pos (by omega) (by omega)
      rw [show (ptsArea _).sign = 1 from Int.sign_eq_one_iff_pos.2 _, show (ptsArea _).sign = 1 from by decide]
      simp [stretchContour, stretchPt, ptsArea, suiteMap, zRoomMap]
      nlinarith)
  refine ⟨N, fun fuel hf => (hN fuel hf).trans (congrArg Res.ok ?_)⟩
  simp only [asPolygon, asContour, asPt, FloatOps.ofInt, suiteResult, suiteAreas, List.map_cons, List.map_nil, stretchPolygon, stretchContour, stretchPt, zRoomMap, suiteMap]
  norm_num [sub_eq_add_neg]

end Idc
