import Verif.Props.Room
import Verif.Props.RouteExamples
/-!
# C91: what the route finder finds in a rectangular room
-/

namespace Idc

open Plan

variable {x y W H : ℤ} {m : FullMap ℝ}

/-- The coordinates that occur in the sample. -/
theorem chamber_coordinates : ∀ q ∈ (chamberSampleCut.flatMap fun p => p.1).flatMap fun r => r,
    q.1 ∈ [(-16 : ℤ), 0, 16, 84, 100, 116] ∧ q.2 ∈ [(-16 : ℤ), 0, 16, 84, 100, 116] := by decide +kernel

theorem chamber_corner {q : Pt ℝ} (h : q ∈ allCorners (chamberSampleCut.map fun p => (zPolygon p.1, p.2))) :
    (∃ a ∈ [(-16 : ℤ), 0, 16, 84, 100, 116], q.x = a) ∧ ∃ b ∈ [(-16 : ℤ), 0, 16, 84, 100, 116], q.y = b := by
  rw [allCorners_z] at h
  obtain ⟨z, hz, rfl⟩ := List.mem_map.1 h
  obtain ⟨h1, h2⟩ := chamber_coordinates z hz
  exact ⟨⟨z.1, h1, rfl⟩, ⟨z.2, h2, rfl⟩⟩

theorem roomMap_values {a : ℤ} (h : a ∈ [(-16 : ℤ), 0, 16, 84, 100, 116]) :
    a = -16 ∧ roomMap x W a = x - 16 ∨ a = 0 ∧ roomMap x W a = x ∨ a = 16 ∧ roomMap x W a = x + 16 ∨ a = 84 ∧ roomMap x W a = x + W - 16 ∨
      a = 100 ∧ roomMap x W a = x + W ∨ a = 116 ∧ roomMap x W a = x + W + 16 := by
  simp only [List.mem_cons, List.not_mem_nil, or_false] at h
  rcases h with rfl | rfl | rfl | rfl | rfl | rfl <;> norm_num [roomMap] <;> ring

theorem roomMap_mono (hW : 32 < W) {a b : ℤ} (ha : a ∈ [(-16 : ℤ), 0, 16, 84, 100, 116]) (hb : b ∈ [(-16 : ℤ), 0, 16, 84, 100, 116]) (h : a < b) : roomMap x W a < roomMap x W b := by
  have w : (32 : ℝ) < W := by exact_mod_cast hW
  rcases roomMap_values (x := x) (W := W) ha with ⟨ea, e⟩ | ⟨ea, e⟩ | ⟨ea, e⟩ | ⟨ea, e⟩ | ⟨ea, e⟩ | ⟨ea, e⟩ <;>
    rcases roomMap_values (x := x) (W := W) hb with ⟨eb, e'⟩ | ⟨eb, e'⟩ | ⟨eb, e'⟩ | ⟨eb, e'⟩ | ⟨eb, e'⟩ | ⟨eb, e'⟩ <;>
    first
      | (exfalso; omega)
      | (rw [e, e']; linarith)

theorem roomMap_gap {μ : ℝ} (h16 : μ ≤ 16) (hμ : μ ≤ W - 32) {a b : ℤ} (ha : a ∈ [(-16 : ℤ), 0, 16, 84, 100, 116]) (hb : b ∈ [(-16 : ℤ), 0, 16, 84, 100, 116])
    (h : a < b) : roomMap x W a + μ ≤ roomMap x W b := by
  rcases roomMap_values (x := x) (W := W) ha with ⟨ea, e⟩ | ⟨ea, e⟩ | ⟨ea, e⟩ | ⟨ea, e⟩ | ⟨ea, e⟩ | ⟨ea, e⟩ <;>
    rcases roomMap_values (x := x) (W := W) hb with ⟨eb, e'⟩ | ⟨eb, e'⟩ | ⟨eb, e'⟩ | ⟨eb, e'⟩ | ⟨eb, e'⟩ | ⟨eb, e'⟩ <;>
    first
      | (exfalso; omega)
      | (rw [e, e']; linarith)

theorem roomMap_range (hW : 32 < W) {a : ℤ} (ha : a ∈ [(-16 : ℤ), 0, 16, 84, 100, 116]) : x - 16 ≤ roomMap x W a ∧ roomMap x W a ≤ x + W + 16 := by
  have w : (32 : ℝ) < W := by exact_mod_cast hW
  rcases roomMap_values (x := x) (W := W) ha with ⟨ea, e⟩ | ⟨ea, e⟩ | ⟨ea, e⟩ | ⟨ea, e⟩ | ⟨ea, e⟩ | ⟨ea, e⟩ <;> rw [e] <;> constructor <;> linarith

theorem room_order (hW : 32 < W) (hH : 32 < H) : KeepOrder (roomMap x W) (roomMap y H) (chamberSampleCut.map fun p => (zPolygon p.1, p.2)) := by
  constructor
  · rintro _ ⟨q, hq, rfl⟩ _ ⟨q', hq', rfl⟩ hlt
    obtain ⟨a, ha, e⟩ := (chamber_corner hq).1
    obtain ⟨b, hb, e'⟩ := (chamber_corner hq').1
    rw [e, e'] at hlt ⊢
    exact roomMap_mono hW ha hb (by exact_mod_cast hlt)
  · rintro _ ⟨q, hq, rfl⟩ _ ⟨q', hq', rfl⟩ hlt
    obtain ⟨a, ha, e⟩ := (chamber_corner hq).2
    obtain ⟨b, hb, e'⟩ := (chamber_corner hq').2
    rw [e, e'] at hlt ⊢
    exact roomMap_mono hH ha hb (by exact_mod_cast hlt)

/-- Two different coordinates are not close. -/
theorem roomMap_apart {μ : ℝ} (h16 : μ ≤ 16) (hμ : μ ≤ W - 32) (h0 : 0 ≤ μ) {a b : ℤ} (ha : a ∈ [(-16 : ℤ), 0, 16, 84, 100, 116]) (hb : b ∈ [(-16 : ℤ), 0, 16, 84, 100, 116])
    (h : roomMap x W a ≠ roomMap x W b) : μ ^ 2 ≤ (roomMap x W a - roomMap x W b) ^ 2 := by
  rcases lt_trichotomy a b with k | k | k
  · have := roomMap_gap (x := x) h16 hμ ha hb k
    nlinarith
  · exact absurd (by rw [k]) h
  · have := roomMap_gap (x := x) h16 hμ hb ha k
    nlinarith

theorem roomMap_near (hW : 32 < W) {a b : ℤ} (ha : a ∈ [(-16 : ℤ), 0, 16, 84, 100, 116]) (hb : b ∈ [(-16 : ℤ), 0, 16, 84, 100, 116]) :
    (roomMap x W a - roomMap x W b) ^ 2 ≤ (W + 32) ^ 2 := by
  have h1 := roomMap_range (x := x) hW ha
  have h2 := roomMap_range (x := x) hW hb
  have w : (32 : ℝ) < W := by exact_mod_cast hW
  rw [sq_le_sq, abs_of_pos (by linarith : (0 : ℝ) < W + 32), abs_le]
  constructor <;> linarith [h1.1, h1.2, h2.1, h2.2]

theorem off_upright {e e' : Pt ℝ × Pt ℝ} {μ L : ℝ} (hμ : 0 < μ) (hL : 0 ≤ L) (hLμ : L ≤ 3162 * μ) (he : e.1.x = e.2.x) (hne : e.1.y ≠ e.2.y)
    (h1 : μ ^ 2 ≤ (e'.1.x - e.1.x) ^ 2) (h2 : (e'.1.y - e.1.y) ^ 2 ≤ L ^ 2) : ClearlyOff e e.1 e'.1 := by
  unfold ClearlyOff
  rw [he, sub_self]
  rw [he] at h1
  have hd : 0 < (e.2.y - e.1.y) ^ 2 := by
    have : e.2.y - e.1.y ≠ 0 := sub_ne_zero.2 (Ne.symm hne)
    positivity
  have hL2 : L ^ 2 ≤ (3162 * μ) ^ 2 := by nlinarith
  have key : 1 / 10 ^ 7 * ((e'.1.x - e.2.x) ^ 2 + (e'.1.y - e.1.y) ^ 2) < (e'.1.x - e.2.x) ^ 2 := by nlinarith
  nlinarith [mul_lt_mul_of_pos_left key hd]

theorem off_level {e e' : Pt ℝ × Pt ℝ} {μ L : ℝ} (hμ : 0 < μ) (hL : 0 ≤ L) (hLμ : L ≤ 3162 * μ) (he : e.1.y = e.2.y) (hne : e.1.x ≠ e.2.x)
    (h1 : μ ^ 2 ≤ (e'.1.y - e.1.y) ^ 2) (h2 : (e'.1.x - e.1.x) ^ 2 ≤ L ^ 2) : ClearlyOff e e.1 e'.1 := by
  unfold ClearlyOff
  rw [he, sub_self]
  rw [he] at h1
  have hd : 0 < (e.2.x - e.1.x) ^ 2 := by
    have : e.2.x - e.1.x ≠ 0 := sub_ne_zero.2 (Ne.symm hne)
    positivity
  have hL2 : L ^ 2 ≤ (3162 * μ) ^ 2 := by nlinarith
  have key : 1 / 10 ^ 7 * ((e'.1.x - e.1.x) ^ 2 + (e'.1.y - e.2.y) ^ 2) < (e'.1.y - e.2.y) ^ 2 := by nlinarith
  nlinarith [mul_lt_mul_of_pos_left key hd]

theorem chamber_straight : AxisParallel (chamberSampleCut.map fun p => (zPolygon p.1, p.2)) := axisParallel_of_check (by decide +kernel)

theorem pt_ne {p q : Pt ℝ} (h : p ≠ q) : p.x ≠ q.x ∨ p.y ≠ q.y := by
  by_contra hc
  push Not at hc
  exact h (by cases p; cases q; simp only at hc; rw [hc.1, hc.2])

/-- The zones around the walls of a room, cut where they cross, are a plane drawing. -/
theorem room_planar (hW : 32 < W) (hH : 32 < H) (hWH : W + 32 ≤ 3162 * min 16 (H - 32)) (hHW : H + 32 ≤ 3162 * min 16 (W - 32)) :
    Planar (stretchAll (roomMap x W) (roomMap y H) (chamberSampleCut.map fun p => (zPolygon p.1, p.2))) := by
  obtain ⟨φ, ψ, hφ⟩ := (room_order (x := x) (y := y) hW hH).extend
  have hS : Separate (· ∈ allCorners (stretchAll (roomMap x W) (roomMap y H) (chamberSampleCut.map fun p => (zPolygon p.1, p.2))))
      (Drawn (stretchAll (roomMap x W) (roomMap y H) (chamberSampleCut.map fun p => (zPolygon p.1, p.2)))) := by
    rw [stretchAll_z (f := roomMap x W) (g := roomMap y H) (zRoomMap x W) (zRoomMap y H) (roomMap_cast x W) (roomMap_cast y H)]
    exact whole_separate (fun q hq => z_whole hq) fun e he => Plan.drawn_corner he
  have hA := (chamber_straight.stretch (f := roomMap x W) (g := roomMap y H))
  have hc : ∀ q ∈ allCorners (stretchAll (roomMap x W) (roomMap y H) (chamberSampleCut.map fun p => (zPolygon p.1, p.2))),
      (∃ a ∈ [(-16 : ℤ), 0, 16, 84, 100, 116], q.x = roomMap x W a) ∧ ∃ b ∈ [(-16 : ℤ), 0, 16, 84, 100, 116], q.y = roomMap y H b := by
    intro q hq
    rw [allCorners_stretch] at hq
    obtain ⟨p, hp, rfl⟩ := List.mem_map.1 hq
    obtain ⟨⟨a, ha, e⟩, b, hb, e'⟩ := chamber_corner hp
    exact ⟨⟨a, ha, by rw [← e]; rfl⟩, ⟨b, hb, by rw [← e']; rfl⟩⟩
  have w1 : (32 : ℝ) < W := by exact_mod_cast hW
  have w2 : (32 : ℝ) < H := by exact_mod_cast hH
  have w3 : (W : ℝ) + 32 ≤ 3162 * Min.min 16 ((H : ℝ) - 32) := by exact_mod_cast hWH
  have w4 : (H : ℝ) + 32 ≤ 3162 * Min.min 16 ((W : ℝ) - 32) := by exact_mod_cast hHW
  have hd : ∀ e e', Drawn (stretchAll (roomMap x W) (roomMap y H) (chamberSampleCut.map fun p => (zPolygon p.1, p.2))) e →
      Drawn (stretchAll (roomMap x W) (roomMap y H) (chamberSampleCut.map fun p => (zPolygon p.1, p.2))) e' → ParallelEdges e e' → OnLine e e'.1 ∨ ClearlyOff e e.1 e'.1 := by
    intro e e' he he' hp
    obtain ⟨⟨a, ha, ea⟩, b, hb, eb⟩ := hc _ (Plan.drawn_corner he).1
    obtain ⟨⟨a', ha', ea'⟩, b', hb', eb'⟩ := hc _ (Plan.drawn_corner he').1
    by_cases ho : OnLine e e'.1
    · exact Or.inl ho
    · right
      rcases drawn_straight hA he with h | h
      · have hy : e.1.y ≠ e.2.y := (pt_ne he.1).resolve_left fun k => k h
        have hx : e'.1.x ≠ e.1.x := fun k => ho (by unfold OnLine; rw [k, h]; ring)
        refine off_upright (μ := Min.min 16 (W - 32)) (L := H + 32) (lt_min (by norm_num) (by linarith)) (by linarith) w4 h hy ?_ ?_
        · rw [ea, ea'] at *
          exact roomMap_apart (min_le_left _ _) (min_le_right _ _) (le_min (by norm_num) (by linarith)) ha' ha hx
        · rw [eb, eb']
          exact roomMap_near hH hb' hb
      · have hx : e.1.x ≠ e.2.x := (pt_ne he.1).resolve_right fun k => k h
        have hy : e'.1.y ≠ e.1.y := fun k => ho (by unfold OnLine; rw [k, h]; ring)
        refine off_level (μ := Min.min 16 (H - 32)) (L := W + 32) (lt_min (by norm_num) (by linarith)) (by linarith) w3 h hx ?_ ?_
        · rw [eb, eb'] at *
          exact roomMap_apart (min_le_left _ _) (min_le_right _ _) (le_min (by norm_num) (by linarith)) hb' hb hy
        · rw [ea, ea']
          exact roomMap_near hW ha' ha
  rw [stretchAll_congr hφ] at hS hd ⊢
  exact Planar.stretch chamber_crossed.planar chamber_straight hS hd

/-- What `compute` returns for a room. -/
theorem room_compute {lib : Lib} (hl : lib.Lawful) (hs : lib.SearchHonest) (hW : 32 < W) (hH : 32 < H) (hWH : W + 32 ≤ 3162 * min 16 (H - 32))
    (hHW : H + 32 ≤ 3162 * min 16 (W - 32)) (op : BooleanOpType) {fuel : ℕ} (hf : 260 < fuel) : ∃ c : Contour ℝ,
    compute lib fuel (stretchAll (roomMap x W) (roomMap y H) (chamberSample.map fun p => (zPolygon p.1, p.2))) op = .ok ⟨[c]⟩ ∧
    c.points = [⟨x + 16, y + 16⟩, ⟨x + W - 16, y + 16⟩, ⟨x + W - 16, y + H - 16⟩, ⟨x + 16, y + H - 16⟩] ∧
    c.from_polygons = [true, false, false, false, false] ∧ c.neighbors = [false] ∧ c.holes = [] ∧ c.external = true := by
  obtain ⟨c, hr, h1, h2, h3, h4, h5⟩ := chamber_result
  have h52 : (allCorners (chamberSampleCut.map fun p => (zPolygon p.1, p.2))).length = 52 := rfl
  have hrun : compute lib fuel (chamberSample.map fun p => (zPolygon p.1, p.2)) op = .ok ⟨[c]⟩ := by
    rw [C84_same_run hl hs chamber_crossed op (by rw [h52]; omega)]
    exact ((C86_exact hl chamber_crossed.planar chamber_removable op (by rw [h52]; omega)).1 _).2 hr
  refine ⟨stretchContour (roomMap x W) (roomMap y H) c, ?_, ?_, h2, h3, h4, h5⟩
  · rw [C90_crossed hl hs hl hs chamber_crossed (axisParallel_of_check (by decide +kernel)) chamber_removable (room_order hW hH) (room_planar hW hH hWH hHW) op op
      (fuel := fuel) (by rw [h52]; omega) (by rw [h52]; omega), hrun]
    rfl
  · show c.points.map _ = _
    rw [h1]
    simp only [List.map_cons, List.map_nil, stretchPt, roomMap]
    norm_num
    ring_nf
    simp

theorem IsRoom.handles (h : IsRoom m x y W H) : m.HandlesOk where
  sides l hl k hk := by
    obtain ⟨h1, j, h2, h3⟩ := h.sided l hl
    rw [h1, h2] at hk
    rcases hk with hk | hk
    · cases hk; exact h3
    · cases hk
  sectors sd hsd := by rw [h.sides sd hsd, h.sectors]; exact one_pos

theorem four_box {c : Contour ℝ} {a b a' b' : ℝ} (h : c.points = [⟨a, b⟩, ⟨a', b⟩, ⟨a', b'⟩, ⟨a, b'⟩]) (ha : a ≤ a') (hb : b ≤ b') : c.bbox = ⟨a, b, a' - a, b' - b⟩ := by
  unfold Contour.bbox
  rw [h]
  simp [bboxLoop, FloatOps.min, FloatOps.max, FloatOps.sub, ha, hb]

/-- **C91.** In a rectangular room the route finder finds one area, the room without what is within 16 units of its walls, and it is reached if and only if the player starts in it. -/
theorem C91_room {lib : Lib} (ho : lib.Ok) (hl : lib.Lawful) (hs : lib.SearchHonest) (hm : IsRoom m x y W H) (hW : 32 < W) (hH : 32 < H)
    (hWH : W + 32 ≤ 3162 * min 16 (H - 32)) (hHW : H + 32 ≤ 3162 * min 16 (W - 32)) {fuel : ℕ} (hf : 260 < fuel) :
    ∃ (c : Contour ℝ) (distance : List ℤ) (chunks : List (List ℕ)), routeMap lib fuel m = .ok (⟨[c]⟩, distance, chunks) ∧
      c.points = [⟨x + 16, y + 16⟩, ⟨x + W - 16, y + 16⟩, ⟨x + W - 16, y + H - 16⟩, ⟨x + 16, y + H - 16⟩] ∧
      c.from_polygons = [true, false, false, false, false] ∧ c.neighbors = [false] ∧ c.holes = [] ∧ c.external = true ∧
      (x + 16 ≤ m.startPoint.x ∧ m.startPoint.x < x + W - 16 ∧ y + 16 ≤ m.startPoint.y ∧ m.startPoint.y < y + H - 16 → distance = [1] ∧ chunks = [[0]]) ∧
      (¬ (x + 16 ≤ m.startPoint.x ∧ m.startPoint.x < x + W - 16 ∧ y + 16 ≤ m.startPoint.y ∧ m.startPoint.y < y + H - 16) → distance = [0] ∧ chunks = []) := by
  obtain ⟨c, hr, h1, h2, h3, h4, h5⟩ := room_compute (x := x) (y := y) hl hs hW hH hWH hHW .union hf
  have hp := hm.polygons (by omega) (by omega) (fuel := fuel) (by omega)
  obtain ⟨distance, chunks, h⟩ := C62_map_succeeds lib ho fuel m hm.handles _ hp _ hr (by
    intro c' hc'
    rw [List.mem_singleton.1 hc', h2, hm.sectors]
    exact ⟨0, one_pos, rfl⟩) (by show (1 + 1) ^ 2 ≤ fuel; omega)
  obtain ⟨hpart, hcon⟩ := C62_route_map lib fuel m _ _ _ h
  have w1 : (32 : ℝ) < W := by exact_mod_cast hW
  have w2 : (32 : ℝ) < H := by exact_mod_cast hH
  have hbox := four_box h1 (by linarith) (by linarith)
  have hst : (m.findPlayerStart).getD ⟨FloatOps.ofInt 0, FloatOps.ofInt 0⟩ = m.startPoint := by
    unfold FullMap.startPoint
    congr 1
    simp [FloatOps.ofInt]
  rw [hst] at hpart
  have hat : ∀ i : ℕ, AtStart m.startPoint [c] i ↔
      i = 0 ∧ x + 16 ≤ m.startPoint.x ∧ m.startPoint.x < x + W - 16 ∧ y + 16 ≤ m.startPoint.y ∧ m.startPoint.y < y + H - 16 := by
    intro i
    unfold AtStart
    constructor
    · rintro ⟨c', hc', k⟩
      rcases i with _ | i
      · obtain rfl : c = c' := by simpa using hc'
        rw [hbox] at k
        simp only [FloatOps.le, FloatOps.lt, FloatOps.eq, FloatOps.add, Bool.or_eq_true, decide_eq_true_iff, ← le_iff_lt_or_eq, add_sub_cancel] at k
        exact ⟨rfl, k⟩
      · simp at hc'
    · rintro ⟨rfl, k⟩
      refine ⟨c, rfl, ?_⟩
      rw [hbox]
      simp only [FloatOps.le, FloatOps.lt, FloatOps.eq, FloatOps.add, Bool.or_eq_true, decide_eq_true_iff, ← le_iff_lt_or_eq, add_sub_cancel]
      exact k
  have hto : ∀ i j : ℕ, ¬ Touches [c] i j := by
    rintro i j ⟨c', hc', k⟩
    obtain rfl : c = c' := by
      rcases i with _ | i
      · simpa using hc'
      · simp at hc'
    rw [h3, h4] at k
    rcases k with k | ⟨_, k, _⟩
    · rcases j with _ | j <;> simp at k
    · simp at k
  have hre : ∀ i : ℕ, RouteReachable m.startPoint [c] i ↔ AtStart m.startPoint [c] i := fun i =>
    ⟨fun k => by cases k with
      | start k => exact k
      | step _ k => exact absurd k (hto _ _), .start⟩
  have hne : ∀ chunk ∈ chunks, chunk ≠ [] := fun chunk hc e => by
    obtain ⟨s, k, _⟩ := hcon.paths chunk hc
    rw [e] at k
    cases k
  obtain ⟨d, rfl⟩ := List.length_eq_one_iff.1 hpart.length
  refine ⟨c, [d], chunks, h, h1, h2, h3, h4, h5, fun hin => ?_, fun hout => ?_⟩
  · have hall : ∀ i, i ∈ chunks.flatten ↔ i = 0 := fun i => by rw [hpart.reached, hre, hat]; exact ⟨fun k => k.1, fun k => ⟨k, hin⟩⟩
    have hfl : chunks.flatten = [0] := by
      have hp : chunks.flatten.Perm [0] := (List.perm_ext_iff_of_nodup hpart.once (List.nodup_singleton 0)).2 fun i => by rw [hall i, List.mem_singleton]
      exact List.perm_singleton.1 hp
    have hch : chunks = [[0]] := by
      match chunks, hne, hfl with
      | [], _, hfl => simp at hfl
      | [] :: _, hne, _ => exact absurd rfl (hne [] (by simp))
      | (i :: l) :: rest, hne, hfl =>
        simp only [List.flatten_cons, List.cons_append, List.cons.injEq, List.append_eq_nil_iff] at hfl
        obtain ⟨rfl, rfl, hr⟩ := hfl
        match rest, hr, hne with
        | [], _, _ => rfl
        | l' :: rest, hr, hne =>
          simp only [List.flatten_cons, List.append_eq_nil_iff] at hr
          exact absurd hr.1 (hne l' (by simp))
    subst hch
    have := hpart.inChunk 0 [0] rfl 0 (by simp)
    simp at this
    exact ⟨by rw [this], rfl⟩
  · have hfl : chunks.flatten = [] := List.eq_nil_iff_forall_not_mem.2 fun i k => hout ((hat i).1 ((hre i).1 ((hpart.reached i).1 k))).2
    have hch : chunks = [] := by
      match chunks, hne, hfl with
      | [], _, _ => rfl
      | l :: rest, hne, hfl =>
        simp only [List.flatten_cons, List.append_eq_nil_iff] at hfl
        exact absurd hfl.1 (hne l (by simp))
    subst hch
    have := hpart.outside 0 (by simp) (by simp)
    simp at this
    exact ⟨by rw [this], rfl⟩

/-- A hall 200 wide and 100 high, with a teleporter line and a monster, the player in it. -/
noncomputable def hallSample : FullMap ℝ where
  vertices := [⟨-64, 32⟩, ⟨-64, 132⟩, ⟨136, 132⟩, ⟨136, 32⟩]
  lines := [exLine 0 0 1 (some 0) none, exLine 1 1 2 (some 1) none 1, ⟨2, 2, 3, 1, 97, 5, some 2, none⟩, exLine 3 3 0 (some 0) none]
  sides := [exSide 0, exSide 0, exSide 0]
  sectors := [⟨0, 0, -8, 128, 160⟩]
  things := [⟨⟨100, 100⟩, 3001⟩, ⟨⟨40, 80⟩, 1⟩]

theorem C91_hypotheses_met : listLib.Ok ∧ listLib.Lawful ∧ listLib.SearchHonest ∧ IsRoom hallSample (-64) 32 200 100 ∧
    (-64 + 16 : ℝ) ≤ hallSample.startPoint.x ∧ hallSample.startPoint.x < -64 + 200 - 16 ∧ (32 + 16 : ℝ) ≤ hallSample.startPoint.y ∧ hallSample.startPoint.y < 32 + 100 - 16 := by
  refine ⟨listLib_ok, listLib_lawful, listLib_honest, ⟨by norm_num [hallSample], rfl, ?_, ?_, ?_, rfl⟩, ?_⟩
  · intro i l h
    rcases i with _ | _ | _ | _ | i <;> simp [hallSample, exLine] at h <;> subst h <;> simp
  · intro l hl
    simp only [hallSample, exLine, List.mem_cons, List.not_mem_nil, or_false] at hl
    rcases hl with rfl | rfl | rfl | rfl <;> simp [hallSample]
  · intro s hs
    simp only [hallSample, exSide, List.mem_cons, List.not_mem_nil, or_false] at hs
    rcases hs with rfl | rfl | rfl <;> rfl
  · have : hallSample.startPoint = ⟨40, 80⟩ := by
      simp [FullMap.startPoint, FullMap.findPlayerStart, hallSample]
    rw [this]
    norm_num

end Idc
