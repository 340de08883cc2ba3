import Verif.Spec.Intersect
import Verif.Spec.Rat
import Mathlib.Tactic.Linarith
import Mathlib.Tactic.Ring
import Mathlib.Tactic.LinearCombination
import Mathlib.Tactic.FieldSimp
/-!
# C67: intersecting segments
-/

namespace Idc

theorem real_lt (a b : ℝ) : FloatOps.lt a b = decide (a < b) := rfl
theorem real_eq (a b : ℝ) : FloatOps.eq a b = decide (a = b) := rfl

theorem snap_close (es : List (Pt ℝ)) (i : Pt ℝ) :
    |(snap i es).x - i.x| ≤ es.length * (4 / 10 ^ 8) ∧ |(snap i es).y - i.y| ≤ es.length * (4 / 10 ^ 8) := by
  induction es generalizing i with
  | nil => simp [snap]
  | cons e es ih =>
    rw [snap, real_lt]
    simp only [decide_eq_true_eq, List.length_cons, Nat.cast_add, Nat.cast_one]
    split
    · rename_i h
      simp only [Pt.sqLength, Pt.sub, epsilon, FloatOps.lit, FloatOps.add, FloatOps.mul, FloatOps.sub] at h
      have h1 : |e.x - i.x| ≤ 4 / 10 ^ 8 := by
        apply abs_le_of_sq_le_sq _ (by norm_num)
        nlinarith [sq_nonneg (i.y - e.y)]
      have h2 : |e.y - i.y| ≤ 4 / 10 ^ 8 := by
        apply abs_le_of_sq_le_sq _ (by norm_num)
        nlinarith [sq_nonneg (i.x - e.x)]
      obtain ⟨h3, h4⟩ := ih e
      rw [abs_le] at h1 h2 h3 h4
      refine ⟨abs_le.2 ⟨?_, ?_⟩, abs_le.2 ⟨?_, ?_⟩⟩ <;> linarith
    · obtain ⟨h3, h4⟩ := ih i
      exact ⟨h3.trans (by linarith), h4.trans (by linarith)⟩

theorem roundCoord_close (x : ℝ) : |roundCoord x - x| ≤ 1 / 10 ^ 9 := by
  unfold roundCoord
  rw [real_lt]
  simp only [decide_eq_true_eq]
  split
  · rename_i h
    simp only [FloatOps.abs, FloatOps.fract, fractEps, FloatOps.lit, FloatOps.round] at *
    rw [abs_lt] at h
    norm_num [-Int.self_sub_floor] at h
    split at h
    · rename_i hx
      rw [if_pos hx]
      have : ⌊x + 1 / 2⌋ = ⌊x⌋ := by
        rw [Int.floor_eq_iff]
        have := Int.floor_le x
        constructor <;> linarith
      rw [this, abs_le]
      have := Int.floor_le x
      constructor <;> linarith
    · rename_i hx
      rw [if_neg hx]
      have : ⌈x - 1 / 2⌉ = ⌈x⌉ := by
        rw [Int.ceil_eq_iff]
        have := Int.le_ceil x
        constructor <;> linarith
      rw [this, abs_le]
      have := Int.le_ceil x
      constructor <;> linarith
  · simp

/-- The point that is reported. -/
theorem reported_close (i : Pt ℝ) (es : List (Pt ℝ)) (h : es.length = 4) :
    CloseTo i ⟨roundCoord (snap i es).x, roundCoord (snap i es).y⟩ := by
  obtain ⟨h1, h2⟩ := snap_close es i
  have h3 := roundCoord_close (snap i es).x
  have h4 := roundCoord_close (snap i es).y
  unfold CloseTo
  rw [h] at h1 h2
  push_cast at h1 h2
  rw [abs_le] at *
  dsimp only
  refine ⟨abs_lt.2 ⟨?_, ?_⟩, abs_lt.2 ⟨?_, ?_⟩⟩ <;> linarith

theorem snapped_close (i : Pt ℝ) (es : List (Pt ℝ)) (h : es.length = 4) : CloseTo i (snap i es) := by
  obtain ⟨h1, h2⟩ := snap_close es i
  unfold CloseTo
  rw [h] at h1 h2
  push_cast at h1 h2
  rw [abs_le] at *
  refine ⟨abs_lt.2 ⟨?_, ?_⟩, abs_lt.2 ⟨?_, ?_⟩⟩ <;> linarith

/-- The first case of `intersect_segments`, in real numbers. -/
theorem intersect_crossing (s s' : Pt ℝ × Pt ℝ) (h : ¬ NearlyParallel s s') :
    intersectSegments s s' =
      (let k := (s.2.x - s.1.x) * (s'.2.y - s'.1.y) - (s.2.y - s.1.y) * (s'.2.x - s'.1.x)
       let u := ((s'.1.x - s.1.x) * (s'.2.y - s'.1.y) - (s'.1.y - s.1.y) * (s'.2.x - s'.1.x)) / k
       let v := ((s'.1.x - s.1.x) * (s.2.y - s.1.y) - (s'.1.y - s.1.y) * (s.2.x - s.1.x)) / k
       if u < 0 ∨ 1 < u then .none else if v < 0 ∨ 1 < v then .none
       else .point ⟨roundCoord (snap ⟨s.1.x + (s.2.x - s.1.x) * u, s.1.y + (s.2.y - s.1.y) * u⟩ [s.1, s.2, s'.1, s'.2]).x,
         roundCoord (snap ⟨s.1.x + (s.2.x - s.1.x) * u, s.1.y + (s.2.y - s.1.y) * u⟩ [s.1, s.2, s'.1, s'.2]).y⟩) := by
  unfold NearlyParallel at h
  rw [not_le] at h
  unfold intersectSegments
  simp only [real_lt, Pt.sub, Pt.cross, Pt.sqLength, Pt.add, Pt.scale, sqrEpsilon, FloatOps.lit, FloatOps.add, FloatOps.mul, FloatOps.sub, FloatOps.div,
    FloatOps.ofInt, decide_eq_true_eq, Bool.or_eq_true, Int.cast_zero, Int.cast_one]
  rw [if_pos (by nlinarith)]

/-- Lines that are not nearly parallel have one common point. -/
theorem common_iff (s s' : Pt ℝ × Pt ℝ) (k : ℝ)
    (hk : k = (s.2.x - s.1.x) * (s'.2.y - s'.1.y) - (s.2.y - s.1.y) * (s'.2.x - s'.1.x)) (h0 : k ≠ 0) (p : Pt ℝ) :
    CommonPoint s s' p ↔
      (let u := ((s'.1.x - s.1.x) * (s'.2.y - s'.1.y) - (s'.1.y - s.1.y) * (s'.2.x - s'.1.x)) / k
       let v := ((s'.1.x - s.1.x) * (s.2.y - s.1.y) - (s'.1.y - s.1.y) * (s.2.x - s.1.x)) / k
       (0 ≤ u ∧ u ≤ 1) ∧ (0 ≤ v ∧ v ≤ 1) ∧ p = ⟨s.1.x + (s.2.x - s.1.x) * u, s.1.y + (s.2.y - s.1.y) * u⟩) := by
  obtain ⟨⟨ax, ay⟩, ⟨bx, by'⟩⟩ := s
  obtain ⟨⟨cx, cy⟩, ⟨dx, dy⟩⟩ := s'
  obtain ⟨px, py⟩ := p
  dsimp only at *
  unfold CommonPoint OnSegment
  dsimp only
  constructor
  · rintro ⟨⟨t, t0, t1, hx, hy⟩, t', t0', t1', hx', hy'⟩
    have hu : ((cx - ax) * (dy - cy) - (cy - ay) * (dx - cx)) / k = t := by
      rw [div_eq_iff h0, hk]
      linear_combination (dy - cy) * (hx - hx') - (dx - cx) * (hy - hy')
    have hv : ((cx - ax) * (by' - ay) - (cy - ay) * (bx - ax)) / k = t' := by
      rw [div_eq_iff h0, hk]
      linear_combination (by' - ay) * (hx - hx') - (bx - ax) * (hy - hy')
    rw [hu, hv]
    refine ⟨⟨t0, t1⟩, ⟨t0', t1'⟩, ?_⟩
    rw [hx, hy]
    congr 1 <;> ring
  · rintro ⟨⟨u0, u1⟩, ⟨v0, v1⟩, hp⟩
    obtain ⟨rfl, rfl⟩ := Pt.mk.inj hp
    refine ⟨⟨_, u0, u1, by ring, by ring⟩, _, v0, v1, ?_, ?_⟩
    · field_simp
      rw [hk]
      ring
    · field_simp
      rw [hk]
      ring

theorem cross_ne_zero {s s' : Pt ℝ × Pt ℝ} (h : ¬ NearlyParallel s s') :
    (s.2.x - s.1.x) * (s'.2.y - s'.1.y) - (s.2.y - s.1.y) * (s'.2.x - s'.1.x) ≠ 0 := by
  intro h0
  apply h
  unfold NearlyParallel
  rw [h0, zero_pow two_ne_zero]
  positivity

/-- **C67** For segments that are not nearly parallel, with exact arithmetic: `None` is reported exactly if they have no
point in common, -/
theorem C67_none_iff_partial (s s' : Pt ℝ × Pt ℝ) (h : ¬ NearlyParallel s s') :
    intersectSegments s s' = .none ↔ ∀ p, ¬ CommonPoint s s' p := by
  rw [intersect_crossing s s' h]
  have hc := common_iff s s' _ rfl (cross_ne_zero h)
  dsimp only at hc ⊢
  constructor
  · intro e p hp
    obtain ⟨⟨u0, u1⟩, ⟨v0, v1⟩, _⟩ := (hc p).1 hp
    rw [if_neg (by push Not; exact ⟨u0, u1⟩), if_neg (by push Not; exact ⟨v0, v1⟩)] at e
    cases e
  · intro hn
    split
    · rfl
    · split
      · rfl
      · rename_i h1 h2
        push Not at h1 h2
        exact absurd ((hc _).2 ⟨h1, h2, rfl⟩) (hn _)

/-- and otherwise a point that is, but for rounding, their only common point. -/
theorem C67_point_partial (s s' : Pt ℝ × Pt ℝ) (h : ¬ NearlyParallel s s') (p : Pt ℝ) (hp : CommonPoint s s' p) :
    (∀ p', CommonPoint s s' p' → p' = p) ∧ ∃ q, intersectSegments s s' = .point q ∧ CloseTo p q := by
  have hc := common_iff s s' _ rfl (cross_ne_zero h)
  rw [intersect_crossing s s' h]
  dsimp only at hc ⊢
  obtain ⟨⟨u0, u1⟩, ⟨v0, v1⟩, e⟩ := (hc p).1 hp
  refine ⟨fun p' hp' => ((hc p').1 hp').2.2.trans e.symm, ?_⟩
  rw [if_neg (by push Not; exact ⟨u0, u1⟩), if_neg (by push Not; exact ⟨v0, v1⟩)]
  exact ⟨_, rfl, e ▸ reported_close _ _ rfl⟩

theorem snap_whole {es : List (Pt ℝ)} {i : Pt ℝ} (hi : WholePt i) (h : ∀ e ∈ es, WholePt e) : snap i es = i := by
  induction es with
  | nil => rfl
  | cons e es ih =>
    obtain ⟨m, n, rfl⟩ := hi
    obtain ⟨a, b, rfl⟩ := h e (by simp)
    rw [snap]
    split
    · rename_i hl
      simp only [real_lt, Pt.sqLength, Pt.sub, epsilon, FloatOps.lit, FloatOps.add, FloatOps.mul, FloatOps.sub, decide_eq_true_eq] at hl
      have h1 : (m - a) * (m - a) + (n - b) * (n - b) < (1 : ℤ) := by
        have : (((m - a) * (m - a) + (n - b) * (n - b) : ℤ) : ℝ) < ((1 : ℤ) : ℝ) := by
          push_cast
          refine hl.trans ?_
          norm_num
        exact_mod_cast this
      have h2 : m = a := by nlinarith [mul_self_nonneg (m - a), mul_self_nonneg (n - b), sq_nonneg (m - a + 1), sq_nonneg (m - a - 1)]
      have h3 : n = b := by nlinarith [mul_self_nonneg (m - a), mul_self_nonneg (n - b)]
      subst h2 h3
      exact ih fun e he => h e (by simp [he])
    · exact ih fun e he => h e (by simp [he])

theorem roundCoord_int (m : Int) : roundCoord (m : ℝ) = m := by
  unfold roundCoord
  split
  · simp only [FloatOps.round]
    split
    · norm_cast
      rw [Int.floor_eq_iff]
      constructor <;> norm_num
    · norm_cast
      rw [Int.ceil_eq_iff]
      constructor <;> norm_num
  · rfl

theorem roundCoord_steady {x : ℝ} (h : Steady x) : roundCoord x = x := by
  by_cases hx : ∃ m : ℤ, x = m
  · obtain ⟨m, rfl⟩ := hx
    exact roundCoord_int m
  · unfold roundCoord
    rw [if_neg]
    push Not at hx
    simp only [real_lt, FloatOps.abs, FloatOps.fract, fractEps, FloatOps.lit, decide_eq_true_eq, not_lt]
    push_cast
    split
    · exact (h ⌊x⌋).resolve_left (hx _)
    · exact (h ⌈x⌉).resolve_left (hx _)

/-- A point that is equal to the others or away from them is not moved. -/
theorem snap_spaced {es : List (Pt ℝ)} {i : Pt ℝ} (h : ∀ e ∈ es, i = e ∨ 1 / 10 ^ 15 ≤ (i.x - e.x) ^ 2 + (i.y - e.y) ^ 2) : snap i es = i := by
  induction es with
  | nil => rfl
  | cons e es ih =>
    have ih := ih fun e he => h e (by simp [he])
    rw [snap]
    split
    · rename_i hl
      simp only [real_lt, Pt.sqLength, Pt.sub, epsilon, FloatOps.lit, FloatOps.add, FloatOps.mul, FloatOps.sub, decide_eq_true_eq] at hl
      push_cast at hl
      rcases h e (by simp) with rfl | h
      · exact ih
      · nlinarith
    · exact ih

theorem whole_spaced {p q : Pt ℝ} (hp : WholePt p) (hq : WholePt q) : p = q ∨ 1 / 10 ^ 15 ≤ (p.x - q.x) ^ 2 + (p.y - q.y) ^ 2 := by
  obtain ⟨m, n, rfl⟩ := hp
  obtain ⟨a, b, rfl⟩ := hq
  by_cases h : m = a ∧ n = b
  · obtain ⟨rfl, rfl⟩ := h
    exact Or.inl rfl
  · right
    have h1 : (1 : ℤ) ≤ (m - a) ^ 2 + (n - b) ^ 2 := by
      by_contra hc
      have h2 : m = a := by nlinarith [sq_nonneg (m - a), sq_nonneg (n - b), sq_nonneg (m - a + 1), sq_nonneg (m - a - 1)]
      have h3 : n = b := by nlinarith [sq_nonneg (m - a), sq_nonneg (n - b), sq_nonneg (n - b + 1), sq_nonneg (n - b - 1)]
      exact h ⟨h2, h3⟩
    have : (1 : ℝ) ≤ ((m : ℝ) - a) ^ 2 + (n - b) ^ 2 := by exact_mod_cast h1
    exact le_trans (by norm_num) this

theorem steady_int (m : ℤ) : Steady (m : ℝ) := by
  intro k
  by_cases h : m = k
  · exact Or.inl (by rw [h])
  · right
    have h1 : 1 ≤ |m - k| := Int.one_le_abs (by omega)
    have : (1 : ℝ) ≤ |(m : ℝ) - k| := by exact_mod_cast h1
    exact le_trans (by norm_num) this

/-- If all ends and the common point are told apart, the point reported is exact. -/
theorem C67_steady_point (s s' : Pt ℝ × Pt ℝ) (h : ¬ NearlyParallel s s') (p : Pt ℝ) (hp : CommonPoint s s' p)
    (hs : ∀ e ∈ [s.1, s.2, s'.1, s'.2], p = e ∨ 1 / 10 ^ 15 ≤ (p.x - e.x) ^ 2 + (p.y - e.y) ^ 2) (hw : Steady p.x ∧ Steady p.y) : intersectSegments s s' = .point p := by
  have hc := common_iff s s' _ rfl (cross_ne_zero h)
  rw [intersect_crossing s s' h]
  dsimp only at hc ⊢
  obtain ⟨⟨u0, u1⟩, ⟨v0, v1⟩, e⟩ := (hc p).1 hp
  rw [if_neg (by push Not; exact ⟨u0, u1⟩), if_neg (by push Not; exact ⟨v0, v1⟩), ← e, snap_spaced hs, roundCoord_steady hw.1, roundCoord_steady hw.2]

/-- If all ends and the common point have whole coordinates, the point reported is exact. -/
theorem C67_whole_point (s s' : Pt ℝ × Pt ℝ) (h : ¬ NearlyParallel s s') (p : Pt ℝ) (hp : CommonPoint s s' p)
    (hs : WholePt s.1 ∧ WholePt s.2 ∧ WholePt s'.1 ∧ WholePt s'.2) (hw : WholePt p) : intersectSegments s s' = .point p := by
  refine C67_steady_point s s' h p hp ?_ ?_
  · intro e he
    refine whole_spaced hw ?_
    simp only [List.mem_cons, List.not_mem_nil, or_false] at he
    rcases he with rfl | rfl | rfl | rfl
    exacts [hs.1, hs.2.1, hs.2.2.1, hs.2.2.2]
  · obtain ⟨m, n, rfl⟩ := hw
    exact ⟨steady_int m, steady_int n⟩

theorem Separate.mono {V V' : Pt ℝ → Prop} {E E' : Pt ℝ × Pt ℝ → Prop} (h : Separate V E) (hV : ∀ q, V' q → V q) (hE : ∀ e, E' e → E e) : Separate V' E' :=
  ⟨fun q hq => h.steady q (hV q hq), fun q q' hq hq' => h.spaced q q' (hV q hq) (hV q' hq'), fun e q he hq => h.clear e q (hE e he) (hV q hq)⟩

/-- Points with whole coordinates are told apart. -/
theorem whole_separate {V : Pt ℝ → Prop} {E : Pt ℝ × Pt ℝ → Prop} (hV : ∀ q, V q → WholePt q) (hE : ∀ e, E e → V e.1 ∧ V e.2) : Separate V E := by
  refine ⟨fun q hq => ?_, fun q q' hq hq' => whole_spaced (hV q hq) (hV q' hq'), fun e q he hq => ?_⟩
  · obtain ⟨m, n, rfl⟩ := hV q hq
    exact ⟨steady_int m, steady_int n⟩
  · obtain ⟨m, n, rfl⟩ := hV q hq
    obtain ⟨⟨x1, y1⟩, ⟨x2, y2⟩⟩ := e
    obtain ⟨a, b, h1⟩ := hV _ (hE _ he).1
    obtain ⟨c, d, h2⟩ := hV _ (hE _ he).2
    dsimp only at h1 h2
    obtain ⟨rfl, rfl⟩ := Pt.mk.inj h1
    obtain ⟨rfl, rfl⟩ := Pt.mk.inj h2
    unfold OnLine
    dsimp only
    by_cases hz : (c - a) * (n - b) - (d - b) * (m - a) = 0
    · left
      have : ((c : ℝ) - a) * (n - b) - (d - b) * (m - a) = 0 := by exact_mod_cast hz
      linarith
    · right
      have h1 : 1 ≤ |(c - a) * (n - b) - (d - b) * (m - a)| := Int.one_le_abs hz
      have : (1 : ℝ) ≤ |((c : ℝ) - a) * (n - b) - (d - b) * (m - a)| := by exact_mod_cast h1
      exact lt_of_lt_of_le (by norm_num) this

/-! ### Collinear segments -/

/-- `check_span_overlap` of [0,1] and a span. -/
theorem spanOverlap (v0 v1 : ℝ) (h : v0 ≤ v1) :
    checkSpanOverlap 0 1 v0 v1 = if 1 < v0 ∨ v1 < 0 then none else some (max 0 v0, min 1 v1) := by
  unfold checkSpanOverlap
  simp only [real_lt, Bool.or_eq_true, decide_eq_true_eq]
  split
  · rfl
  · rename_i h1
    push Not at h1
    split
    · split
      · rfl
      · rename_i h2 h3
        have : v1 = 0 := by linarith
        subst this
        rw [max_eq_left h, min_eq_right zero_le_one]
    · rename_i h2
      have : v0 = 1 := by linarith
      subst this
      rw [max_eq_right (by norm_num), min_eq_left h]

/-- Points of the line through `s` by their position on it. -/
def linePt (s : Pt ℝ × Pt ℝ) (t : ℝ) : Pt ℝ := ⟨s.1.x + (s.2.x - s.1.x) * t, s.1.y + (s.2.y - s.1.y) * t⟩

theorem linePt_inj {s : Pt ℝ × Pt ℝ} (h : s.1 ≠ s.2) {t u : ℝ} (e : linePt s t = linePt s u) : t = u := by
  obtain ⟨⟨ax, ay⟩, ⟨bx, by'⟩⟩ := s
  unfold linePt at e
  obtain ⟨e1, e2⟩ := Pt.mk.inj e
  dsimp only at *
  by_contra hn
  apply h
  have h1 : (bx - ax) * (t - u) = 0 := by linear_combination e1
  have h2 : (by' - ay) * (t - u) = 0 := by linear_combination e2
  rcases mul_eq_zero.1 h1 with h1 | h1
  · rcases mul_eq_zero.1 h2 with h2 | h2
    · congr 1 <;> linarith
    · exact absurd (sub_eq_zero.1 h2) hn
  · exact absurd (sub_eq_zero.1 h1) hn

theorem sqLen_pos {s : Pt ℝ × Pt ℝ} (h : s.1 ≠ s.2) : 0 < (s.2.x - s.1.x) * (s.2.x - s.1.x) + (s.2.y - s.1.y) * (s.2.y - s.1.y) := by
  obtain ⟨⟨ax, ay⟩, ⟨bx, by'⟩⟩ := s
  dsimp only at *
  by_contra hn
  apply h
  have h1 : bx - ax = 0 := by nlinarith [mul_self_nonneg (bx - ax), mul_self_nonneg (by' - ay)]
  have h2 : by' - ay = 0 := by nlinarith [mul_self_nonneg (bx - ax), mul_self_nonneg (by' - ay)]
  congr 1 <;> linarith

theorem onLine_pos {s : Pt ℝ × Pt ℝ} (h : s.1 ≠ s.2) {p : Pt ℝ} (hp : OnLine s p) :
    p = linePt s (((s.2.x - s.1.x) * (p.x - s.1.x) + (s.2.y - s.1.y) * (p.y - s.1.y)) /
      ((s.2.x - s.1.x) * (s.2.x - s.1.x) + (s.2.y - s.1.y) * (s.2.y - s.1.y))) := by
  have hpos := sqLen_pos h
  obtain ⟨⟨ax, ay⟩, ⟨bx, by'⟩⟩ := s
  obtain ⟨px, py⟩ := p
  unfold OnLine at hp
  unfold linePt
  dsimp only at *
  have h0 := hpos.ne'
  congr 1
  · rw [← sub_eq_iff_eq_add', ← mul_div_assoc, eq_div_iff h0]
    linear_combination (by' - ay) * hp
  · rw [← sub_eq_iff_eq_add', ← mul_div_assoc, eq_div_iff h0]
    linear_combination -(bx - ax) * hp

theorem between_iff {u v t : ℝ} : (∃ r : ℝ, 0 ≤ r ∧ r ≤ 1 ∧ t = u + r * (v - u)) ↔ min u v ≤ t ∧ t ≤ max u v := by
  constructor
  · rintro ⟨r, r0, r1, rfl⟩
    rcases le_total u v with h | h
    · rw [min_eq_left h, max_eq_right h]
      constructor <;> nlinarith
    · rw [min_eq_right h, max_eq_left h]
      constructor <;> nlinarith
  · rintro ⟨h1, h2⟩
    rcases eq_or_ne u v with rfl | hne
    · rw [min_self] at h1
      rw [max_self] at h2
      exact ⟨0, le_rfl, zero_le_one, by linarith⟩
    · have hne' : v - u ≠ 0 := sub_ne_zero.2 hne.symm
      refine ⟨(t - u) / (v - u), ?_, ?_, by field_simp; ring⟩
      · rcases le_total u v with h | h
        · rw [min_eq_left h] at h1
          exact div_nonneg (by linarith) (by linarith)
        · rw [max_eq_left h] at h2
          exact div_nonneg_of_nonpos (by linarith) (by linarith)
      · rcases lt_or_gt_of_ne hne with h | h
        · rw [max_eq_right h.le] at h2
          rw [div_le_one (by linarith)]
          linarith
        · rw [min_eq_right h.le] at h1
          rw [div_le_one_of_neg (by linarith)]
          linarith

/-- A segment on the line through `s`. -/
theorem onSegment_linePt (s : Pt ℝ × Pt ℝ) (u v : ℝ) (p : Pt ℝ) :
    OnSegment (linePt s u, linePt s v) p ↔ ∃ t, min u v ≤ t ∧ t ≤ max u v ∧ p = linePt s t := by
  constructor
  · rintro ⟨r, r0, r1, hx, hy⟩
    obtain ⟨h1, h2⟩ := between_iff.1 ⟨r, r0, r1, rfl⟩
    refine ⟨_, h1, h2, ?_⟩
    obtain ⟨px, py⟩ := p
    unfold linePt at *
    dsimp only at *
    rw [hx, hy]
    congr 1 <;> ring
  · rintro ⟨t, h1, h2, rfl⟩
    obtain ⟨r, r0, r1, rfl⟩ := between_iff.2 ⟨h1, h2⟩
    exact ⟨r, r0, r1, by unfold linePt; dsimp only; ring, by unfold linePt; dsimp only; ring⟩

theorem seg_linePt (s : Pt ℝ × Pt ℝ) : s = (linePt s 0, linePt s 1) := by
  unfold linePt
  simp

/-- The second case of `intersect_segments`, in real numbers. -/
theorem intersect_collinear (s : Pt ℝ × Pt ℝ) (hne : s.1 ≠ s.2) (u v : ℝ) :
    intersectSegments s (linePt s u, linePt s v) =
      if 1 < min u v ∨ max u v < 0 then .none
      else if max 0 (min u v) = min 1 (max u v) then
        .point (snap (linePt s (max 0 (min u v))) [s.1, s.2, linePt s u, linePt s v])
      else .segment (snap (linePt s (max 0 (min u v))) [s.1, s.2, linePt s u, linePt s v]) (linePt s (min 1 (max u v))) := by
  have hpos := sqLen_pos hne
  have h0 := hpos.ne'
  have hs : ((s.2.x - s.1.x) * ((linePt s u).x - s.1.x) + (s.2.y - s.1.y) * ((linePt s u).y - s.1.y)) /
      ((s.2.x - s.1.x) * (s.2.x - s.1.x) + (s.2.y - s.1.y) * (s.2.y - s.1.y)) = u := by
    rw [div_eq_iff h0]
    unfold linePt
    dsimp only
    ring
  have hs' : ((s.2.x - s.1.x) * ((linePt s v).x - (linePt s u).x) + (s.2.y - s.1.y) * ((linePt s v).y - (linePt s u).y)) /
      ((s.2.x - s.1.x) * (s.2.x - s.1.x) + (s.2.y - s.1.y) * (s.2.y - s.1.y)) = v - u := by
    rw [div_eq_iff h0]
    unfold linePt
    dsimp only
    ring
  unfold intersectSegments
  simp only [real_lt, real_eq, Pt.sub, Pt.cross, Pt.sqLength, Pt.add, Pt.scale, Pt.dot, sqrEpsilon, FloatOps.lit, FloatOps.add, FloatOps.mul, FloatOps.sub,
    FloatOps.div, FloatOps.ofInt, decide_eq_true_eq, Int.cast_zero, Int.cast_one]
  rw [if_neg, if_neg]
  · rw [hs, hs']
    rw [show u + (v - u) = v by ring]
    have := spanOverlap (min u v) (max u v) min_le_max
    simp only [FloatOps.min, FloatOps.max]
    rw [this]
    split
    · rename_i b e h
      split at h
      · cases h
      · rename_i hn
        rw [if_neg hn]
        simp only [Option.some.injEq, Prod.mk.injEq] at h
        obtain ⟨rfl, rfl⟩ := h
        rfl
    · rename_i h
      split at h
      · rename_i hn
        rw [if_pos hn]
      · cases h
  · rw [not_lt]
    have : (((linePt s u).x - s.1.x) * (s.2.y - s.1.y) - ((linePt s u).y - s.1.y) * (s.2.x - s.1.x)) = 0 := by
      unfold linePt; dsimp only; ring
    rw [this, mul_zero]
    have := mul_self_nonneg ((linePt s u).x - s.1.x)
    have := mul_self_nonneg ((linePt s u).y - s.1.y)
    apply mul_nonneg (mul_nonneg (by norm_num) hpos.le)
    linarith
  · rw [not_lt]
    have : ((s.2.x - s.1.x) * ((linePt s v).y - (linePt s u).y) - (s.2.y - s.1.y) * ((linePt s v).x - (linePt s u).x)) = 0 := by
      unfold linePt; dsimp only; ring
    rw [this, mul_zero]
    have := mul_self_nonneg ((linePt s v).x - (linePt s u).x)
    have := mul_self_nonneg ((linePt s v).y - (linePt s u).y)
    apply mul_nonneg (mul_nonneg (by norm_num) hpos.le)
    linarith

/-- **C67** For segments on one line: `None` is reported exactly if they have no point in common, a point exactly if they
have one, and otherwise the two ends of their common part (the first rounded to the ends of the segments). -/
theorem C67_collinear (s s' : Pt ℝ × Pt ℝ) (hne : s.1 ≠ s.2) (h1 : OnLine s s'.1) (h2 : OnLine s s'.2) :
    match intersectSegments s s' with
    | .none => ∀ p, ¬ CommonPoint s s' p
    | .point q => ∃ p, (∀ p', CommonPoint s s' p' ↔ p' = p) ∧ CloseTo p q
    | .segment q e => ∃ p, p ≠ e ∧ (∀ p', CommonPoint s s' p' ↔ OnSegment (p, e) p') ∧ CloseTo p q := by
  obtain ⟨u, hu⟩ : ∃ u, s'.1 = linePt s u := ⟨_, onLine_pos hne h1⟩
  obtain ⟨v, hv⟩ : ∃ v, s'.2 = linePt s v := ⟨_, onLine_pos hne h2⟩
  obtain rfl : s' = (linePt s u, linePt s v) := by rw [← hu, ← hv]
  rw [intersect_collinear s hne]
  have hc : ∀ p, CommonPoint s (linePt s u, linePt s v) p ↔
      ∃ t, max 0 (min u v) ≤ t ∧ t ≤ min 1 (max u v) ∧ p = linePt s t := by
    intro p
    unfold CommonPoint
    rw [onSegment_linePt]
    have : OnSegment s p ↔ ∃ t, min (0 : ℝ) 1 ≤ t ∧ t ≤ max 0 1 ∧ p = linePt s t := by
      rw [← onSegment_linePt, ← seg_linePt]
    rw [this, min_eq_left zero_le_one, max_eq_right zero_le_one]
    constructor
    · rintro ⟨⟨t, a, b, rfl⟩, t', a', b', e⟩
      obtain rfl := linePt_inj hne e
      exact ⟨t, max_le a a', le_min b b', rfl⟩
    · rintro ⟨t, a, b, rfl⟩
      obtain ⟨a, a'⟩ := max_le_iff.1 a
      obtain ⟨b, b'⟩ := le_min_iff.1 b
      exact ⟨⟨t, a, b, rfl⟩, t, a', b', rfl⟩
  by_cases hn : 1 < min u v ∨ max u v < 0
  · rw [if_pos hn]
    intro p hp
    obtain ⟨t, a, b, _⟩ := (hc p).1 hp
    obtain ⟨a, a'⟩ := max_le_iff.1 a
    obtain ⟨b, b'⟩ := le_min_iff.1 b
    rcases hn with hn | hn <;> linarith
  · rw [if_neg hn]
    push Not at hn
    have hle : max 0 (min u v) ≤ min 1 (max u v) :=
      max_le (le_min zero_le_one hn.2) (le_min hn.1 min_le_max)
    by_cases he : max 0 (min u v) = min 1 (max u v)
    · rw [if_pos he]
      refine ⟨linePt s (max 0 (min u v)), fun p => ?_, snapped_close _ _ rfl⟩
      rw [hc]
      constructor
      · rintro ⟨t, a, b, rfl⟩
        rw [le_antisymm (b.trans he.symm.le) a]
      · rintro rfl
        exact ⟨_, le_rfl, he.le, rfl⟩
    · rw [if_neg he]
      refine ⟨linePt s (max 0 (min u v)), fun e => he (linePt_inj hne e), fun p => ?_, snapped_close _ _ rfl⟩
      rw [hc, onSegment_linePt, min_eq_left hle, max_eq_right hle]

/-! ### Nearly parallel segments -/

/-- C67 is false for nearly parallel segments: two segments with whole coordinates that cross at (5000, 1/2) are reported
not to meet, -/
theorem C67_crossing_missed : intersectSegments (F := Rat) (⟨0, 0⟩, ⟨10000, 1⟩) (⟨0, 1⟩, ⟨10000, 0⟩) = .none := by
  decide +kernel

/-- and two parallel segments at distance 1 are reported to overlap. -/
theorem C67_overlap_invented : intersectSegments (F := Rat) (⟨0, 0⟩, ⟨10000, 0⟩) (⟨5000, 1⟩, ⟨20000, 1⟩) =
    .segment ⟨5000, 0⟩ ⟨10000, 0⟩ := by
  decide +kernel

/-- C67 is about some segments with whole coordinates: the diagonals of a square, and two overlapping segments. -/
theorem C67_hypotheses_met :
    (¬ NearlyParallel (⟨0, 0⟩, ⟨10, 10⟩) (⟨0, 10⟩, ⟨10, 0⟩) ∧ CommonPoint (⟨0, 0⟩, ⟨10, 10⟩) (⟨0, 10⟩, ⟨10, 0⟩) ⟨5, 5⟩) ∧
    (OnLine (⟨0, 0⟩, ⟨10, 10⟩) ⟨5, 5⟩ ∧ OnLine (⟨0, 0⟩, ⟨10, 10⟩) ⟨20, 20⟩) := by
  refine ⟨⟨?_, ?_⟩, ?_, ?_⟩
  · unfold NearlyParallel; norm_num
  · exact ⟨⟨1 / 2, by norm_num, by norm_num, by norm_num, by norm_num⟩, 1 / 2, by norm_num, by norm_num, by norm_num, by norm_num⟩
  · unfold OnLine; norm_num
  · unfold OnLine; norm_num

end Idc
