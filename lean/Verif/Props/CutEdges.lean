import Verif.Spec.Crossed
import Verif.Props.PlanSetup
import Verif.Props.PlanEven
import Verif.Props.CutGeom
/-!
# Edges made up of pieces, for C84
-/

namespace Idc

open Plan

/-! ### The pieces of one edge -/

theorem on_param {a b c : Pt ℝ} (h : OnSegment (a, b) c) (ha : c ≠ a) (hb : c ≠ b) :
    ∃ s : ℝ, 0 < s ∧ s < 1 ∧ c.x = a.x + s * (b.x - a.x) ∧ c.y = a.y + s * (b.y - a.y) := by
  obtain ⟨s, h0, h1, hx, hy⟩ := h
  dsimp only at hx hy
  refine ⟨s, lt_of_le_of_ne h0 fun e => ha (pt_ext ?_ ?_), lt_of_le_of_ne h1 fun e => hb (pt_ext ?_ ?_), hx, hy⟩
  · rw [hx, ← e]; ring
  · rw [hy, ← e]; ring
  · rw [hx, e]; ring
  · rw [hy, e]; ring

namespace Pieces

variable {a b : Pt ℝ} {l : List (Pt ℝ × Pt ℝ)}

theorem on (h : Pieces a b l) : ∀ d ∈ l, OnSegment (a, b) d.1 ∧ OnSegment (a, b) d.2 := by
  induction h with
  | whole a b =>
    intro d hd
    rw [List.mem_singleton] at hd
    subst hd
    exact ⟨Net.onSegment_left (a, b), Net.onSegment_right (a, b)⟩
  | @step a b c l hc h1 h2 _ ih =>
    obtain ⟨s, s0, s1, hx, hy⟩ := on_param hc h1 h2
    have key : ∀ q, OnSegment (c, b) q → OnSegment (a, b) q := by
      rintro q ⟨t, t0, t1, qx, qy⟩
      dsimp only at qx qy
      refine ⟨s + t * (1 - s), by nlinarith, by nlinarith, ?_, ?_⟩
      · dsimp only; rw [qx, hx]; ring
      · dsimp only; rw [qy, hy]; ring
    intro d hd
    rcases List.mem_cons.1 hd with rfl | hd
    · exact ⟨Net.onSegment_left (a, b), hc⟩
    · exact ⟨key _ (ih d hd).1, key _ (ih d hd).2⟩

theorem dir (h : Pieces a b l) : ∀ d ∈ l, ∃ s : ℝ, 0 < s ∧ d.2.x - d.1.x = s * (b.x - a.x) ∧ d.2.y - d.1.y = s * (b.y - a.y) := by
  induction h with
  | whole a b =>
    intro d hd
    rw [List.mem_singleton] at hd
    subst hd
    exact ⟨1, one_pos, by simp, by simp⟩
  | @step a b c l hc h1 h2 _ ih =>
    obtain ⟨s, s0, s1, hx, hy⟩ := on_param hc h1 h2
    intro d hd
    rcases List.mem_cons.1 hd with rfl | hd
    · refine ⟨s, s0, ?_, ?_⟩
      · dsimp only; rw [hx]; ring
      · dsimp only; rw [hy]; ring
    · obtain ⟨t, t0, tx, ty⟩ := ih d hd
      refine ⟨t * (1 - s), mul_pos t0 (by linarith), ?_, ?_⟩
      · rw [tx, hx]; ring
      · rw [ty, hy]; ring

theorem first (h : Pieces a b l) : ∃ d ∈ l, d.1 = a := by
  cases h with
  | whole => exact ⟨(a, b), by simp, rfl⟩
  | @step _ _ c => exact ⟨(a, c), by simp, rfl⟩

theorem last (h : Pieces a b l) : ∃ d ∈ l, d.2 = b := by
  induction h with
  | whole a b => exact ⟨(a, b), by simp, rfl⟩
  | step _ _ _ _ ih =>
    obtain ⟨d, hd, e⟩ := ih
    exact ⟨d, by simp [hd], e⟩

theorem succ (h : Pieces a b l) : ∀ d ∈ l, d.2 = b ∨ ∃ d' ∈ l, d'.1 = d.2 := by
  induction h with
  | whole a b =>
    intro d hd
    rw [List.mem_singleton] at hd
    subst hd
    exact Or.inl rfl
  | step _ _ _ hp ih =>
    intro d hd
    rcases List.mem_cons.1 hd with rfl | hd
    · obtain ⟨d', hd', e⟩ := hp.first
      exact Or.inr ⟨d', by simp [hd'], e⟩
    · rcases ih d hd with e | ⟨d', hd', e⟩
      · exact Or.inl e
      · exact Or.inr ⟨d', by simp [hd'], e⟩

theorem pred (h : Pieces a b l) : ∀ d ∈ l, d.1 = a ∨ ∃ d' ∈ l, d'.2 = d.1 := by
  induction h with
  | whole a b =>
    intro d hd
    rw [List.mem_singleton] at hd
    subst hd
    exact Or.inl rfl
  | @step a b c l _ _ _ hp ih =>
    intro d hd
    rcases List.mem_cons.1 hd with rfl | hd
    · exact Or.inl rfl
    · rcases ih d hd with e | ⟨d', hd', e⟩
      · exact Or.inr ⟨(a, c), by simp, e.symm⟩
      · exact Or.inr ⟨d', by simp [hd'], e⟩

theorem cover (h : Pieces a b l) : ∀ q, OnSegment (a, b) q → ∃ d ∈ l, OnSegment d q := by
  induction h with
  | whole a b => exact fun q hq => ⟨(a, b), by simp, hq⟩
  | @step a b c l hc h1 h2 _ ih =>
    obtain ⟨s, s0, s1, hx, hy⟩ := on_param hc h1 h2
    rintro q ⟨t, t0, t1, qx, qy⟩
    dsimp only at qx qy
    rcases le_or_gt t s with hts | hts
    · refine ⟨(a, c), by simp, t / s, div_nonneg t0 s0.le, (div_le_one s0).2 hts, ?_, ?_⟩
      · dsimp only; rw [qx, hx]; field_simp; ring
      · dsimp only; rw [qy, hy]; field_simp; ring
    · have hs : 0 < 1 - s := by linarith
      obtain ⟨d, hd, hdq⟩ := ih q ⟨(t - s) / (1 - s), div_nonneg (by linarith) hs.le, (div_le_one hs).2 (by linarith), by
        dsimp only; rw [qx, hx]; field_simp; ring, by
        dsimp only; rw [qy, hy]; field_simp; ring⟩
      exact ⟨d, by simp [hd], hdq⟩

theorem proper (h : Pieces a b l) (hab : a ≠ b) : ∀ d ∈ l, d.1 ≠ d.2 := by
  intro d hd e
  obtain ⟨s, s0, hx, hy⟩ := h.dir d hd
  rw [e, sub_self] at hx hy
  refine hab (pt_ext ?_ ?_)
  · rcases mul_eq_zero.1 hx.symm with h | h <;> linarith
  · rcases mul_eq_zero.1 hy.symm with h | h <;> linarith

theorem improper (h : Pieces a a l) : l = [(a, a)] := by
  cases h with
  | whole => rfl
  | step hc h1 h2 _ =>
    obtain ⟨s, _, _, hx, hy⟩ := hc
    exact absurd (pt_ext (by dsimp only at hx; rw [hx]; ring) (by dsimp only at hy; rw [hy]; ring)) h1

theorem leftOf (h : Pieces a b l) (hab : LeftOf a b) : ∀ d ∈ l, LeftOf d.1 d.2 := by
  intro d hd
  obtain ⟨s, s0, hx, hy⟩ := h.dir d hd
  rcases hab with g | ⟨g, g'⟩
  · left
    have := mul_pos s0 (sub_pos.2 g)
    linarith
  · right
    have := mul_pos s0 (sub_pos.2 g')
    rw [← g, sub_self, mul_zero] at hx
    exact ⟨by linarith, by linarith⟩

theorem rightOf (h : Pieces a b l) (hab : LeftOf b a) : ∀ d ∈ l, LeftOf d.2 d.1 := by
  intro d hd
  obtain ⟨s, s0, hx, hy⟩ := h.dir d hd
  rcases hab with g | ⟨g, g'⟩
  · left
    have := mul_pos s0 (sub_pos.2 g)
    linarith
  · right
    have := mul_pos s0 (sub_pos.2 g')
    rw [← g, sub_self, mul_zero] at hx
    exact ⟨by linarith, by linarith⟩

end Pieces

theorem leftOf_asymm {p q : Pt ℝ} (h : LeftOf p q) : ¬ LeftOf q p := by
  intro h'
  rcases h with k1 | k1 <;> rcases h' with k2 | k2 <;> linarith [k1, k2]

/-- The pieces of an edge, from left to right. -/
structure Oriented (L R : Pt ℝ) (l : List (Pt ℝ × Pt ℝ)) : Prop where
  on : ∀ d ∈ l, OnSegment (L, R) (toRight d).1 ∧ OnSegment (L, R) (toRight d).2
  first : ∃ d ∈ l, (toRight d).1 = L
  last : ∃ d ∈ l, (toRight d).2 = R
  succ : ∀ d ∈ l, (toRight d).2 = R ∨ ∃ d' ∈ l, (toRight d').1 = (toRight d).2
  pred : ∀ d ∈ l, (toRight d).1 = L ∨ ∃ d' ∈ l, (toRight d').2 = (toRight d).1
  cover : ∀ q, OnSegment (L, R) q → ∃ d ∈ l, OnSegment (toRight d) q

theorem Pieces.oriented {e : Pt ℝ × Pt ℝ} {l : List (Pt ℝ × Pt ℝ)} (h : Pieces e.1 e.2 l) (he : e.1 ≠ e.2) : Oriented (toRight e).1 (toRight e).2 l := by
  by_cases hl : LeftOf e.1 e.2
  · have t : toRight e = e := by unfold toRight; rw [if_pos hl]
    have td : ∀ d ∈ l, toRight d = d := fun d hd => by unfold toRight; rw [if_pos (h.leftOf hl d hd)]
    rw [t]
    refine ⟨fun d hd => by rw [td d hd]; exact h.on d hd, ?_, ?_, ?_, ?_, ?_⟩
    · obtain ⟨d, hd, e'⟩ := h.first
      exact ⟨d, hd, by rw [td d hd]; exact e'⟩
    · obtain ⟨d, hd, e'⟩ := h.last
      exact ⟨d, hd, by rw [td d hd]; exact e'⟩
    · intro d hd
      rw [td d hd]
      rcases h.succ d hd with e' | ⟨d', hd', e'⟩
      · exact Or.inl e'
      · exact Or.inr ⟨d', hd', by rw [td d' hd']; exact e'⟩
    · intro d hd
      rw [td d hd]
      rcases h.pred d hd with e' | ⟨d', hd', e'⟩
      · exact Or.inl e'
      · exact Or.inr ⟨d', hd', by rw [td d' hd']; exact e'⟩
    · intro q hq
      obtain ⟨d, hd, hdq⟩ := h.cover q hq
      exact ⟨d, hd, by rw [td d hd]; exact hdq⟩
  · have t : toRight e = e.swap := by unfold toRight; rw [if_neg hl]
    have td : ∀ d ∈ l, toRight d = d.swap := fun d hd => by
      unfold toRight
      rw [if_neg (leftOf_asymm (h.rightOf ((LeftOf.total he).resolve_left hl) d hd))]
    have sw : ∀ q, OnSegment (e.2, e.1) q ↔ OnSegment (e.1, e.2) q := fun q => onSegment_swap (e.1, e.2) q
    rw [t]
    simp only [Prod.fst_swap, Prod.snd_swap]
    refine ⟨fun d hd => by rw [td d hd, sw, sw]; exact (h.on d hd).symm, ?_, ?_, ?_, ?_, ?_⟩
    · obtain ⟨d, hd, e'⟩ := h.last
      exact ⟨d, hd, by rw [td d hd]; exact e'⟩
    · obtain ⟨d, hd, e'⟩ := h.first
      exact ⟨d, hd, by rw [td d hd]; exact e'⟩
    · intro d hd
      rw [td d hd]
      rcases h.pred d hd with e' | ⟨d', hd', e'⟩
      · exact Or.inl e'
      · exact Or.inr ⟨d', hd', by rw [td d' hd']; exact e'⟩
    · intro d hd
      rw [td d hd]
      rcases h.succ d hd with e' | ⟨d', hd', e'⟩
      · exact Or.inl e'
      · exact Or.inr ⟨d', hd', by rw [td d' hd']; exact e'⟩
    · intro q hq
      obtain ⟨d, hd, hdq⟩ := h.cover q ((sw q).1 hq)
      exact ⟨d, hd, by rw [td d hd]; exact (onSegment_swap d q).2 hdq⟩

/-! ### All edges -/

/-- The segments of a plan make up the edges from `L o` to `R o`. -/
structure Made (G : Plan) (own : ℕ → ℕ) (L R : ℕ → Pt ℝ) : Prop where
  wf : ∀ k ∈ G.S, LeftOf (L (own k)) (R (own k))
  poly : ∀ i ∈ G.S, ∀ j ∈ G.S, own i = own j → G.poly i = G.poly j
  on : ∀ k ∈ G.S, OnSegment (L (own k), R (own k)) (G.lp k) ∧ OnSegment (L (own k), R (own k)) (G.rp k)
  first : ∀ k ∈ G.S, ∃ m ∈ G.S, own m = own k ∧ G.lp m = L (own k)
  last : ∀ k ∈ G.S, ∃ m ∈ G.S, own m = own k ∧ G.rp m = R (own k)
  succ : ∀ k ∈ G.S, G.rp k = R (own k) ∨ ∃ m ∈ G.S, own m = own k ∧ G.lp m = G.rp k
  pred : ∀ k ∈ G.S, G.lp k = L (own k) ∨ ∃ m ∈ G.S, own m = own k ∧ G.rp m = G.lp k
  cover : ∀ k ∈ G.S, ∀ q, OnSegment (L (own k), R (own k)) q → ∃ m ∈ G.S, own m = own k ∧ OnSegment (G.lp m, G.rp m) q
  arrive : ∀ i ∈ G.S, G.rp i ≠ R (own i) → (∃ k ∈ G.S, own k ≠ own i ∧ OnSegment (L (own k), R (own k)) (G.rp i) ∧ G.rp i ≠ L (own k)) ∨
    ∃ k ∈ G.S, own k ≠ own i ∧ L (own k) = G.rp i ∧ cross2 (G.rp i, R (own i)) (G.rp i, R (own k)) ≤ 0
  alone : ∀ i ∈ G.S, G.rp i ≠ R (own i) → ∀ m ∈ G.S, OnSegment (L (own m), R (own m)) (G.rp i) → ¬ EndOf (L (own m), R (own m)) (G.rp i) →
    ParallelEdges (L (own i), R (own i)) (L (own m), R (own m)) → own m = own i

namespace Made

variable {G : Plan} {own : ℕ → ℕ} {L R : ℕ → Pt ℝ}

theorem time_on {L R q : Pt ℝ} (h : OnSegment (L, R) q) : ∃ t : ℝ, 0 ≤ t ∧ t ≤ 1 ∧ G.time q = G.time L + t * (G.time R - G.time L) ∧ q.y = L.y + t * (R.y - L.y) := by
  obtain ⟨t, h0, h1, hx, hy⟩ := h
  dsimp only at hx hy
  refine ⟨t, h0, h1, ?_, hy⟩
  unfold Plan.time shearX
  rw [hx, hy]
  ring

variable (h : Made G own L R)

include h

theorem time_lt {k : ℕ} (hk : k ∈ G.S) : G.time (L (own k)) < G.time (R (own k)) := by
  obtain ⟨m, hm, _, e1⟩ := h.first k hk
  obtain ⟨n, hn, _, e2⟩ := h.last k hk
  have := h.wf k hk
  rw [← e1, ← e2] at this ⊢
  exact G.time_lt (x := (m, .left)) (y := (n, .right)) hm hn this

theorem time_mem {k : ℕ} (hk : k ∈ G.S) {q : Pt ℝ} (hq : OnSegment (L (own k), R (own k)) q) : G.time (L (own k)) ≤ G.time q ∧ G.time q ≤ G.time (R (own k)) := by
  obtain ⟨t, t0, t1, ht, _⟩ := time_on (G := G) hq
  have := h.time_lt hk
  rw [ht]
  constructor <;> nlinarith

theorem height {k : ℕ} (hk : k ∈ G.S) (t : ℝ) : G.h k t = (L (own k)).y + (t - G.time (L (own k))) * (((R (own k)).y - (L (own k)).y) / (G.time (R (own k)) - G.time (L (own k)))) := by
  obtain ⟨u, _, _, hu, hu'⟩ := time_on (G := G) (h.on k hk).1
  obtain ⟨v, _, _, hv, hv'⟩ := time_on (G := G) (h.on k hk).2
  have hlt := h.time_lt hk
  have hab := G.a_lt_b hk
  show (G.lp k).y + (t - G.time (G.lp k)) * (((G.rp k).y - (G.lp k).y) / (G.time (G.rp k) - G.time (G.lp k))) = _
  have hab : G.time (G.lp k) < G.time (G.rp k) := hab
  rw [hu, hv] at hab ⊢
  rw [hu', hv']
  have hd : G.time (R (own k)) - G.time (L (own k)) ≠ 0 := by linarith
  have huv : v - u ≠ 0 := by
    intro e
    have : v = u := by linarith
    rw [this] at hab
    exact lt_irrefl _ hab
  have e1 : G.time (L (own k)) + v * (G.time (R (own k)) - G.time (L (own k))) - (G.time (L (own k)) + u * (G.time (R (own k)) - G.time (L (own k)))) =
      (v - u) * (G.time (R (own k)) - G.time (L (own k))) := by ring
  rw [e1]
  field_simp
  ring

theorem line {i j : ℕ} (hi : i ∈ G.S) (hj : j ∈ G.S) (e : own i = own j) (t : ℝ) : G.h i t = G.h j t := by
  rw [h.height hi, h.height hj, e]

theorem disjoint {i j : ℕ} (hi : i ∈ G.S) (hj : j ∈ G.S) (e : own i = own j) (hij : i ≠ j) : G.b i ≤ G.a j ∨ G.b j ≤ G.a i := by
  by_contra hn
  push Not at hn
  have h1 := G.a_lt_b hi
  have h2 := G.a_lt_b hj
  have l1 := le_max_left (G.a i) (G.a j)
  have l2 := le_max_right (G.a i) (G.a j)
  have l3 := min_le_left (G.b i) (G.b j)
  have l4 := min_le_right (G.b i) (G.b j)
  have l5 : Max.max (G.a i) (G.a j) < Min.min (G.b i) (G.b j) := max_lt (lt_min h1 hn.2) (lt_min hn.1 h2)
  have hs := G.same_of_h hi hj (t := (Max.max (G.a i) (G.a j) + Min.min (G.b i) (G.b j)) / 2) (by linarith) (by linarith) (by linarith) (by linarith)
    (h.line hi hj e _)
  exact G.poly_ne hi hj hij hs (h.poly i hi j hj e)

theorem eq_of_lp {i j : ℕ} (hi : i ∈ G.S) (hj : j ∈ G.S) (e : own i = own j) (ha : G.lp i = G.lp j) : i = j := by
  by_contra hn
  have h1 := G.a_lt_b hi
  have h2 := G.a_lt_b hj
  have ha : G.a i = G.a j := congrArg G.time ha
  rcases h.disjoint hi hj e hn with h | h <;> linarith

theorem eq_of_rp {i j : ℕ} (hi : i ∈ G.S) (hj : j ∈ G.S) (e : own i = own j) (ha : G.rp i = G.rp j) : i = j := by
  by_contra hn
  have h1 := G.a_lt_b hi
  have h2 := G.a_lt_b hj
  have ha : G.b i = G.b j := congrArg G.time ha
  rcases h.disjoint hi hj e hn with h | h <;> linarith

theorem parallel {i j : ℕ} (hi : i ∈ G.S) (hj : j ∈ G.S) (hs : G.Same i j) : ParallelEdges (L (own i), R (own i)) (L (own j), R (own j)) := by
  obtain ⟨u, _, _, ux, uy⟩ := (h.on i hi).1
  obtain ⟨v, _, _, vx, vy⟩ := (h.on i hi).2
  obtain ⟨u', _, _, ux', uy'⟩ := (h.on j hj).1
  obtain ⟨v', _, _, vx', vy'⟩ := (h.on j hj).2
  rw [hs.1] at ux uy
  rw [hs.2] at vx vy
  dsimp only at *
  have ne : G.lp j ≠ G.rp j := fun e => by
    have := G.a_lt_b hj
    have e : G.a j = G.b j := congrArg G.time e
    linarith
  have e1 : (v - u) * ((R (own i)).x - (L (own i)).x) = (v' - u') * ((R (own j)).x - (L (own j)).x) := by linarith
  have e2 : (v - u) * ((R (own i)).y - (L (own i)).y) = (v' - u') * ((R (own j)).y - (L (own j)).y) := by linarith
  have n1 : v - u ≠ 0 := fun e => ne (pt_ext (by have : v = u := by linarith
                                                 rw [ux, vx, this]) (by have : v = u := by linarith
                                                                        rw [uy, vy, this]))
  have n2 : v' - u' ≠ 0 := fun e => ne (pt_ext (by have : v' = u' := by linarith
                                                   rw [ux', vx', this]) (by have : v' = u' := by linarith
                                                                            rw [uy', vy', this]))
  unfold ParallelEdges
  dsimp only
  have : (v - u) * (v' - u') * (((R (own i)).x - (L (own i)).x) * ((R (own j)).y - (L (own j)).y) - ((R (own i)).y - (L (own i)).y) * ((R (own j)).x - (L (own j)).x)) = 0 := by
    linear_combination ((R (own j)).y - (L (own j)).y) * (v' - u') * e1 - ((R (own j)).x - (L (own j)).x) * (v' - u') * e2
  rcases mul_eq_zero.1 this with h | h
  · rcases mul_eq_zero.1 h with h | h
    · exact absurd h n1
    · exact absurd h n2
  · linarith

theorem parallel_of_line {i j : ℕ} (hi : i ∈ G.S) (hj : j ∈ G.S) (hs : ∀ t, G.h i t = G.h j t) :
    ParallelEdges (L (own i), R (own i)) (L (own j), R (own j)) := by
  have h0 := hs 0
  have h1 := hs 1
  rw [h.height hi, h.height hj] at h0 h1
  have l1 := h.time_lt hi
  have l2 := h.time_lt hj
  have d1 : G.time (R (own i)) - G.time (L (own i)) ≠ 0 := by linarith
  have d2 : G.time (R (own j)) - G.time (L (own j)) ≠ 0 := by linarith
  have hsl : ((R (own i)).y - (L (own i)).y) / (G.time (R (own i)) - G.time (L (own i))) = ((R (own j)).y - (L (own j)).y) / (G.time (R (own j)) - G.time (L (own j))) := by
    linarith
  rw [div_eq_div_iff d1 d2] at hsl
  unfold Plan.time shearX at hsl
  unfold ParallelEdges
  dsimp only
  linarith

theorem toward {k : ℕ} (hk : k ∈ G.S) : ∃ s : ℝ, 0 < s ∧ (G.rp k).x - (G.lp k).x = s * ((R (own k)).x - (G.lp k).x) ∧ (G.rp k).y - (G.lp k).y = s * ((R (own k)).y - (G.lp k).y) := by
  obtain ⟨u, _, u1, hu, hu'⟩ := time_on (G := G) (h.on k hk).1
  obtain ⟨v, _, v1, hv, hv'⟩ := time_on (G := G) (h.on k hk).2
  obtain ⟨_, _, _, ux, _⟩ := (h.on k hk).1
  have hab : G.time (G.lp k) < G.time (G.rp k) := G.a_lt_b hk
  have hlt := h.time_lt hk
  rw [hu, hv] at hab
  have huv : u < v := by
    by_contra hn
    rw [not_lt] at hn
    nlinarith
  have h1 : 0 < 1 - u := by linarith
  refine ⟨(v - u) / (1 - u), div_pos (by linarith) h1, ?_, ?_⟩
  · have ex : (G.lp k).x = (L (own k)).x + u * ((R (own k)).x - (L (own k)).x) := by
      unfold Plan.time shearX at hu
      rw [hu'] at hu
      linarith
    have ex' : (G.rp k).x = (L (own k)).x + v * ((R (own k)).x - (L (own k)).x) := by
      unfold Plan.time shearX at hv
      rw [hv'] at hv
      linarith
    rw [ex, ex']
    field_simp
    ring
  · rw [hu', hv']
    field_simp
    ring

theorem inner {i m : ℕ} (hi : i ∈ G.S) (hm : m ∈ G.S) (e : own i = own m) (hq : G.rp i = G.lp m) : G.rp i ≠ R (own i) := by
  intro e'
  have h1 := G.a_lt_b hm
  have h2 := (h.time_mem hm (h.on m hm).2).2
  rw [← e, ← e'] at h2
  have h3 : G.b i = G.a m := congrArg G.time hq
  have h2 : G.b m ≤ G.b i := h2
  linarith

/-- The pieces make up the edges. -/
def cut : Cut G where
  own := own
  line i hi j hj e t := h.line hi hj e t
  poly := h.poly
  next i hi j hj e ha := by
    rcases h.succ i hi with e' | ⟨m, hm, e1, e2⟩
    · exfalso
      have h1 := G.a_lt_b hj
      have h2 := (h.time_mem hj (h.on j hj).2).2
      rw [← e, ← e'] at h2
      have h2 : G.b j ≤ G.b i := h2
      rcases h.disjoint hi hj e (by rintro rfl; exact lt_irrefl _ ha) with h3 | h3 <;> linarith
    · exact ⟨m, hm, e1, e2⟩
  prev i hi j hj e ha := by
    rcases h.pred j hj with e' | ⟨m, hm, e1, e2⟩
    · exfalso
      have h2 := (h.time_mem hi (h.on i hi).1).1
      rw [e, ← e'] at h2
      have h2 : G.a j ≤ G.a i := h2
      linarith
    · exact ⟨m, hm, e1, e2⟩
  arrive i hi m hm e hq := by
    have hR := h.inner hi hm e hq
    rcases h.arrive i hi hR with ⟨k, hk, hne, hon, nL⟩ | ⟨k, hk, hne, hL, hcr⟩
    · left
      obtain ⟨p, hp, hpo, hpq⟩ := h.cover k hk _ hon
      have hip : i ≠ p := by rintro rfl; exact hne hpo.symm
      have hend : EndOf (G.lp p, G.rp p) (G.rp i) := by
        rcases G.apart i hi p hp hip with ⟨_, e2, _⟩ | h'
        · exact Or.inr e2
        · exact (h' _ ⟨Net.onSegment_right (G.lp i, G.rp i), hpq⟩).2
      rcases hend with e' | e'
      · have e' : G.rp i = G.lp p := e'
        rcases h.pred p hp with e1 | ⟨j, hj, e1, e2⟩
        · rw [hpo] at e1
          exact absurd (e'.trans e1) nL
        · refine ⟨j, hj, ?_, e2.trans e'.symm⟩
          rintro rfl
          exact hne (e1.trans hpo).symm
      · exact ⟨p, hp, hip.symm, e'.symm⟩
    · right
      obtain ⟨n, hn, hno, hnl⟩ := h.first k hk
      have hnm : n ≠ m := by rintro rfl; exact hne (hno.symm.trans e.symm)
      have hlp : G.lp n = G.lp m := by rw [hnl, hL, hq]
      obtain ⟨s, hs, s1, s2⟩ := h.toward hm
      obtain ⟨s', hs', s1', s2'⟩ := h.toward hn
      have hc : G.crs (m, .left) (n, .left) = s * s' * cross2 (G.rp i, R (own i)) (G.rp i, R (own k)) := by
        rw [hno, hlp] at s1' s2'
        rw [← e] at s1 s2
        unfold cross2 Plan.crs
        simp only [opp, SegmentEnd.other, Plan.pt]
        rw [hlp, hq, s1, s2, s1', s2']
        ring
      have hc' : G.crs (n, .left) (m, .left) = - G.crs (m, .left) (n, .left) := by
        unfold Plan.crs
        ring
      refine ⟨n, hn, hnm, hlp, ?_⟩
      rcases lt_or_eq_of_le hcr with hlt | heq
      · left
        rw [Plan.key_iff (e := .left) hn hm hlp, hc', hc]
        left
        have := mul_pos hs hs'
        nlinarith
      · right
        exact Plan.same_of_crs (e := .left) hm hn hlp.symm (by rw [hc, heq, mul_zero])
  alone i hi m hm e hq i' hi' m' hm' e' hq' hr hh := by
    have hR := h.inner hi hm e hq
    refine (h.eq_of_rp hi' hi (h.alone i hi hR i' hi' ?_ ?_ (h.parallel_of_line hi hi' hh)) hr.symm).symm
    · rw [hr]; exact (h.on i' hi').2
    · rintro (e1 | e1)
      · rw [hr] at e1
        have h1 := (h.time_mem hi' (h.on i' hi').1).1
        have h2 := G.a_lt_b hi'
        have e1 : G.rp i' = L (own i') := e1
        rw [← e1] at h1
        have h1 : G.b i' ≤ G.a i' := h1
        linarith
      · rw [hr] at e1
        exact h.inner hi' hm' e' hq' e1

end Made

end Idc
