import Verif.Props.PlanArea
import Verif.Props.PlanKeep
import Verif.Props.PlanLoop
import Verif.Props.TidyTrace
/-!
# Tracing an outline, for C81
-/

namespace Idc

namespace Plan

open Net

variable {G : Plan}

/-- The arena while tracing: `ids` are the contours the endpoints have been assigned to. -/
structure Tr (G : Plan) (A : Arena ℝ) (ids : EndId → Option Nat) (arena : Arena ℝ) : Prop where
  has : G.Has arena
  faces : ∀ x : EndId, x.1 ∈ G.S → sideFlags arena x = sideFlags A x
  below : ∀ i ∈ G.S, (dat arena i).below_in_result = (dat A i).below_in_result
  lindex : ∀ i ∈ G.S, (dat arena i).left_index = (dat A i).left_index
  processed : ∀ x : EndId, x.1 ∈ G.S → (dat arena x.1).isProcessed x.2 = (ids x).isSome
  lid : ∀ i ∈ G.S, (dat arena i).left_contour_id = ids (i, .left)
  rid : ∀ i ∈ G.S, (dat arena i).right_contour_id = ids (i, .right)

variable {A : Arena ℝ} {ids : EndId → Option Nat} {arena : Arena ℝ}

theorem Tr.get (h : Tr G A ids arena) {x : EndId} (hx : x.1 ∈ G.S) : ∃ s, index arena x.1 = .ok s ∧ arena[x.1]? = some s ∧ G.Is x.1 s ∧ s.data = dat arena x.1 := by
  obtain ⟨s, hs, is⟩ := h.has.seg x.1 hx
  exact ⟨s, by unfold index; rw [hs], hs, is, (dat_of hs).symm⟩

theorem endpointCmp_plan (ha : G.Has arena) {x y : EndId} (hx : x.1 ∈ G.S) (hy : y.1 ∈ G.S) {s s' : BoolSegment ℝ} (hs : arena[x.1]? = some s)
    (hs' : arena[y.1]? = some s') : endpointCmp s x.2 s' y.2 = .ok (compare (G.key x) (G.key y)) := by
  rw [← endCmp_key ha hx hy]
  unfold Arena.endCmp index
  rw [hs, hs']
  rfl

theorem segCmp_plan {i j : Nat} {s s' : BoolSegment ℝ} (is : G.Is i s) (is' : G.Is j s') : ∃ o, s.cmp s' = .ok o ∧ (o = .eq ↔ i = j) := by
  by_cases h : i = j
  · refine ⟨.eq, ?_, by simp [h]⟩
    unfold SweepSegment.cmp
    rw [if_pos (by rw [is.index, is'.index, h])]
  · obtain ⟨o, ho, hne⟩ := cmp_ne_eq (s := s) (s' := s') (by rw [is.index, is'.index]; exact h)
    exact ⟨o, ho, by simp [hne, h]⟩

/-! ### Directions -/

theorem cos_lt {p s q t : ℝ} (hs : 0 ≤ s) (ht : 0 ≤ t) (he : p ^ 2 + s ^ 2 = q ^ 2 + t ^ 2) (h : s * q < p * t) : q < p := by
  by_contra hn
  rw [not_lt] at hn
  rcases le_or_gt q 0 with hq | hq
  · have h1 : s ^ 2 ≤ t ^ 2 := by nlinarith
    have h2 : s ≤ t := by nlinarith
    nlinarith
  · have hp : 0 < p := by
      by_contra hp
      rw [not_lt] at hp
      nlinarith [mul_nonneg hs hq.le]
    have h1 : t ^ 2 ≤ s ^ 2 := by nlinarith
    have h2 : t ≤ s := by nlinarith
    nlinarith

theorem length_pos {a : Pt ℝ} (h : a.x ≠ 0 ∨ a.y ≠ 0) : 0 < a.length ∧ a.length ^ 2 = a.x ^ 2 + a.y ^ 2 := by
  have h0 : 0 < a.x * a.x + a.y * a.y := by
    rcases h with h | h
    · have := mul_self_pos.2 h; nlinarith [mul_self_nonneg a.y]
    · have := mul_self_pos.2 h; nlinarith [mul_self_nonneg a.x]
  have e : a.length = Real.sqrt (a.x * a.x + a.y * a.y) := rfl
  rw [e]
  refine ⟨Real.sqrt_pos.2 h0, ?_⟩
  rw [Real.sq_sqrt h0.le]
  ring

theorem norm_sq {v a : Pt ℝ} (h : a.x ≠ 0 ∨ a.y ≠ 0) : (v.dot a / a.length) ^ 2 + (v.cross a / a.length) ^ 2 = v.x ^ 2 + v.y ^ 2 := by
  obtain ⟨h1, h2⟩ := length_pos h
  rw [div_pow, div_pow, ← add_div, div_eq_iff (by positivity), h2]
  simp only [Pt.dot, Pt.cross, FloatOps.add, FloatOps.sub, FloatOps.mul]
  ring

theorem cross_id {v a b : Pt ℝ} (ha : a.x ≠ 0 ∨ a.y ≠ 0) (hb : b.x ≠ 0 ∨ b.y ≠ 0) :
    v.dot a / a.length * (v.cross b / b.length) - v.cross a / a.length * (v.dot b / b.length) = (v.x ^ 2 + v.y ^ 2) * a.cross b / (a.length * b.length) := by
  obtain ⟨h1, _⟩ := length_pos ha
  obtain ⟨h2, _⟩ := length_pos hb
  have h1' := h1.ne'
  have h2' := h2.ne'
  field_simp
  simp only [Pt.dot, Pt.cross, FloatOps.add, FloatOps.sub, FloatOps.mul]
  ring

theorem ne_zero_of_cross {v a : Pt ℝ} (h : v.cross a ≠ 0) : (v.x ≠ 0 ∨ v.y ≠ 0) ∧ (a.x ≠ 0 ∨ a.y ≠ 0) := by
  simp only [Pt.cross, FloatOps.sub, FloatOps.mul] at h
  constructor
  · by_contra hn
    push Not at hn
    rw [hn.1, hn.2] at h
    simp at h
  · by_contra hn
    push Not at hn
    rw [hn.1, hn.2] at h
    simp at h

theorem sq_pos {v : Pt ℝ} (h : v.x ≠ 0 ∨ v.y ≠ 0) : 0 < v.x ^ 2 + v.y ^ 2 := by
  rcases h with h | h
  · have := pow_pos (abs_pos.2 h) 2; rw [sq_abs] at this; nlinarith [sq_nonneg v.y]
  · have := pow_pos (abs_pos.2 h) 2; rw [sq_abs] at this; nlinarith [sq_nonneg v.x]

/-- Both to the left: the one further to the left has the smaller cosine. -/
theorem turn_left {v z w : Pt ℝ} (hz : 0 < v.cross z) (hw : 0 < v.cross w) (h : 0 < w.cross z) : v.dot z / z.length < v.dot w / w.length := by
  obtain ⟨v0, z0⟩ := ne_zero_of_cross hz.ne'
  obtain ⟨_, w0⟩ := ne_zero_of_cross hw.ne'
  have lz := (length_pos z0).1
  have lw := (length_pos w0).1
  have hid := cross_id (v := v) w0 z0
  have hpos : 0 < (v.x ^ 2 + v.y ^ 2) * w.cross z / (w.length * z.length) := div_pos (mul_pos (sq_pos v0) h) (mul_pos lw lz)
  refine cos_lt (s := v.cross w / w.length) (t := v.cross z / z.length) (div_nonneg hw.le lw.le) (div_nonneg hz.le lz.le) ?_ ?_
  · rw [norm_sq w0, norm_sq z0]
  · linarith

/-- None to the left: the one further to the left has the larger cosine. -/
theorem turn_right {v z w : Pt ℝ} (hz : v.cross z ≤ 0) (hw : v.cross w < 0) (h : 0 < w.cross z) : v.dot w / w.length < v.dot z / z.length := by
  obtain ⟨v0, w0⟩ := ne_zero_of_cross hw.ne
  obtain ⟨_, z0⟩ := ne_zero_of_cross h.ne'
  have lz := (length_pos z0).1
  have lw := (length_pos w0).1
  have hid := cross_id (v := v) w0 z0
  have hpos : 0 < (v.x ^ 2 + v.y ^ 2) * w.cross z / (w.length * z.length) := div_pos (mul_pos (sq_pos v0) h) (mul_pos lw lz)
  have e1 : 0 ≤ - (v.cross z / z.length) := by
    rw [← neg_div]; exact div_nonneg (by linarith) lz.le
  have e2 : 0 ≤ - (v.cross w / w.length) := by
    rw [← neg_div]; exact div_nonneg (by linarith) lw.le
  refine cos_lt e1 e2 ?_ ?_
  · rw [neg_sq, neg_sq, norm_sq w0, norm_sq z0]
  · linarith

/-! ### Choosing -/

/-- The direction of an edge. -/
noncomputable def dir (G : Plan) (x : EndId) : Pt ℝ := (G.pt (opp x)).sub (G.pt x)

theorem cross_dir (x y : EndId) : (G.dir x).cross (G.dir y) = G.crs x y := rfl

theorem crs_opp (x y : EndId) : G.crs (opp x) y = - G.crs x y := by
  unfold crs
  rw [opp_opp]
  ring

/-- Is the turn from `x` to `z` to the left? -/
noncomputable def isLeft (G : Plan) (x z : EndId) : Bool := FloatOps.lt (FloatOps.ofInt 0) ((G.dir x).cross (G.dir z))

theorem isLeft_iff {x z : EndId} : G.isLeft x z = true ↔ 0 < G.crs x z := by
  unfold isLeft
  rw [cross_dir]
  simp [FloatOps.lt, FloatOps.ofInt]

/-- The cosine the code compares. -/
noncomputable def cosine (G : Plan) (x z : EndId) : ℝ := FloatOps.div ((G.dir x).dot (G.dir z)) (G.dir z).length

/-- The code prefers `z` to `w`. -/
def Better (G : Plan) (x w z : EndId) : Prop :=
  (G.isLeft x z = true ∧ G.isLeft x w = false) ∨ (G.isLeft x z = true ∧ G.isLeft x w = true ∧ G.cosine x z < G.cosine x w) ∨
    (G.isLeft x z = false ∧ G.isLeft x w = false ∧ G.cosine x w < G.cosine x z)

theorem better_of_ccw {x w z : EndId} (h : G.Ccw w z (opp x)) : G.Better x w z := by
  have hz : G.crs z (opp x) = G.crs x z := by rw [crs_neg, crs_opp, neg_neg]
  have hw : G.crs (opp x) w = - G.crs x w := crs_opp x w
  unfold Ccw at h
  rw [hz, hw] at h
  have hL : ∀ u, G.isLeft x u = false ↔ G.crs x u ≤ 0 := by
    intro u
    rw [← not_lt, ← isLeft_iff, Bool.not_eq_true]
  by_cases cz : 0 < G.crs x z
  · by_cases cw : 0 < G.crs x w
    · refine Or.inr (Or.inl ⟨isLeft_iff.2 cz, isLeft_iff.2 cw, ?_⟩)
      have hwz : 0 < G.crs w z := by
        rcases h with h | h | h
        · exact h.1
        · linarith [h.2]
        · linarith [h.1]
      exact turn_left (v := G.dir x) (z := G.dir z) (w := G.dir w) cz cw hwz
    · exact Or.inl ⟨isLeft_iff.2 cz, (hL w).2 (not_lt.1 cw)⟩
  · rw [not_lt] at cz
    have h' : 0 < - G.crs x w ∧ 0 < G.crs w z := by
      rcases h with h | h | h
      · linarith [h.2]
      · linarith [h.1]
      · exact h
    refine Or.inr (Or.inr ⟨(hL z).2 cz, (hL w).2 (by linarith [h'.1]), ?_⟩)
    exact turn_right (v := G.dir x) (z := G.dir z) (w := G.dir w) cz (show G.crs x w < 0 by linarith [h'.1]) h'.2

/-- The state of the search before it has seen the one it looks for. -/
def Looking (G : Plan) (x z : EndId) (st : NextState ℝ) : Prop :=
  st = ⟨FloatOps.nan, none, false⟩ ∨ ∃ w, G.Better x w z ∧ st.closest.isSome = true ∧ st.seen_ccw = G.isLeft x w ∧ st.closest_dot = G.cosine x w

theorem flt_iff {a b : ℝ} : FloatOps.lt a b = true ↔ a < b := by simp [FloatOps.lt]
theorem flt_neg {a b : ℝ} (h : ¬ a < b) : FloatOps.lt a b = false := by simp [FloatOps.lt]; linarith

theorem consider_before {x w z : EndId} (h : G.Better x w z) {pos : ℕ} {st : NextState ℝ} (hst : G.Looking x z st) :
    G.Looking x z (considerNext (G.dir x) (G.dir w) pos st) := by
  have key : considerNext (G.dir x) (G.dir w) pos st = st ∨ considerNext (G.dir x) (G.dir w) pos st = ⟨G.cosine x w, some pos, G.isLeft x w⟩ := by
    have hc : FloatOps.div ((G.dir x).dot (G.dir w)) (G.dir w).length = G.cosine x w := rfl
    have hl : FloatOps.lt (FloatOps.ofInt 0) ((G.dir x).cross (G.dir w)) = G.isLeft x w := rfl
    obtain ⟨d, c, s⟩ := st
    unfold considerNext
    dsimp only
    rw [hc, hl]
    rcases G.isLeft x w <;> rcases s <;> simp
    · by_cases hh : c = none ∨ FloatOps.lt d (G.cosine x w) = true
      · right
        intro h1 h2
        rcases hh with hh | hh
        · exact absurd hh h1
        · rw [h2] at hh; cases hh
      · left; intro h1; exact absurd h1 hh
    · by_cases hh : c = none ∨ FloatOps.lt (G.cosine x w) d = true
      · right
        intro h1 h2
        rcases hh with hh | hh
        · exact absurd hh h1
        · rw [h2] at hh; cases hh
      · left; intro h1; exact absurd h1 hh
  rcases key with h1 | h1
  · rw [h1]; exact hst
  · rw [h1]; exact Or.inr ⟨w, h, rfl, rfl, rfl⟩

theorem consider_it {x z : EndId} {pos : ℕ} {st : NextState ℝ} (hst : G.Looking x z st) :
    considerNext (G.dir x) (G.dir z) pos st = ⟨G.cosine x z, some pos, G.isLeft x z⟩ := by
  have hc : FloatOps.div ((G.dir x).dot (G.dir z)) (G.dir z).length = G.cosine x z := rfl
  have hl : FloatOps.lt (FloatOps.ofInt 0) ((G.dir x).cross (G.dir z)) = G.isLeft x z := rfl
  unfold considerNext
  dsimp only
  rw [hc, hl]
  rcases hst with rfl | ⟨w, hb, h1, h2, h3⟩
  · rcases G.isLeft x z <;> simp
  · obtain ⟨d, c, s⟩ := st
    dsimp only at h1 h2 h3
    subst h2 h3
    rcases hb with ⟨b1, b2⟩ | ⟨b1, b2, b3⟩ | ⟨b1, b2, b3⟩
    · simp [b1, b2]
    · simp [b1, b2, flt_iff.2 b3]
    · simp [b1, b2, flt_iff.2 b3]

theorem consider_after {x w z : EndId} (h : G.Better x w z) {p pos : ℕ} :
    considerNext (G.dir x) (G.dir w) pos ⟨G.cosine x z, some p, G.isLeft x z⟩ = ⟨G.cosine x z, some p, G.isLeft x z⟩ := by
  have hc : FloatOps.div ((G.dir x).dot (G.dir w)) (G.dir w).length = G.cosine x w := rfl
  have hl : FloatOps.lt (FloatOps.ofInt 0) ((G.dir x).cross (G.dir w)) = G.isLeft x w := rfl
  unfold considerNext
  dsimp only
  rw [hc, hl]
  rcases h with ⟨b1, b2⟩ | ⟨b1, b2, b3⟩ | ⟨b1, b2, b3⟩
  · simp [b1, b2]
  · simp [b1, b2, flt_neg (lt_asymm b3)]
  · simp [b1, b2, flt_neg (lt_asymm b3)]

theorem firstAt_plan (h : Tr G A ids arena) (p : Pt ℝ) : ∀ (l : List EndId) (i : Nat), (∀ x ∈ l, x.1 ∈ G.S) → (∃ x ∈ l, G.pt x = p) →
    ∃ l₁ y l₂, l = l₁ ++ y :: l₂ ∧ (∀ x ∈ l₁, G.pt x ≠ p) ∧ G.pt y = p ∧ firstAt arena p i l = .ok (i + l₁.length)
  | [], _, _, he => by obtain ⟨x, hx, _⟩ := he; simp at hx
  | (seg, e) :: l, i, hl, he => by
    obtain ⟨s, hs, _, is, _⟩ := h.get (x := (seg, e)) (hl _ (by simp))
    rw [firstAt, hs]
    simp only [Res.bind_ok]
    rw [is.pointAt]
    by_cases hp : G.pt (seg, e) = p
    · rw [if_pos (beq_iff.2 hp)]
      exact ⟨[], (seg, e), l, rfl, by simp, hp, rfl⟩
    · rw [if_neg (by rw [beq_iff]; exact hp)]
      obtain ⟨l₁, y, l₂, h1, h2, h3, h4⟩ := firstAt_plan h p l (i + 1) (fun x hx => hl x (by simp [hx])) (by
        obtain ⟨x, hx, hxp⟩ := he
        rcases List.mem_cons.1 hx with rfl | hx
        · exact absurd hxp hp
        · exact ⟨x, hx, hxp⟩)
      refine ⟨(seg, e) :: l₁, y, l₂, by rw [h1]; rfl, ?_, h3, ?_⟩
      · intro x hx
        rcases List.mem_cons.1 hx with rfl | hx
        · exact hp
        · exact h2 x hx
      · rw [h4, List.length_cons]
        congr 1
        omega

theorem endpointOrder_plan (h : Tr G A ids arena) {w x : EndId} (hw : w.1 ∈ G.S) (hx : x.1 ∈ G.S) {s c : BoolSegment ℝ} (hs : arena[w.1]? = some s)
    (hc : arena[x.1]? = some c) (same : Prop) [Decidable same] : ∃ o, endpointOrder same s w.2 c x.2 = .ok o ∧ (¬ same → w ≠ x → o ≠ .eq) := by
  unfold endpointOrder
  by_cases hsame : same
  · rw [if_pos hsame]
    exact ⟨_, rfl, fun h => absurd hsame h⟩
  · rw [if_neg hsame, endpointCmp_plan h.has hw hx hs hc]
    refine ⟨_, rfl, fun _ hne e => hne (key_inj hw hx (compare_eq_iff_eq.1 e))⟩

/-- What one turn of the search does. -/
theorem search_one (h : Tr G A ids arena) {x w : EndId} (hx : x.1 ∈ G.S) (hw : w.1 ∈ G.S) (cur pos : ℕ) (p : Pt ℝ) (l : List EndId) (st : NextState ℝ)
    (hcur : w ≠ x → pos ≠ cur) :
    searchNext arena cur x (G.dir x) p pos (w :: l) st =
      if (ids w).isSome ∨ w.1 = x.1 then searchNext arena cur x (G.dir x) p (pos + 1) l st
      else if G.pt w = p then searchNext arena cur x (G.dir x) p (pos + 1) l (considerNext (G.dir x) (G.dir w) pos st)
      else .ok st := by
  obtain ⟨seg, e⟩ := w
  obtain ⟨s, hs, hs', is, hd⟩ := h.get (x := (seg, e)) hw
  obtain ⟨c, hc, hc', ic, _⟩ := h.get hx
  rw [searchNext, hs, hc]
  simp only [Res.bind_ok]
  rw [hd, h.processed (seg, e) hw]
  by_cases h1 : (ids (seg, e)).isSome = true
  · rw [if_pos h1, if_pos (Or.inl h1)]
  · rw [if_neg h1]
    obtain ⟨o, ho, hoe⟩ := endpointOrder_plan h (w := (seg, e)) hw hx hs' hc' (pos = cur)
    rw [ho]
    simp only [Res.bind_ok]
    obtain ⟨o', ho', he⟩ := segCmp_plan is ic
    by_cases h2 : seg = x.1
    · rw [if_pos (Or.inr h2)]
      split
      · rfl
      · rw [ho']
        simp only [Res.bind_ok]
        rw [if_pos (he.2 h2)]
    · have hne : (seg, e) ≠ x := fun e => h2 (by rw [← e])
      rw [if_neg (hoe (hcur hne) hne), ho', if_neg (c := (ids (seg, e)).isSome = true ∨ seg = x.1) (by intro hh; exact hh.elim h1 h2)]
      simp only [Res.bind_ok]
      rw [if_neg (c := o' = .eq) (fun h => h2 (he.1 h))]
      by_cases h3 : G.pt (seg, e) = p
      · rw [if_pos h3, if_pos (c := p.beq (s.pointAt e) = true) (by rw [beq_iff, is.pointAt, h3]), is.pointAt, is.otherPointAt]
        rfl
      · rw [if_neg h3, if_neg (c := p.beq (s.pointAt e) = true) (by rw [beq_iff, is.pointAt]; exact fun e => h3 e.symm)]
        rfl

/-- Looking it gets to the right one, the search passes over others at the corner. -/
theorem search_before (h : Tr G A ids arena) {x z : EndId} (hx : x.1 ∈ G.S) (cur : ℕ) (p : Pt ℝ) : ∀ (l₁ l₂ : List EndId) (pos : ℕ) (st : NextState ℝ),
    (∀ w ∈ l₁, w.1 ∈ G.S ∧ G.pt w = p ∧ (w.1 ≠ x.1 → G.Better x w z)) → (∀ (k : ℕ) w, l₁[k]? = some w → w ≠ x → pos + k ≠ cur) → G.Looking x z st →
    ∃ st', G.Looking x z st' ∧ searchNext arena cur x (G.dir x) p pos (l₁ ++ l₂) st = searchNext arena cur x (G.dir x) p (pos + l₁.length) l₂ st'
  | [], l₂, pos, st, _, _, hst => ⟨st, hst, rfl⟩
  | w :: l₁, l₂, pos, st, hl, hc, hst => by
    obtain ⟨w1, w2, w3⟩ := hl w (by simp)
    have hlen : pos + (w :: l₁).length = pos + 1 + l₁.length := by rw [List.length_cons]; omega
    have ih := fun st hst => search_before h (z := z) hx cur p l₁ l₂ (pos + 1) st (fun w hw => hl w (by simp [hw]))
      (fun k u hk hu => by have := hc (k + 1) u (by simpa using hk) hu; omega) hst
    rw [List.cons_append, search_one h hx w1 cur pos p _ st (fun hne => by have := hc 0 w (by simp) hne; omega), hlen]
    rw [if_pos w2]
    split
    · exact ih st hst
    · rename_i hn
      exact ih _ (consider_before (w3 fun e => hn (Or.inr e)) hst)

/-- After it, nothing changes. -/
theorem search_after (h : Tr G A ids arena) {x z : EndId} (hx : x.1 ∈ G.S) (cur : ℕ) (p : Pt ℝ) (q : ℕ) : ∀ (l : List EndId) (pos : ℕ),
    (∀ w ∈ l, w.1 ∈ G.S ∧ (G.pt w = p → w.1 ≠ x.1 → G.Better x w z)) → (∀ (k : ℕ) w, l[k]? = some w → w ≠ x → pos + k ≠ cur) →
    searchNext arena cur x (G.dir x) p pos l ⟨G.cosine x z, some q, G.isLeft x z⟩ = .ok ⟨G.cosine x z, some q, G.isLeft x z⟩
  | [], _, _, _ => rfl
  | w :: l, pos, hl, hc => by
    obtain ⟨w1, w3⟩ := hl w (by simp)
    have ih := search_after h (z := z) hx cur p q l (pos + 1) (fun w hw => hl w (by simp [hw]))
      (fun k u hk hu => by have := hc (k + 1) u (by simpa using hk) hu; omega)
    rw [search_one h hx w1 cur pos p _ _ (fun hne => by have := hc 0 w (by simp) hne; omega)]
    split
    · exact ih
    · rename_i hn
      split
      · rename_i hp
        rw [consider_after (w3 hp fun e => hn (Or.inr e))]
        exact ih
      · rfl

/-- The search finds the next endpoint of the walk. -/
theorem findNext_plan (h : Tr G A ids arena) {included : List EndId} (hin : ∀ x ∈ included, G.Top x.1) (hs : included.Pairwise fun x y => G.key x < G.key y)
    {cur : ℕ} {x : EndId} (hcur : included[cur]? = some x) (hnext : G.next x ∈ included) (hfree : ids (G.next x) = none) :
    ∃ pos, included[pos]? = some (G.next x) ∧ findNextSegment arena included cur = .ok pos := by
  have hT : G.Top x.1 := hin x (List.mem_of_getElem? hcur)
  have hx : x.1 ∈ G.S := hT.1
  have hin' : ∀ x ∈ included, x.1 ∈ G.S := fun x hx => (hin x hx).1
  have hnd : included.Nodup := hs.imp fun h e => by rw [e] at h; exact lt_irrefl _ h
  have hnx := (next_top hT).1
  obtain ⟨c, hc, hc', ic, _⟩ := h.get hx
  have hpt : G.pt (G.next x) = G.pt (opp x) := next_pt hT
  obtain ⟨l₁, y, l₂, hl, hbefore, hy, hfirst⟩ := firstAt_plan h (G.pt (opp x)) included 0 hin' ⟨G.next x, hnext, hpt⟩
  have hrest : included.drop l₁.length = y :: l₂ := by rw [hl]; simp
  have hmem : G.next x ∈ y :: l₂ := by
    rw [hl, List.mem_append] at hnext
    rcases hnext with hn | hn
    · exact absurd hpt (hbefore _ hn)
    · exact hn
  obtain ⟨m₁, m₂, hm⟩ := List.append_of_mem hmem
  rw [hm] at hrest
  have hincl : included = l₁ ++ (m₁ ++ G.next x :: m₂) := by rw [hl, hm]
  have hs' := hs
  rw [hincl] at hs'
  have hs2 := (List.pairwise_append.1 hs').2.1
  have hs3 := List.pairwise_append.1 hs2
  have hinm : ∀ w ∈ m₁ ++ G.next x :: m₂, G.Top w.1 := fun w hw => hin w (by rw [hincl]; simp only [List.mem_append] at hw ⊢; exact Or.inr hw)
  have hbetter : ∀ w, G.Top w.1 → G.pt w = G.pt (opp x) → w ≠ G.next x → w.1 ≠ x.1 → G.Better x w (G.next x) := by
    intro w hw hp hne hne'
    exact better_of_ccw (cyc_ccw (mem_corner.2 ⟨hw, hp⟩) (next_spec hT).1 (opp_corner hT) (next_spec hT).2 hne (fun e => hne' (by rw [e]; rfl)))
  have hm1 : ∀ w ∈ m₁, w.1 ∈ G.S ∧ G.pt w = G.pt (opp x) ∧ (w.1 ≠ x.1 → G.Better x w (G.next x)) := by
    intro w hw
    have hwT := hinm w (by simp [hw])
    have hyw : G.key y ≤ G.key w := by
      rw [← hm] at hs2
      rw [List.pairwise_cons] at hs2
      have : w ∈ y :: l₂ := by rw [hm]; simp [hw]
      rcases List.mem_cons.1 this with e | e
      · rw [e]
      · exact (hs2.1 w e).le
    have hwn : G.key w < G.key (G.next x) := hs3.2.2 w hw _ (by simp)
    have hpw : G.pt w = G.pt (opp x) := by
      by_contra hne
      rcases LeftOf.total hne with h1 | h1
      · exact absurd (key_lt_of_leftOf (x := w) (y := y) (by rw [hy]; exact h1)) (not_lt.2 hyw)
      · exact absurd (key_lt_of_leftOf (x := G.next x) (y := w) (by rw [hpt]; exact h1)) (lt_asymm hwn)
    refine ⟨hwT.1, hpw, fun hne => hbetter w hwT hpw (fun e => ?_) hne⟩
    rw [e] at hwn; exact lt_irrefl _ hwn
  have hm2 : ∀ w ∈ m₂, w.1 ∈ G.S ∧ (G.pt w = G.pt (opp x) → w.1 ≠ x.1 → G.Better x w (G.next x)) := by
    intro w hw
    have hwT := hinm w (by simp [hw])
    refine ⟨hwT.1, fun hpw hne => hbetter w hwT hpw (fun e => ?_) hne⟩
    have := (List.pairwise_cons.1 hs3.2.1).1 w hw
    rw [e] at this; exact lt_irrefl _ this
  have hcu : ∀ k w, included[k]? = some w → w ≠ x → k ≠ cur := by
    rintro k w hk hne rfl
    rw [hcur] at hk
    exact hne (Option.some.inj hk).symm
  have hpos : included[l₁.length + m₁.length]? = some (G.next x) := by
    rw [hincl, List.getElem?_append_right (by omega)]
    rw [show l₁.length + m₁.length - l₁.length = m₁.length by omega, List.getElem?_append_right (le_refl _)]
    simp
  refine ⟨l₁.length + m₁.length, hpos, ?_⟩
  unfold findNextSegment
  rw [show index included cur = .ok x from by unfold index; rw [hcur]]
  simp only [Res.bind_ok]
  rw [hc]
  simp only [Res.bind_ok]
  rw [ic.otherPointAt, hfirst, ic.pointAt]
  simp only [Res.bind_ok, zero_add]
  have hc1 : ∀ (k : ℕ) w, m₁[k]? = some w → w ≠ x → l₁.length + k ≠ cur := by
    intro k w hk
    refine hcu _ _ ?_
    have := (List.getElem?_eq_some_iff.1 hk).1
    rw [hincl, List.getElem?_append_right (by omega), show l₁.length + k - l₁.length = k by omega, List.getElem?_append_left this, hk]
  have hc2 : ∀ (k : ℕ) w, m₂[k]? = some w → w ≠ x → l₁.length + m₁.length + 1 + k ≠ cur := by
    intro k w hk
    refine hcu _ _ ?_
    rw [hincl, List.getElem?_append_right (by omega), List.getElem?_append_right (by omega),
      show l₁.length + m₁.length + 1 + k - l₁.length - m₁.length = k + 1 by omega, List.getElem?_cons_succ, hk]
  have hd : (G.pt (opp (x.1, x.2))).sub (G.pt (x.1, x.2)) = G.dir x := rfl
  obtain ⟨st, hst, hrun⟩ := search_before h (z := G.next x) hx cur (G.pt (opp x)) m₁ (G.next x :: m₂) l₁.length ⟨FloatOps.nan, none, false⟩ hm1 hc1 (Or.inl rfl)
  have hrun' : searchNext arena cur x ((G.pt (opp (x.1, x.2))).sub (G.pt (x.1, x.2))) (G.pt (opp (x.1, x.2))) l₁.length (included.drop l₁.length) ⟨FloatOps.nan, none, false⟩ =
      .ok ⟨G.cosine x (G.next x), some (l₁.length + m₁.length), G.isLeft x (G.next x)⟩ := by
    rw [hrest, hd]
    refine hrun.trans ?_
    have hsx : (G.next x).1 ≠ x.1 := by
      intro e
      have h1 := next_ne_opp hT
      have hne : G.next x ≠ x := by
        intro e'
        have := hpt
        rw [e'] at this
        obtain ⟨i, d⟩ := x
        have hlr := (G.wf i hx).ne
        cases d
        · exact hlr this
        · exact hlr this.symm
      rcases hz : G.next x with ⟨i, d⟩
      rw [hz] at e h1 hne
      obtain ⟨j, d'⟩ := x
      dsimp only at e
      subst e
      cases d <;> cases d' <;> first | exact hne rfl | exact h1 rfl
    rw [search_one h hx hnx cur _ _ _ _ (hcu _ _ hpos), if_neg (by rw [hfree]; intro hh; exact hh.elim (by simp) hsx), if_pos hpt, consider_it hst]
    exact search_after h hx cur _ _ _ _ hm2 hc2
  have hrun2 := hrun'
  rw [hrun2]
  simp only [Res.bind_ok]
  rfl

/-! ### One contour -/

theorem Tr.assign (h : Tr G A ids arena) {x : EndId} (hx : x.1 ∈ G.S) (id : Nat) :
    Tr G A (assignAll ids [x] id) (putPacket arena x.1 ((dat arena x.1).assign id x.2)) := by
  have hL : x.1 < arena.length := h.has.lt hx
  have hd := dat_put hL ((dat arena x.1).assign id x.2)
  constructor
  · exact h.has.put _ _
  · intro y hy
    rw [← h.faces y hy]
    unfold sideFlags
    rw [hd]
    split
    · rename_i e
      rw [e]
      obtain ⟨j, e'⟩ := x
      cases e' <;> cases y.2 <;> rfl
    · rfl
  · intro i hi
    rw [← h.below i hi, hd]
    split
    · rename_i e
      rw [e]
      obtain ⟨j, e'⟩ := x
      cases e' <;> rfl
    · rfl
  · intro i hi
    rw [← h.lindex i hi, hd]
    split
    · rename_i e
      rw [e]
      obtain ⟨j, e'⟩ := x
      cases e' <;> rfl
    · rfl
  · intro y hy
    have hp := h.processed y hy
    rw [hd]
    unfold assignAll
    obtain ⟨j, e⟩ := y
    obtain ⟨i, e'⟩ := x
    dsimp only at *
    by_cases hij : j = i
    · subst hij
      rw [if_pos rfl]
      cases e <;> cases e' <;> simp_all [SegmentPacket.assign, SegmentPacket.isProcessed, SegmentPacket.markProcessed]
    · rw [if_neg hij, if_neg (by simp [hij])]
      exact hp
  · intro j hj
    have hp := h.lid j hj
    rw [hd]
    unfold assignAll
    obtain ⟨i, e'⟩ := x
    dsimp only at *
    by_cases hij : j = i
    · subst hij
      rw [if_pos rfl]
      cases e' <;> simp_all [SegmentPacket.assign, SegmentPacket.markProcessed]
    · rw [if_neg hij, if_neg (by simp [hij])]
      exact hp
  · intro j hj
    have hp := h.rid j hj
    rw [hd]
    unfold assignAll
    obtain ⟨i, e'⟩ := x
    dsimp only at *
    by_cases hij : j = i
    · subst hij
      rw [if_pos rfl]
      cases e' <;> simp_all [SegmentPacket.assign, SegmentPacket.markProcessed]
    · rw [if_neg hij, if_neg (by simp [hij])]
      exact hp

/-- Part of a walk: each endpoint leads to the next, the last edge back to `p`. -/
def Chain (G : Plan) (p : Pt ℝ) : List EndId → Prop
  | [] => False
  | [y] => G.pt (opp y) = p
  | y :: z :: l => G.next y = z ∧ G.pt z ≠ p ∧ Chain G p (z :: l)

theorem Tr.keep (h : Tr G A ids arena) : Tr G.keep A ids arena where
  has := ⟨fun i hi => by
    obtain ⟨s, hs, is⟩ := h.has.seg i (mem_keep.1 hi).1
    exact ⟨s, hs, is.left, is.right, is.index, is.order⟩⟩
  faces x hx := h.faces x (mem_keep.1 hx).1
  below i hi := h.below i (mem_keep.1 hi).1
  lindex i hi := h.lindex i (mem_keep.1 hi).1
  processed x hx := h.processed x (mem_keep.1 hx).1
  lid i hi := h.lid i (mem_keep.1 hi).1
  rid i hi := h.rid i (mem_keep.1 hi).1

theorem bvUnion_get {a b : List Bool} (h : a.length = b.length) : ∃ c, bvUnion a b = .ok c ∧ c.length = a.length ∧ ∀ m : ℕ, c[m]? = some true ↔ a[m]? = some true ∨ b[m]? = some true := by
  refine ⟨List.zipWith (· || ·) a b, by unfold bvUnion; rw [if_pos h], by simp [h], fun m => ?_⟩
  rw [List.getElem?_zipWith]
  rcases lt_or_ge m a.length with hm | hm
  · rw [List.getElem?_eq_getElem hm, List.getElem?_eq_getElem (h ▸ hm)]
    simp
  · rw [List.getElem?_eq_none hm, List.getElem?_eq_none (h ▸ hm)]
    simp

/-- A walk is traced to its end. -/
theorem traceContour_plan {included : List EndId} (hin : ∀ x ∈ included, G.keep.Top x.1) (hs : included.Pairwise fun x y => G.key x < G.key y) (id : Nat) {p : Pt ℝ} :
    ∀ (l : List EndId) (y : EndId) (ids : EndId → Option Nat) (arena : Arena ℝ) (contour : Contour ℝ) (cur fuel : Nat),
    Tr G A ids arena → (∀ z ∈ y :: l, z ∈ included ∧ ids z = none ∧ (sideFlags A z).length = G.n) → (y :: l).Nodup → Chain G.keep p (y :: l) →
    included[cur]? = some y → contour.from_polygons.length = G.n → l.length < fuel →
    ∃ arena' last flags, traceContour included id p fuel arena contour cur =
        .ok (arena', { contour with points := contour.points ++ l.map G.keep.pt, from_polygons := flags }, last) ∧
      Tr G A (assignAll ids (y :: l) id) arena' ∧ included[last]? = (y :: l).getLast? ∧
      flags.length = G.n ∧ ∀ m : ℕ, flags[m]? = some true ↔ contour.from_polygons[m]? = some true ∨ ∃ z ∈ y :: l, (sideFlags A z)[m]? = some true
  | l, y, ids, arena, contour, cur, fuel => by
    intro h hl hnd hch hcur hflags hfuel
    obtain ⟨f, rfl⟩ : ∃ f, fuel = f + 1 := ⟨fuel - 1, by omega⟩
    obtain ⟨hyi, hfree, hfl⟩ := hl y (by simp)
    have hT := hin y hyi
    have hy : y.1 ∈ G.S := (mem_keep.1 hT.1).1
    obtain ⟨s, hss, hss', is, hd⟩ := h.get hy
    have hL : y.1 < arena.length := h.has.lt hy
    have hfaces : ((dat arena y.1).assign id y.2).faces y.2 = sideFlags A y := by
      rw [← h.faces y hy]
      unfold sideFlags
      cases y.2 <;> rfl
    obtain ⟨fl, hu1, hu2, hu3⟩ := bvUnion_get (hflags.trans hfl.symm)
    have hstart : traceContour included id p (f + 1) arena contour cur =
        if (G.pt (opp y)).beq p then pure (putPacket arena y.1 ((dat arena y.1).assign id y.2), { contour with from_polygons := fl }, cur)
        else (findNextSegment (putPacket arena y.1 ((dat arena y.1).assign id y.2)) included cur) >>= fun nx =>
          traceContour included id p f (putPacket arena y.1 ((dat arena y.1).assign id y.2)) (({ contour with from_polygons := fl } : Contour ℝ).add (G.pt (opp y))) nx := by
      rw [traceContour]
      rw [show index included cur = .ok y from by unfold index; rw [hcur]]
      simp only [Res.bind_ok]
      rw [hss]
      simp only [Res.bind_ok]
      rw [hd, hfaces, hu1]
      simp only [Res.bind_ok]
      rw [setPacket_put hL]
      simp only [Res.bind_ok]
      rw [is.otherPointAt]
    rw [hstart]
    have h' := h.assign hy id
    cases l with
    | nil =>
      have hnx : G.pt (opp y) = p := hch
      rw [if_pos (by rw [beq_iff]; exact hnx)]
      refine ⟨_, cur, fl, ?_, h', ?_, hu2.trans hflags, fun m => ?_⟩
      · simp only [List.map_nil, List.append_nil]; rfl
      · rw [hcur]; rfl
      · rw [hu3]; simp
    | cons z l =>
      obtain ⟨hnx, hzp, hch'⟩ := hch
      rw [if_neg]
      · have hzi := (hl z (by simp)).1
        rw [List.nodup_cons] at hnd
        obtain ⟨pos, hpos, hfind⟩ := findNext_plan h'.keep hin hs hcur (by rw [hnx]; exact hzi) (by
          rw [hnx]
          unfold assignAll
          rw [if_neg]
          · exact (hl z (by simp)).2.1
          · rw [List.mem_singleton]
            rintro rfl
            exact hnd.1 (by simp))
        rw [hfind]
        simp only [Res.bind_ok]
        obtain ⟨arena', last, flags, hrun, htr, hlast, hf1, hf2⟩ := traceContour_plan hin hs id l z (assignAll ids [y] id) (putPacket arena y.1 ((dat arena y.1).assign id y.2))
          (({ contour with from_polygons := fl } : Contour ℝ).add (G.pt (opp y))) pos f h' (by
            intro w hw
            obtain ⟨w1, w2, w3⟩ := hl w (by simp [List.mem_cons.1 hw])
            refine ⟨w1, ?_, w3⟩
            unfold assignAll
            rw [if_neg]
            · exact w2
            · rw [List.mem_singleton]
              rintro rfl
              exact hnd.1 hw)
          hnd.2 hch' (hnx ▸ hpos) (hu2.trans hflags) (by simp only [List.length_cons] at hfuel; omega)
        refine ⟨arena', last, flags, ?_, ?_, ?_, hf1, fun m => ?_⟩
        · rw [hrun]
          have hz : G.pt (opp y) = G.keep.pt z := by rw [← hnx]; exact (next_pt hT).symm
          congr 3
          unfold Contour.add
          dsimp only
          rw [hz]
          simp
        · have : assignAll (assignAll ids [y] id) (z :: l) id = assignAll ids (y :: z :: l) id := by
            funext w
            unfold assignAll
            by_cases hwz : w ∈ z :: l
            · rw [if_pos hwz, if_pos (List.mem_cons_of_mem _ hwz)]
            · rw [if_neg hwz]
              by_cases hwy : w = y
              · rw [if_pos (by simp [hwy]), if_pos (by simp [hwy])]
              · rw [if_neg (by simpa using hwy), if_neg (by simp only [List.mem_cons, not_or] at hwz ⊢; exact ⟨hwy, hwz⟩)]
          rw [← this]
          exact htr
        · rw [hlast]; rfl
        · rw [hf2]
          show (fl[m]? = some true ∨ _) ↔ _
          rw [hu3, or_assoc]
          refine or_congr_right ⟨?_, ?_⟩
          · rintro (h | ⟨w, hw, h⟩)
            · exact ⟨y, by simp, h⟩
            · exact ⟨w, List.mem_cons_of_mem _ hw, h⟩
          · rintro ⟨w, hw, h⟩
            rcases List.mem_cons.1 hw with rfl | hw
            · exact Or.inl h
            · exact Or.inr ⟨w, hw, h⟩
      · rw [beq_iff]
        intro e
        exact hzp (by rw [← hnx]; exact (next_pt hT).trans e)

end Plan

end Idc
