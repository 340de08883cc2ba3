import Verif.Props.CutCmp
/-!
# Intersections of segments made up of several pieces, for C84
-/

namespace Idc

namespace Cut

open Plan

variable {G : Plan} {C : Cut G}

theorem parallel_scale {k l k' l' : ℕ} (h : C.Run k l) (h' : C.Run k' l') :
    ParallelEdges (G.lp k, G.rp l) (G.lp k', G.rp l') ↔ ParallelEdges (G.lp k, G.rp k) (G.lp k', G.rp k') := by
  obtain ⟨r, hr, hx, hy⟩ := h.dir
  obtain ⟨r', hr', hx', hy'⟩ := h'.dir
  unfold ParallelEdges
  dsimp only
  rw [hx, hy, hx', hy']
  have hrr : r * r' ≠ 0 := (mul_pos hr hr').ne'
  constructor
  · intro e
    refine mul_left_cancel₀ hrr ?_
    linear_combination e
  · intro e
    linear_combination r * r' * e

theorem nearly_scale {k l k' l' : ℕ} (h : C.Run k l) (h' : C.Run k' l') :
    NearlyParallel (G.lp k, G.rp l) (G.lp k', G.rp l') ↔ NearlyParallel (G.lp k, G.rp k) (G.lp k', G.rp k') := by
  obtain ⟨r, hr, hx, hy⟩ := h.dir
  obtain ⟨r', hr', hx', hy'⟩ := h'.dir
  unfold NearlyParallel
  dsimp only
  rw [hx, hy, hx', hy']
  generalize (G.rp k).x - (G.lp k).x = a
  generalize (G.rp k).y - (G.lp k).y = b
  generalize (G.rp k').x - (G.lp k').x = a'
  generalize (G.rp k').y - (G.lp k').y = b'
  have hrr : 0 < (r * r') ^ 2 := pow_pos (mul_pos hr hr') 2
  have e1 : (r * a * (r' * b') - r * b * (r' * a')) ^ 2 = (r * r') ^ 2 * (a * b' - b * a') ^ 2 := by ring
  have e2 : 1 / 10 ^ 7 * ((r * a) ^ 2 + (r * b) ^ 2) * ((r' * a') ^ 2 + (r' * b') ^ 2) = (r * r') ^ 2 * (1 / 10 ^ 7 * (a ^ 2 + b ^ 2) * (a' ^ 2 + b' ^ 2)) := by ring
  rw [e1, e2]
  exact mul_le_mul_iff_right₀ hrr

theorem onLine_scale {k l : ℕ} (h : C.Run k l) {p : Pt ℝ} : OnLine (G.lp k, G.rp l) p ↔ OnLine (G.lp k, G.rp k) p := by
  obtain ⟨r, hr, hx, hy⟩ := h.dir
  unfold OnLine
  dsimp only
  rw [hx, hy]
  constructor
  · intro e
    refine mul_left_cancel₀ hr.ne' ?_
    linear_combination e
  · intro e
    linear_combination r * e

theorem off_scale {k l : ℕ} (h : C.Run k l) {p q : Pt ℝ} : ClearlyOff (G.lp k, G.rp l) p q ↔ ClearlyOff (G.lp k, G.rp k) p q := by
  obtain ⟨r, hr, hx, hy⟩ := h.dir
  unfold ClearlyOff
  dsimp only
  rw [hx, hy]
  generalize (G.rp k).x - (G.lp k).x = a
  generalize (G.rp k).y - (G.lp k).y = b
  generalize q.x - p.x = c
  generalize q.y - p.y = d
  have hrr : 0 < r ^ 2 := pow_pos hr 2
  have e1 : 1 / 10 ^ 7 * ((r * a) ^ 2 + (r * b) ^ 2) * (c ^ 2 + d ^ 2) = r ^ 2 * (1 / 10 ^ 7 * (a ^ 2 + b ^ 2) * (c ^ 2 + d ^ 2)) := by ring
  have e2 : (c * (r * b) - d * (r * a)) ^ 2 = r ^ 2 * (c * b - d * a) ^ 2 := by ring
  rw [e1, e2]
  exact mul_lt_mul_iff_right₀ hrr

/-- The piece is part of the run. -/
def Within (C : Cut G) (k l x : ℕ) : Prop := C.Run k x ∧ C.Run x l

theorem Within.own {k l x : ℕ} (h : C.Within k l x) : C.own k = C.own x := h.1.own

/-- A point of a run that is not one of its ends but an end of one of its pieces is a joint. -/
theorem Within.joint {k l x : ℕ} (h : C.Within k l x) {q : Pt ℝ} (hq : EndOf (G.lp x, G.rp x) q) (hn : ¬ EndOf (G.lp k, G.rp l) q) :
    ∃ y z, C.Joint y z ∧ C.Within k l y ∧ C.Within k l z ∧ G.rp y = q := by
  rcases hq with rfl | rfl
  · have hne : k ≠ x := by rintro rfl; exact hn (Or.inl rfl)
    obtain ⟨m, hj, r⟩ := exists_prev h.1 hne
    exact ⟨m, x, hj, ⟨r, ⟨hj.left, h.2.right, hj.own.trans h.2.own, hj.lt.le.trans h.2.le⟩⟩, h, hj.meet⟩
  · have hne : x ≠ l := by rintro rfl; exact hn (Or.inr rfl)
    obtain ⟨m, hj, r⟩ := exists_next h.2 hne
    exact ⟨x, m, hj, h, ⟨⟨h.1.left, hj.right, h.1.own.trans hj.own, h.1.le.trans hj.lt.le⟩, r⟩, rfl⟩

theorem Run.common {k l k' l' : ℕ} (h : C.Run k l) (h' : C.Run k' l') (ho : C.own k ≠ C.own k') (hns : ¬ G.Same k k')
    (ht : G.a k' < G.b k) (ht' : G.a k < G.b k') (hs : ∀ x y z, C.Joint x y → z ∈ G.S → G.rp z = G.rp x → C.Within k l x → C.Within k l y → ¬ C.Within k' l' z)
    {q : Pt ℝ} (hq : CommonPoint (G.lp k, G.rp l) (G.lp k', G.rp l') q) : EndOf (G.lp k, G.rp l) q := by
  by_contra hn
  obtain ⟨t1, t2, t3⟩ := h.on hq.1
  obtain ⟨u1, u2, u3⟩ := h'.on hq.2
  obtain ⟨m, r1, r2, m1, m2⟩ := h.piece t1 t2
  obtain ⟨m', r1', r2', m1', m2'⟩ := h'.piece u1 u2
  have o1 : OnSegment (G.lp m, G.rp m) q := on_of (Run.refl (C := C) r1.right) m1 m2 (by rw [t3, C.line k h.left m r1.right r1.own])
  have o2 : OnSegment (G.lp m', G.rp m') q := on_of (Run.refl (C := C) r1'.right) m1' m2' (by rw [u3, C.line k' h'.left m' r1'.right r1'.own])
  have hmm : m' ≠ m := by
    rintro rfl
    exact ho (r1.own.trans r1'.own.symm)
  by_cases hsm : G.Same m m'
  · -- they start with the pieces that coincide
    by_cases e1 : k = m
    · by_cases e2 : k' = m'
      · subst e1; subst e2
        exact hns hsm
      · obtain ⟨y, hj, r⟩ := exists_prev r1' e2
        have t1 : G.b y = G.a m := (congrArg G.time (hj.meet.trans hsm.1.symm) :)
        have := r.b_le
        rw [← e1] at t1
        linarith
    · by_cases e2 : k' = m'
      · obtain ⟨y, hj, r⟩ := exists_prev r1 e1
        have t1 : G.b y = G.a m' := (congrArg G.time (hj.meet.trans hsm.1) :)
        have := r.b_le
        rw [← e2] at t1
        linarith
      · obtain ⟨y, hj, _⟩ := exists_prev r1 e1
        obtain ⟨y', hj', _⟩ := exists_prev r1' e2
        exact hj.not_same' hj' hmm.symm hsm
  · have he := G.apart' r1.right r1'.right hsm ⟨o1, o2⟩
    obtain ⟨y, z, hj, wy, wz, hyq⟩ := Within.joint ⟨r1, r2⟩ he.1 hn
    rcases he.2 with e | e
    · dsimp only at e
      by_cases hk : k' = m'
      · subst hk
        have e1 : G.b y = G.a k' := congrArg G.time (hyq.trans e)
        have := wy.1.b_le
        linarith
      · obtain ⟨n, hn', r⟩ := exists_prev r1' hk
        exact hs y z n hj hn'.left (by rw [hn'.meet, ← e, hyq]) wy wz ⟨r, ⟨hn'.left, r2'.right, hn'.own.trans r2'.own, hn'.lt.le.trans r2'.le⟩⟩
    · dsimp only at e
      exact hs y z m' hj r1'.right (by rw [← e, hyq]) wy wz ⟨r1', r2'⟩

/-- Two segments without a common joint. -/
theorem handle_apart {arena : Arena ℝ} {i j k l k' l' : ℕ} (h : C.Run k l) (h' : C.Run k' l') {s s' : BoolSegment ℝ} (es : arena[i]? = some s)
    (es' : arena[j]? = some s') (is : Seg G k l i s) (is' : Seg G k' l' j s') (ho : C.own k ≠ C.own k') (hns : ¬ G.Same k k')
    (ht : G.a k' < G.b k) (ht' : G.a k < G.b k') (hs : ∀ x y z, C.Joint x y → z ∈ G.S → G.rp z = G.rp x → C.Within k l x → C.Within k l y → ¬ C.Within k' l' z)
    (hs' : ∀ x y z, C.Joint x y → z ∈ G.S → G.rp z = G.rp x → C.Within k' l' x → C.Within k' l' y → ¬ C.Within k l z) :
    ∃ m, m < 2 ∧ handleIntersections arena (some i) (some j) = .ok (arena, m, none, none) := by
  unfold handleIntersections
  have e1 : index arena i = .ok s := by unfold index; rw [es]
  have e2 : index arena j = .ok s' := by unfold index; rw [es']
  dsimp only
  rw [e1, e2]
  simp only [Res.bind_ok]
  rw [is.left, is.right, is'.left, is'.right]
  have hI := intersect_apart (h.steady h') h.leftOf.ne (fun q hq => ⟨h.common h' ho hns ht ht' hs hq, h'.common h ho.symm (fun e => hns e.symm) ht' ht hs' ⟨hq.2, hq.1⟩⟩)
    (by
      rw [parallel_scale h h', nearly_scale h h']
      exact G.angles k h.left k' h'.left)
    (by
      rw [parallel_scale h h', onLine_scale h, off_scale h]
      exact G.distances k h.left k' h'.left)
  rcases hI with h0 | ⟨p, hp, k1, k2⟩
  · rw [h0]
    exact ⟨0, by norm_num, rfl⟩
  · rw [hp]
    dsimp only
    split
    · exact ⟨0, by norm_num, rfl⟩
    · refine ⟨1, by norm_num, ?_⟩
      have : ∀ {P Q : Pt ℝ}, EndOf (P, Q) p → (!P.beq p && !Q.beq p) = false := by
        rintro P Q (h | h)
        · simp only at h
          rw [h, beq_iff.2 rfl]; rfl
        · simp only at h
          rw [h, beq_iff.2 (rfl : Q = Q)]; simp
      rw [this k1, this k2]
      rfl

/-- Two lines with two common points are the same. -/
theorem line_eq {k k' : ℕ} {t u : ℝ} (htu : t ≠ u) (h1 : G.h k t = G.h k' t) (h2 : G.h k u = G.h k' u) : ∀ v, G.h k v = G.h k' v := by
  obtain ⟨m, c, hm⟩ := G.h_linear k
  obtain ⟨m', c', hm'⟩ := G.h_linear k'
  rw [hm, hm'] at h1 h2
  have e : (m - m') * (t - u) = 0 := by linear_combination h1 - h2
  have hmm : m - m' = 0 := (mul_eq_zero.1 e).resolve_right (sub_ne_zero.2 htu)
  have hmm : m = m' := by linarith
  subst hmm
  have : c = c' := by linarith
  intro v
  rw [hm, hm', this]

/-- Lines that meet are not nearly parallel. -/
theorem Run.not_nearly {k l k' l' : ℕ} (h : C.Run k l) (h' : C.Run k' l') (hline : ¬ ∀ t, G.h k t = G.h k' t) {t : ℝ} (ht : G.h k t = G.h k' t) :
    ¬ NearlyParallel (G.lp k, G.rp l) (G.lp k', G.rp l') := by
  rw [nearly_scale h h']
  refine (G.angles k h.left k' h'.left).resolve_left ?_
  intro hp
  apply hline
  -- parallel lines with a common point
  obtain ⟨m, c, hm⟩ := G.h_linear k
  obtain ⟨m', c', hm'⟩ := G.h_linear k'
  have f1 : (G.lp k).y = m * G.a k + c := by rw [← hm, G.h_left]
  have f2 : (G.rp k).y = m * G.b k + c := by rw [← hm, G.h_right h.left]
  have f3 : (G.lp k').y = m' * G.a k' + c' := by rw [← hm', G.h_left]
  have f4 : (G.rp k').y = m' * G.b k' + c' := by rw [← hm', G.h_right h'.left]
  have x1 : (G.lp k).x = G.a k - G.eps * (G.lp k).y := by unfold Plan.a Plan.time shearX; ring
  have x2 : (G.rp k).x = G.b k - G.eps * (G.rp k).y := by unfold Plan.b Plan.time shearX; ring
  have x3 : (G.lp k').x = G.a k' - G.eps * (G.lp k').y := by unfold Plan.a Plan.time shearX; ring
  have x4 : (G.rp k').x = G.b k' - G.eps * (G.rp k').y := by unfold Plan.b Plan.time shearX; ring
  unfold ParallelEdges at hp
  dsimp only at hp
  rw [x1, x2, x3, x4, f1, f2, f3, f4] at hp
  have g1 := G.a_lt_b h.left
  have g2 := G.a_lt_b h'.left
  have e : (m - m') * ((G.b k - G.a k) * (G.b k' - G.a k')) = 0 := by linear_combination -hp
  have hmm : m - m' = 0 := (mul_eq_zero.1 e).resolve_right (mul_pos (by linarith) (by linarith)).ne'
  have hmm : m = m' := by linarith
  subst hmm
  have : c = c' := by
    rw [hm, hm'] at ht
    linarith
  intro v
  rw [hm, hm', this]

/-- Two segments that meet at the end of a piece of each. -/
theorem handle_cross {arena : Arena ℝ} {i j k l k' l' : ℕ} (h : C.Run k l) (h' : C.Run k' l') {s s' : BoolSegment ℝ} (es : arena[i]? = some s)
    (es' : arena[j]? = some s') (is : Seg G k l i s) (is' : Seg G k' l' j s') {x x' : ℕ} (hsl : ¬ ∀ t, G.h x t = G.h x' t)
    (he : G.rp x = G.rp x') (wx : C.Within k l x) (wx' : C.Within k' l' x') (hne : x ≠ l ∨ x' ≠ l') :
    handleIntersections arena (some i) (some j) = .ok (arena, 1, if x = l then none else some (G.rp x), if x' = l' then none else some (G.rp x)) := by
  have hj : x ∈ G.S := wx.1.right
  have hj' : x' ∈ G.S := wx'.1.right
  -- the lines
  have hline : ¬ ∀ t, G.h k t = G.h k' t := by
    intro hh
    apply hsl
    intro t
    rw [← C.line k h.left x hj wx.own, ← C.line k' h'.left x' hj' wx'.own, hh]
  have htwo : ∀ t u, t ≠ u → G.h k t = G.h k' t → G.h k u = G.h k' u → False := by
    intro t u htu h1 h2
    apply hline
    obtain ⟨m, c, hm⟩ := G.h_linear k
    obtain ⟨m', c', hm'⟩ := G.h_linear k'
    rw [hm, hm'] at h1 h2
    have e : (m - m') * (t - u) = 0 := by linear_combination h1 - h2
    have hmm : m - m' = 0 := (mul_eq_zero.1 e).resolve_right (sub_ne_zero.2 htu)
    have hmm : m = m' := by linarith
    subst hmm
    have : c = c' := by linarith
    intro v
    rw [hm, hm', this]
  -- the point
  have xb : G.a k < G.b x := lt_of_le_of_lt wx.1.le (G.a_lt_b hj)
  have xl : G.b x ≤ G.b l := wx.2.b_le
  have xb' : G.a k' < G.b x' := lt_of_le_of_lt wx'.1.le (G.a_lt_b hj')
  have xl' : G.b x' ≤ G.b l' := wx'.2.b_le
  have xe : ∀ {k l x : ℕ}, C.Within k l x → G.b l = G.b x → x = l := fun w e => eq_of_b w.1.right w.2.right w.2.own e.symm
  have hbb : G.b x = G.b x' := congrArg G.time he
  have hk : G.h k (G.b x) = (G.rp x).y := by rw [C.line k h.left x hj wx.own, G.h_right hj]
  have hk' : G.h k' (G.b x) = (G.rp x).y := by rw [hbb, he, C.line k' h'.left x' hj' wx'.own, G.h_right hj']
  have c1 : OnSegment (G.lp k, G.rp l) (G.rp x) := on_of h xb.le xl hk.symm
  have c2 : OnSegment (G.lp k', G.rp l') (G.rp x) := on_of h' (by rw [he]; exact xb'.le) (by rw [he]; exact xl') hk'.symm
  have hnp : ¬ NearlyParallel (G.lp k, G.rp l) (G.lp k', G.rp l') := h.not_nearly h' hline (hk.trans hk'.symm)
  have hI := C67_steady_point _ _ hnp (G.rp x) ⟨c1, c2⟩ (h.spaced h' ⟨x, hj, Or.inr rfl⟩) (G.sep.steady _ ⟨x, hj, Or.inr rfl⟩)
  -- the ends are different
  have n1 : (G.lp k).beq (G.lp k') = false := by
    rw [Bool.eq_false_iff]
    intro hb
    have hb := beq_iff.1 hb
    have ha : G.a k = G.a k' := congrArg G.time hb
    refine htwo (G.a k) (G.b x) xb.ne ?_ (hk.trans hk'.symm)
    rw [G.h_left, ha, G.h_left, hb]
  have n2 : (G.rp l).beq (G.rp l') = false := by
    rw [Bool.eq_false_iff]
    intro hb
    have hb := beq_iff.1 hb
    have ha : G.b l = G.b l' := congrArg G.time hb
    by_cases hb' : G.b l = G.b x
    · exact hne.elim (fun e => e (xe wx hb')) fun e => e (xe wx' (by rw [← ha, hb', hbb]))
    · refine htwo (G.b l) (G.b x) hb' ?_ (hk.trans hk'.symm)
      rw [C.line k h.left l h.right h.own, G.h_right h.right, ha, C.line k' h'.left l' h'.right h'.own, G.h_right h'.right, hb]
  have n3 : (G.lp k).beq (G.rp x) = false := by
    rw [Bool.eq_false_iff]
    intro hb
    have : G.a k = G.b x := congrArg G.time (beq_iff.1 hb)
    linarith
  have n4 : (G.rp l).beq (G.rp x) = decide (x = l) := by
    by_cases e : x = l
    · rw [decide_eq_true e, e]; exact beq_iff.2 rfl
    · rw [decide_eq_false e, Bool.eq_false_iff]
      intro hb
      exact e (xe wx (congrArg G.time (beq_iff.1 hb)))
  have n5 : (G.lp k').beq (G.rp x) = false := by
    rw [Bool.eq_false_iff]
    intro hb
    have : G.a k' = G.b x := congrArg G.time (beq_iff.1 hb)
    linarith
  have n6 : (G.rp l').beq (G.rp x) = decide (x' = l') := by
    by_cases e : x' = l'
    · rw [decide_eq_true e, he, e]; exact beq_iff.2 rfl
    · rw [decide_eq_false e, Bool.eq_false_iff]
      intro hb
      exact e (xe wx' ((congrArg G.time (beq_iff.1 hb)).trans hbb))
  unfold handleIntersections
  have e1 : index arena i = .ok s := by unfold index; rw [es]
  have e2 : index arena j = .ok s' := by unfold index; rw [es']
  dsimp only
  rw [e1, e2]
  simp only [Res.bind_ok]
  rw [is.left, is.right, is'.left, is'.right, hI]
  dsimp only
  rw [n1, n2, n3, n4, n5, n6]
  by_cases e : x = l <;> by_cases e' : x' = l' <;> simp [e, e']

/-- Segments along one line that overlap. -/
theorem Run.overlap {k l k' l' : ℕ} (h : C.Run k l) (h' : C.Run k' l') (hh : ∀ t, G.h k t = G.h k' t) (h1 : G.a k' < G.b l) (h2 : G.a k < G.b l') :
    ∃ p q, intersectSegments (G.lp k, G.rp l) (G.lp k', G.rp l') = .segment p q := by
  have hlt := h.lt
  have hlt' := h'.lt
  have hd : 0 < G.b l - G.a k := by linarith
  have pos : ∀ p : Pt ℝ, p.y = G.h k (G.time p) → linePt (G.lp k, G.rp l) ((G.time p - G.a k) / (G.b l - G.a k)) = p := by
    intro p hp
    obtain ⟨m, c, hm⟩ := G.h_linear k
    have e1 : (G.lp k).y = m * G.a k + c := by rw [← hm, G.h_left]
    have e2 : (G.rp l).y = m * G.b l + c := by rw [← hm, C.line k h.left l h.right h.own, G.h_right h.right]
    have x1 : (G.lp k).x = G.a k - G.eps * (G.lp k).y := by unfold Plan.a Plan.time shearX; ring
    have x2 : (G.rp l).x = G.b l - G.eps * (G.rp l).y := by unfold Plan.b Plan.time shearX; ring
    have x3 : p.x = G.time p - G.eps * p.y := by unfold Plan.time shearX; ring
    unfold linePt
    dsimp only
    refine pt_ext ?_ ?_
    · dsimp only
      rw [x1, x2, x3, hp, hm, e1, e2]
      field_simp
      ring
    · dsimp only
      rw [hp, hm, e1, e2]
      field_simp
      ring
  have p1 := pos (G.lp k') (by rw [hh]; show _ = G.h k' (G.a k'); rw [G.h_left])
  have p2 := pos (G.rp l') (by rw [hh]; show _ = G.h k' (G.b l'); rw [C.line k' h'.left l' h'.right h'.own, G.h_right h'.right])
  have hcol := intersect_collinear (G.lp k, G.rp l) h.leftOf.ne ((G.a k' - G.a k) / (G.b l - G.a k)) ((G.b l' - G.a k) / (G.b l - G.a k))
  rw [show linePt (G.lp k, G.rp l) ((G.a k' - G.a k) / (G.b l - G.a k)) = _ from p1,
    show linePt (G.lp k, G.rp l) ((G.b l' - G.a k) / (G.b l - G.a k)) = _ from p2] at hcol
  have u1 : (G.a k' - G.a k) / (G.b l - G.a k) < 1 := by rw [div_lt_one hd]; linarith
  have u2 : 0 < (G.b l' - G.a k) / (G.b l - G.a k) := div_pos (by linarith) hd
  have u3 : (G.a k' - G.a k) / (G.b l - G.a k) < (G.b l' - G.a k) / (G.b l - G.a k) := by
    rw [div_lt_div_iff_of_pos_right hd]; linarith
  rw [hcol, min_eq_left u3.le, max_eq_right u3.le, if_neg (by
    rintro (h | h) <;> linarith), if_neg]
  · exact ⟨_, _, rfl⟩
  · exact (max_lt (lt_min one_pos u2) (lt_min u1 u3)).ne

theorem comparePoints_lt {p q : Pt ℝ} (h : LeftOf p q) : comparePoints p q = .ok .lt := by
  unfold comparePoints
  simp only [real_cmp, unwrap, Res.bind_ok]
  rcases h with h | ⟨h1, h2⟩
  · rw [compare_lt_iff_lt.2 h]; rfl
  · rw [compare_eq_iff_eq.2 h1, compare_lt_iff_lt.2 h2]; rfl

theorem comparePoints_gt {p q : Pt ℝ} (h : LeftOf q p) : comparePoints p q = .ok .gt := by
  unfold comparePoints
  simp only [real_cmp, unwrap, Res.bind_ok]
  rcases h with h | ⟨h1, h2⟩
  · rw [compare_gt_iff_gt.2 h]; rfl
  · rw [compare_eq_iff_eq.2 h1.symm, compare_gt_iff_gt.2 h2]; rfl

theorem comparePoints_self (p : Pt ℝ) : comparePoints p p = .ok .eq := by
  unfold comparePoints
  simp only [real_cmp, unwrap, Res.bind_ok]
  rw [compare_eq_iff_eq.2 rfl, compare_eq_iff_eq.2 rfl]
  rfl

/-- Two segments that start with pieces that coincide; one of them may go on. -/
theorem handle_coincide {arena : Arena ℝ} {i j k l k' l' : ℕ} (h : C.Run k l) (h' : C.Run k' l') (hij : i ≠ j) {s s' : BoolSegment ℝ} (es : arena[i]? = some s)
    (es' : arena[j]? = some s') (is : Seg G k l i s) (is' : Seg G k' l' j s') (hkk : k ≠ k') (hs : G.Same k k')
    (pi : (dat arena i).polygon_index = G.poly k) (pj : (dat arena j).polygon_index = G.poly k') (hn : (dat arena j).edge_type ≠ .nonContributing) :
    handleIntersections arena (some i) (some j) =
      .ok (putPacket (putPacket arena i { dat arena i with edge_type := .nonContributing }) j { dat arena j with edge_type :=
        if (dat arena i).up_faces_outwards = (dat arena j).up_faces_outwards then .sameTransition else .differentTransition }, 2,
        if k = l then none else some (G.rp k), if k' = l' then none else some (G.rp k')) := by
  have hk := h.left
  have hk' := h'.left
  have hp := G.poly_ne hk hk' hkk hs
  have li : i < arena.length := (List.getElem?_eq_some_iff.1 es).1
  have lj : j < arena.length := (List.getElem?_eq_some_iff.1 es').1
  rw [dat_of es] at pi
  rw [dat_of es'] at pj hn
  unfold handleIntersections
  have e1 : index arena i = .ok s := by unfold index; rw [es]
  have e2 : index arena j = .ok s' := by unfold index; rw [es']
  dsimp only
  rw [e1, e2]
  simp only [Res.bind_ok]
  rw [is.left, is.right, is'.left, is'.right]
  have haa : G.a k = G.a k' := congrArg G.time hs.1
  obtain ⟨p, q, hpq⟩ := h.overlap h' hs.h (by have := h.lt; linarith) (by have := h'.lt; linarith)
  rw [hpq]
  dsimp only
  rw [if_neg (by rw [pi, pj]; exact hp)]
  have hafter : ∀ {k l : ℕ}, C.Run k l → k ≠ l → LeftOf (G.rp k) (G.rp l) := by
    intro k l h hne
    obtain ⟨m, hj, r⟩ := exists_next h hne
    rw [hj.meet]
    exact r.leftOf
  have e3 : index (putPacket arena i { s.data with edge_type := .nonContributing }) j = .ok s' := by
    unfold index
    rw [put_get, es']
    simp [hij.symm]
  rw [hs.1, comparePoints_self]
  simp only [Res.bind_ok]
  have hset : ∀ t, setUpperType (putPacket arena i { s.data with edge_type := .nonContributing }) j t =
      .ok (putPacket (putPacket arena i { s.data with edge_type := .nonContributing }) j { s'.data with edge_type := t }) := by
    intro t
    unfold setUpperType
    rw [e3]
    simp only [Res.bind_ok]
    rw [if_pos hn, setPacket_put (by rw [put_length]; exact lj)]
  rw [dat_of es, dat_of es']
  by_cases f1 : k = l
  · by_cases f2 : k' = l'
    · rw [if_pos f1, if_pos f2, ← f1, ← f2, hs.2, comparePoints_self]
      simp only [Res.bind_ok]
      rw [if_pos (beq_iff.2 rfl), setPacket_put li]
      simp only [Res.bind_ok]
      rw [hset]
      rfl
    · have := hafter h' f2
      rw [if_pos f1, if_neg f2, ← f1, hs.2, comparePoints_lt this]
      simp only [Res.bind_ok]
      rw [if_pos (beq_iff.2 rfl), setPacket_put li]
      simp only [Res.bind_ok]
      rw [hset]
      rfl
  · have f2 : k' = l' := ((h.eq_of_same h' hkk hs).resolve_left fun e => f1 e.symm).symm
    have := hafter h f1
    rw [hs.2] at this
    rw [if_neg f1, if_pos f2, ← f2, comparePoints_gt this]
    simp only [Res.bind_ok]
    rw [if_pos (beq_iff.2 rfl), setPacket_put li]
    simp only [Res.bind_ok]
    rw [hset, hs.2]
    rfl

/-- A segment that starts at a joint of the one above. -/
theorem handle_start {arena : Arena ℝ} {i j k l k' l' : ℕ} (h : C.Run k l) (h' : C.Run k' l') {s s' : BoolSegment ℝ} (es : arena[i]? = some s)
    (es' : arena[j]? = some s') (is : Seg G k l i s) (is' : Seg G k' l' j s') {x : ℕ} (wx : C.Within k' l' x) (hx : x ≠ l') (he : G.lp k = G.rp x)
    (hp : (∀ t, G.h k t = G.h k' t) → (dat arena i).polygon_index ≠ (dat arena j).polygon_index) :
    (∃ m, m ≠ 2 ∧ handleIntersections arena (some i) (some j) = .ok (arena, m, none, some (G.rp x))) ∧
    ((∀ t, G.h k t = G.h k' t) → handleIntersections arena (some j) (some i) = .ok (arena, 3, some (G.rp x), none)) := by
  have hxS : x ∈ G.S := wx.1.right
  have hab : G.a k = G.b x := congrArg G.time he
  have xb : G.a k' < G.b x := lt_of_le_of_lt wx.1.le (G.a_lt_b hxS)
  have xl : G.b x < G.b l' := lt_of_le_of_ne wx.2.b_le fun e => hx (eq_of_b hxS wx.2.right wx.2.own e)
  have hlt := h.lt
  have e1 : index arena i = .ok s := by unfold index; rw [es]
  have e2 : index arena j = .ok s' := by unfold index; rw [es']
  have hat : G.h k (G.a k) = G.h k' (G.a k) := by
    rw [G.h_left, he, C.line k' h'.left x hxS wx.own, hab, G.h_right hxS]
  have n1 : ∀ {p q : Pt ℝ}, G.time p ≠ G.time q → p.beq q = false := by
    intro p q hpq
    rw [Bool.eq_false_iff]
    intro hb
    exact hpq (congrArg G.time (beq_iff.1 hb))
  have hleft : LeftOf (G.lp k') (G.lp k) := by
    rw [he]; exact wx.1.leftOf
  rw [dat_of es, dat_of es'] at hp
  constructor
  · unfold handleIntersections
    dsimp only
    rw [e1, e2]
    simp only [Res.bind_ok]
    rw [is.left, is.right, is'.left, is'.right]
    by_cases hh : ∀ t, G.h k t = G.h k' t
    · obtain ⟨p, q, hpq⟩ := h.overlap h' hh (by linarith) (by linarith)
      rw [hpq]
      dsimp only
      rw [if_neg (hp hh), comparePoints_gt hleft]
      simp only [Res.bind_ok]
      have hr : ∃ o, comparePoints (G.rp l) (G.rp l') = .ok o := by
        unfold comparePoints
        simp only [real_cmp, unwrap, Res.bind_ok]
        exact ⟨_, rfl⟩
      obtain ⟨o, ho⟩ := hr
      rw [ho]
      simp only [Res.bind_ok]
      rw [n1 (show G.a k ≠ G.a k' by linarith)]
      exact ⟨3, by norm_num, by rw [he]; rfl⟩
    · have c1 : OnSegment (G.lp k, G.rp l) (G.lp k) := Net.onSegment_left (G.lp k, G.rp l)
      have c2 : OnSegment (G.lp k', G.rp l') (G.lp k) := on_of h' (show G.a k' ≤ G.a k by linarith) (show G.a k ≤ G.b l' by linarith) (by
        show _ = G.h k' (G.a k)
        rw [← hat, G.h_left])
      have hI := C67_steady_point _ _ (h.not_nearly h' hh hat) (G.lp k) ⟨c1, c2⟩ (h.spaced h' ⟨k, h.left, Or.inl rfl⟩) (G.sep.steady _ ⟨k, h.left, Or.inl rfl⟩)
      rw [hI]
      dsimp only
      have hr : (G.rp l).beq (G.rp l') = false := by
        rw [Bool.eq_false_iff]
        intro hb
        have hb := beq_iff.1 hb
        have ha : G.b l = G.b l' := congrArg G.time hb
        refine hh (line_eq (t := G.b l) hlt.ne' ?_ hat)
        rw [C.line k h.left l h.right h.own, G.h_right h.right, ha, C.line k' h'.left l' h'.right h'.own, G.h_right h'.right, hb]
      rw [n1 (show G.a k ≠ G.a k' by linarith), hr, n1 (show G.a k' ≠ G.a k by linarith), n1 (show G.b l' ≠ G.a k by linarith), beq_iff.2 (rfl : G.lp k = G.lp k)]
      exact ⟨1, by norm_num, by rw [he]; rfl⟩
  · intro hh
    unfold handleIntersections
    dsimp only
    rw [e1, e2]
    simp only [Res.bind_ok]
    rw [is.left, is.right, is'.left, is'.right]
    obtain ⟨p, q, hpq⟩ := h'.overlap h (fun t => (hh t).symm) (by linarith) (by linarith)
    rw [hpq]
    dsimp only
    rw [if_neg (hp hh).symm, comparePoints_lt hleft]
    simp only [Res.bind_ok]
    have hr : ∃ o, comparePoints (G.rp l') (G.rp l) = .ok o := by
      unfold comparePoints
      simp only [real_cmp, unwrap, Res.bind_ok]
      exact ⟨_, rfl⟩
    obtain ⟨o, ho⟩ := hr
    rw [ho]
    simp only [Res.bind_ok]
    rw [n1 (show G.a k' ≠ G.a k by linarith), he]
    rfl

theorem seg_of_is {T : Type} {k : ℕ} {s : SweepSegment ℝ T} (h : G.Is k s) : Seg G k k k s := ⟨h.left, h.right, h.index, h.order⟩

end Cut

end Idc
