import Verif.Spec.Simple
import Verif.Props.LoopArea
import Verif.Props.Shape
import Verif.Props.TidyGeom
import Mathlib.Algebra.BigOperators.Fin
/-!
# C77: `clockwise()` is right for every outline that does not touch itself
-/

namespace Idc

open Classical in
/-- For finitely many points there is a shear after which they are ordered by x alone. -/
theorem exists_shear_real (l : List (Pt ℝ)) : ∃ ε : ℝ, 0 < ε ∧ ∀ p ∈ l, ∀ q ∈ l, LeftOf p q → shearX ε p < shearX ε q := by
  have hpair : ∀ p q : Pt ℝ, ∃ ε₀ : ℝ, 0 < ε₀ ∧ ∀ ε, 0 < ε → ε < ε₀ → LeftOf p q → shearX ε p < shearX ε q := by
    intro p q
    rcases lt_trichotomy p.x q.x with h | h | h
    · refine ⟨(q.x - p.x) / (|p.y| + |q.y| + 1), div_pos (by linarith) (by positivity), ?_⟩
      intro ε h0 h1 _
      unfold shearX
      rw [lt_div_iff₀ (by positivity)] at h1
      have a1 := le_abs_self p.y
      have a2 := neg_abs_le q.y
      have : ε * (p.y - q.y) ≤ ε * (|p.y| + |q.y|) := mul_le_mul_of_nonneg_left (by linarith) h0.le
      nlinarith
    · refine ⟨1, one_pos, ?_⟩
      rintro ε h0 _ (h' | ⟨_, h'⟩)
      · linarith
      · unfold shearX
        have := mul_lt_mul_of_pos_left h' h0
        linarith
    · refine ⟨1, one_pos, ?_⟩
      rintro ε h0 _ (h' | ⟨h', _⟩) <;> linarith
  have hlist : ∀ pairs : List (Pt ℝ × Pt ℝ), ∃ ε₀ : ℝ, 0 < ε₀ ∧ ∀ ε, 0 < ε → ε < ε₀ → ∀ s ∈ pairs, LeftOf s.1 s.2 → shearX ε s.1 < shearX ε s.2 := by
    intro pairs
    induction pairs with
    | nil => exact ⟨1, one_pos, by simp⟩
    | cons s pairs ih =>
      obtain ⟨e1, p1, h1⟩ := ih
      obtain ⟨e2, p2, h2⟩ := hpair s.1 s.2
      refine ⟨Min.min e1 e2, lt_min p1 p2, ?_⟩
      intro ε h0 h s' hs'
      rcases List.mem_cons.1 hs' with rfl | hs'
      · exact h2 ε h0 (lt_of_lt_of_le h (min_le_right _ _))
      · exact h1 ε h0 (lt_of_lt_of_le h (min_le_left _ _)) s' hs'
  obtain ⟨e, he, h⟩ := hlist (l ×ˢ l)
  refine ⟨e / 2, by linarith, fun p hp q hq => h (e / 2) (by linarith) (by linarith) (p, q) (List.mem_product.2 ⟨hp, hq⟩)⟩

theorem finRotate_val {n : Nat} (i : Fin n) : (finRotate n i).val = (i.val + 1) % n := by
  cases n with
  | zero => exact i.elim0
  | succ n => rw [finRotate_succ_apply, Fin.val_add]; simp

theorem finRotate_pow_val {n : Nat} (i : Fin n) (k : Nat) : ((finRotate n ^ k) i).val = (i.val + k) % n := by
  induction k with
  | zero => simp [Nat.mod_eq_of_lt i.isLt]
  | succ k ih =>
    rw [pow_succ', Equiv.Perm.mul_apply, finRotate_val, ih]
    simp [Nat.add_assoc]

theorem closedEdges_getElem (ps : List (Pt ℝ)) (i : Nat) (h : i < (closedEdges ps).length) (h1 : i < ps.length) (h2 : (i + 1) % ps.length < ps.length) :
    (closedEdges ps)[i] = (ps[i], ps[(i + 1) % ps.length]) := by
  have := List.getElem_zip (l := ps) (l' := ps.rotate 1) (i := i) (h := h)
  rw [List.getElem_rotate] at this
  exact this

theorem closedEdges_length (ps : List (Pt ℝ)) : (closedEdges ps).length = ps.length := by
  unfold closedEdges; simp

/-- The sheared outline. -/
theorem exists_loop {ps : List (Pt ℝ)} (hs : SimpleOutline ps) : ∃ (L : Loop (Fin ps.length)) (ε : ℝ), L.nx = finRotate ps.length ∧
    (∀ i, L.x i = shearX ε ps[i]) ∧ (∀ i, L.y i = ps[i].y) ∧ ∀ p ∈ ps, ∀ q ∈ ps, LeftOf p q → shearX ε p < shearX ε q := by
  obtain ⟨ε, hε, hsh⟩ := exists_shear_real ps
  have hn := hs.corners
  have hinj : ∀ i j : Fin ps.length, shearX ε ps[i] = shearX ε ps[j] → i = j := by
    intro i j e
    by_contra hne
    have : ps[i] ≠ ps[j] := fun h => hne (Fin.ext ((List.Nodup.getElem_inj_iff hs.distinct).1 h))
    rcases LeftOf.total this with h | h
    · exact absurd e (ne_of_lt (hsh _ (List.getElem_mem _) _ (List.getElem_mem _) h))
    · exact absurd e (ne_of_gt (hsh _ (List.getElem_mem _) _ (List.getElem_mem _) h))
  have hne : ∀ i : Fin ps.length, finRotate ps.length i ≠ i := by
    intro i e
    have := congrArg Fin.val e
    rw [finRotate_val] at this
    have hi := i.isLt
    rcases Nat.lt_or_ge (i.val + 1) ps.length with h | h
    · rw [Nat.mod_eq_of_lt h] at this; omega
    · have e2 : i.val + 1 = ps.length := by omega
      rw [e2, Nat.mod_self] at this
      omega
  have hedge : ∀ i : Fin ps.length, (ps[i], ps[finRotate ps.length i]) ∈ closedEdges ps := by
    intro i
    rw [List.mem_iff_getElem]
    refine ⟨i.val, by rw [closedEdges_length]; exact i.isLt, ?_⟩
    rw [closedEdges_getElem ps i.val _ i.isLt (Nat.mod_lt _ (by omega))]
    congr 1
    exact getElem_congr_idx (finRotate_val i).symm
  refine ⟨⟨fun i => shearX ε ps[i], fun i => ps[i].y, finRotate ps.length, hinj, hne, ?_, ?_⟩, ε, rfl, fun _ => rfl, fun _ => rfl, hsh⟩
  · intro i e
    have := congrArg Fin.val e
    rw [finRotate_val, finRotate_val] at this
    have hi := i.isLt
    rw [Nat.mod_add_mod] at this
    rcases Nat.lt_or_ge (i.val + 1 + 1) ps.length with h | h
    · rw [Nat.mod_eq_of_lt h] at this; omega
    · rw [Nat.mod_eq_sub_mod h, Nat.mod_eq_of_lt (by omega)] at this; omega
  · intro k l hkl u a b c d e
    -- the point on a sheared edge
    have hon : ∀ i : Fin ps.length, Min.min (shearX ε ps[i]) (shearX ε ps[finRotate ps.length i]) ≤ u →
        u ≤ Max.max (shearX ε ps[i]) (shearX ε ps[finRotate ps.length i]) → ∀ h, h = chainH (fun i => shearX ε ps[i]) (fun i => ps[i].y) (finRotate ps.length) i u →
        OnSegment (ps[i], ps[finRotate ps.length i]) ⟨u - ε * h, h⟩ := by
      intro i a b h hh
      set p := ps[i] with hp
      set q := ps[finRotate ps.length i] with hq
      have hx : shearX ε p ≠ shearX ε q := fun e => hne i (hinj _ _ e).symm
      have h0 : shearX ε q - shearX ε p ≠ 0 := sub_ne_zero.2 hx.symm
      have hh' : h = p.y + (u - shearX ε p) * ((q.y - p.y) / (shearX ε q - shearX ε p)) := hh
      refine ⟨(u - shearX ε p) / (shearX ε q - shearX ε p), ?_, ?_, ?_, ?_⟩
      · rcases lt_or_gt_of_ne hx with hlt | hlt
        · rw [min_eq_left hlt.le] at a; exact div_nonneg (by linarith) (by linarith)
        · rw [max_eq_left hlt.le] at b; exact div_nonneg_of_nonpos (by linarith) (by linarith)
      · rcases lt_or_gt_of_ne hx with hlt | hlt
        · rw [max_eq_right hlt.le] at b; rw [div_le_one (by linarith)]; linarith
        · rw [min_eq_right hlt.le] at a; rw [div_le_one_of_neg (by linarith)]; linarith
      · show u - ε * h = p.x + _ * (q.x - p.x)
        have e1 : q.x - p.x = (shearX ε q - shearX ε p) - ε * (q.y - p.y) := by unfold shearX; ring
        have e2 : (u - shearX ε p) / (shearX ε q - shearX ε p) * (shearX ε q - shearX ε p) = u - shearX ε p := div_mul_cancel₀ _ h0
        rw [e1, mul_sub, e2, hh']
        unfold shearX
        ring
      · show h = p.y + _ * (q.y - p.y)
        rw [hh']; ring
    have hk := hon k a b _ rfl
    have hl := hon l c d _ e
    have hedgene : (ps[k], ps[finRotate ps.length k]) ≠ (ps[l], ps[finRotate ps.length l]) := by
      intro h
      have := (Prod.mk.injEq _ _ _ _ ▸ h).1
      exact hkl (Fin.ext ((List.Nodup.getElem_inj_iff hs.distinct).1 this))
    obtain ⟨e1, e2⟩ := hs.apart _ (hedge k) _ (hedge l) hedgene _ ⟨hk, hl⟩
    have hfind : ∀ i : Fin ps.length, EndOf (ps[i], ps[finRotate ps.length i])
        ⟨u - ε * chainH (fun i => shearX ε ps[i]) (fun i => ps[i].y) (finRotate ps.length) k u, chainH (fun i => shearX ε ps[i]) (fun i => ps[i].y) (finRotate ps.length) k u⟩ →
        ∃ j, (j = i ∨ j = finRotate ps.length i) ∧ shearX ε ps[j] = u := by
      intro i hi
      rcases hi with h | h
      · exact ⟨i, Or.inl rfl, by
          have h' : ps[i] = _ := h.symm
          rw [h']; unfold shearX; ring⟩
      · exact ⟨_, Or.inr rfl, by
          have h' : ps[finRotate ps.length i] = _ := h.symm
          rw [h']; unfold shearX; ring⟩
    obtain ⟨j, hj, hju⟩ := hfind k e1
    obtain ⟨j', hj', hju'⟩ := hfind l e2
    have : j = j' := hinj _ _ (hju.trans hju'.symm)
    subst this
    exact ⟨j, hju, hj, hj'⟩

theorem loop_area {ps : List (Pt ℝ)} {L : Loop (Fin ps.length)} {ε : ℝ} (h1 : L.nx = finRotate ps.length)
    (h2 : ∀ i, L.x i = shearX ε ps[i]) (h3 : ∀ i, L.y i = ps[i].y) : L.area2 = signedArea2 ps := by
  unfold signedArea2 Loop.area2
  rw [← List.sum_ofFn]
  congr 1
  apply List.ext_getElem
  · simp
  · intro i hi hi'
    have hi1 : i < ps.length := by simpa using hi
    rw [List.getElem_ofFn, List.getElem_map]
    have he := closedEdges_getElem ps i (by rw [closedEdges_length]; exact hi1) hi1 (Nat.mod_lt _ (by omega))
    unfold closedEdges at he
    rw [he]
    have hv : ps[finRotate ps.length ⟨i, hi1⟩] = ps[(i + 1) % ps.length]'(Nat.mod_lt _ (by omega)) := by
      show ps[(finRotate ps.length ⟨i, hi1⟩).val]'_ = _
      exact getElem_congr_idx (finRotate_val ⟨i, hi1⟩)
    show L.x ⟨i, hi1⟩ * L.y (L.nx ⟨i, hi1⟩) - L.y ⟨i, hi1⟩ * L.x (L.nx ⟨i, hi1⟩) = _
    rw [h1, h2, h2, h3, h3, hv]
    unfold shearX
    show (ps[i].x + ε * ps[i].y) * _ - ps[i].y * _ = _
    ring

/-- The outline turns left at its leftmost corner if its area is positive, and right if it is negative. -/
theorem outline_turn {ps : List (Pt ℝ)} (hs : SimpleOutline ps) {b v a : Pt ℝ} (hv : LeftmostCorner ps b v a) :
    LeftTurn b v a ∧ 0 < signedArea2 ps ∨ RightTurn b v a ∧ signedArea2 ps < 0 := by
  obtain ⟨L, ε, h1, h2, h3, h4⟩ := exists_loop hs
  have hn := hs.corners
  have hget : ∀ e ∈ closedEdges ps, ∃ i : Fin ps.length, e = (ps[i], ps[finRotate ps.length i]) := by
    intro e he
    obtain ⟨i, hi, rfl⟩ := List.mem_iff_getElem.1 he
    have hi1 : i < ps.length := by rw [closedEdges_length] at hi; exact hi
    refine ⟨⟨i, hi1⟩, ?_⟩
    rw [closedEdges_getElem ps i hi hi1 (Nat.mod_lt _ (by omega))]
    congr 1
    exact getElem_congr_idx (finRotate_val ⟨i, hi1⟩).symm
  obtain ⟨m, hm⟩ := hget _ hv.comes
  obtain ⟨k, hk⟩ := hget _ hv.goes
  simp only [Prod.mk.injEq] at hm hk
  have hkm : k = finRotate ps.length m := by
    have : ps[k] = ps[finRotate ps.length m] := hk.1.symm.trans hm.2
    exact Fin.ext ((List.Nodup.getElem_inj_iff hs.distinct).1 this)
  have hmin : ∀ i, L.x (L.nx m) ≤ L.x i := by
    intro i
    rw [h2, h2, h1, ← hm.2]
    rcases hv.leftmost ps[i] (List.getElem_mem _) with h | h
    · rw [h]
    · exact (h4 v (by rw [hm.2]; exact List.getElem_mem _) _ (List.getElem_mem _) h).le
  have hc : ∀ i j, ∃ n : ℕ, (L.nx ^ n) i = j := by
    intro i j
    refine ⟨ps.length - i.val + j.val, Fin.ext ?_⟩
    rw [h1, finRotate_pow_val]
    have hi := i.isLt
    have hj := j.isLt
    rw [show i.val + (ps.length - i.val + j.val) = ps.length + j.val by omega, Nat.add_mod_left, Nat.mod_eq_of_lt hj]
  have hturn := L.turn_area hc m hmin
  have hxv : L.x (L.nx m) = shearX ε v ∧ L.y (L.nx m) = v.y := by rw [h2, h3, h1, ← hm.2]; exact ⟨rfl, rfl⟩
  have hxb : L.x m = shearX ε b ∧ L.y m = b.y := by rw [h2, h3, hm.1]; exact ⟨rfl, rfl⟩
  have hxa : L.x (L.nx (L.nx m)) = shearX ε a ∧ L.y (L.nx (L.nx m)) = a.y := by rw [h2, h3, h1, ← hkm, ← hk.2]; exact ⟨rfl, rfl⟩
  simp only [hxv, hxb, hxa, loop_area h1 h2 h3] at hturn
  have e : (shearX ε a - shearX ε v) * (b.y - v.y) - (a.y - v.y) * (shearX ε b - shearX ε v) = (a.x - v.x) * (b.y - v.y) - (a.y - v.y) * (b.x - v.x) := by
    unfold shearX; ring
  rw [e] at hturn
  exact hturn

/-- **C77.** A new contour whose points are an outline that does not touch itself answers `clockwise()` with true exactly
if the outline turns right at its leftmost corner (which is to say, goes around clockwise), and `counterclockwise()` exactly
if it turns left there; one of the two holds. -/
theorem C77_clockwise {ps : List (Pt ℝ)} (hs : SimpleOutline ps) {b v a : Pt ℝ} (hv : LeftmostCorner ps b v a) :
    ∃ r c' c'', (Contour.ofPoints ps).clockwise = .ok (r, c') ∧ (Contour.ofPoints ps).counterclockwise = .ok (!r, c'') ∧
      (r = true ↔ RightTurn b v a) ∧ (r = false ↔ LeftTurn b v a) := by
  have hne : ps ≠ [] := by rintro rfl; have := hs.corners; simp at this
  obtain ⟨c', h⟩ := C50_fresh ps hne
  refine ⟨_, c', c', h, ?_, ?_⟩
  · unfold Contour.counterclockwise
    rw [h]
    rfl
  · rcases outline_turn hs hv with ⟨h1, h2⟩ | ⟨h1, h2⟩
    · have hr : ¬ RightTurn b v a := by unfold RightTurn; unfold LeftTurn at h1; linarith
      have hd : decide (signedArea2 ps < 0) = false := decide_eq_false (by linarith)
      simp [hd, hr, h1]
    · have hr : ¬ LeftTurn b v a := by unfold LeftTurn; unfold RightTurn at h1; linarith
      have hd : decide (signedArea2 ps < 0) = true := decide_eq_true h2
      simp [hd, hr, h1]

end Idc
