import Verif.Props.TidySetup
import Verif.Props.TidyAll
/-!
# Walking along a net is walking around an outline, for C76
-/

namespace Idc

namespace Rings

open Function

variable {L : Rings} {hT : Tidy L} {n : Nat} {hn : ∀ r ∈ L, r.1 < n}

theorem net_pt (x : EndId) : (net L hT n hn).pt x = pt L x := rfl
theorem net_next (x : EndId) : (net L hT n hn).next x = next L x := rfl

section
variable {i : Nat} {L₁ : Rings} {k : Nat} {ps : List (Pt ℝ)} {L₂ : Rings} {j : Nat}

theorem At.iter_succ (h : At L i L₁ k ps L₂ j) (t : Nat) : At L ((Rings.succ L)^[t] i) L₁ k ps L₂ ((j + t) % ps.length) := by
  induction t with
  | zero => rw [Nat.add_zero, Nat.mod_eq_of_lt h.lt]; exact h
  | succ t ih =>
    rw [iterate_succ_apply']
    have := ih.succ
    rwa [Nat.mod_add_mod] at this

theorem At.iter_pred (h : At L i L₁ k ps L₂ j) (t : Nat) : At L ((Rings.pred L)^[t] i) L₁ k ps L₂ ((j + t * (ps.length - 1)) % ps.length) := by
  induction t with
  | zero => rw [Nat.zero_mul, Nat.add_zero, Nat.mod_eq_of_lt h.lt]; exact h
  | succ t ih =>
    rw [iterate_succ_apply']
    have := ih.pred
    rwa [Nat.mod_add_mod, show j + t * (ps.length - 1) + (ps.length - 1) = j + (t + 1) * (ps.length - 1) by rw [Nat.add_mul, Nat.one_mul]; omega] at this

theorem pred_position {j t m : Nat} (hm : 0 < m) (ht : t ≤ m) : (j + t * (m - 1)) % m = (j + (m - t)) % m := by
  have e : j + t * (m - 1) + m = j + (m - t) + t * m := by
    obtain ⟨m', rfl⟩ : ∃ m', m = m' + 1 := ⟨m - 1, by omega⟩
    rw [Nat.add_sub_cancel, Nat.mul_add, Nat.mul_one]
    omega
  rw [← Nat.add_mod_right, e, Nat.add_mul_mod_self_right]

end

theorem iter_fwd (i t : Nat) : (next L)^[t] (fwd L i) = fwd L ((succ L)^[t] i) := by
  induction t generalizing i with
  | zero => rfl
  | succ t ih => rw [iterate_succ_apply, iterate_succ_apply, next_fwd, ih]

theorem iter_bwd (i t : Nat) : (next L)^[t] (bwd L i) = bwd L ((pred L)^[t] i) := by
  induction t generalizing i with
  | zero => rfl
  | succ t ih => rw [iterate_succ_apply, iterate_succ_apply, next_bwd, ih]

theorem period_eq {α : Type} {f : α → α} {x : α} {m : Nat} (hm : 0 < m) (h : f^[m] x = x) (h' : ∀ t, 0 < t → t < m → f^[t] x ≠ x) : minimalPeriod f x = m := by
  have h1 : minimalPeriod f x ≤ m := IsPeriodicPt.minimalPeriod_le hm h
  have h2 : 0 < minimalPeriod f x := IsPeriodicPt.minimalPeriod_pos hm h
  by_contra hne
  exact h' _ h2 (by omega) iterate_minimalPeriod

variable {i : Nat} {L₁ : Rings} {k : Nat} {ps : List (Pt ℝ)} {L₂ : Rings} {j : Nat}

theorem mod_ne {j t m : Nat} (hj : j < m) (h0 : 0 < t) (ht : t < m) : (j + t) % m ≠ j := by
  intro e
  rcases Nat.lt_or_ge (j + t) m with h | h
  · rw [Nat.mod_eq_of_lt h] at e; omega
  · rw [show j + t = (j + t - m) + m by omega, Nat.add_mod_right, Nat.mod_eq_of_lt (by omega)] at e
    omega

theorem period_fwd (h : At L i L₁ k ps L₂ j) : (net L hT n hn).period (fwd L i) = ps.length := by
  have hlt := h.lt
  refine period_eq (f := next L) (by omega) ?_ ?_
  · rw [iter_fwd]
    have := h.iter_succ ps.length
    rw [Nat.add_mod_right, Nat.mod_eq_of_lt hlt] at this
    rw [this.inj h]
  · intro t h0 ht e
    rw [iter_fwd] at e
    have e := congrArg Prod.fst e
    have h1 := (h.iter_succ t).index
    rw [show (succ L)^[t] i = i from e, h.index] at h1
    exact mod_ne hlt h0 ht (by omega)

theorem period_bwd (h : At L i L₁ k ps L₂ j) : (net L hT n hn).period (bwd L i) = ps.length := by
  have hlt := h.lt
  refine period_eq (f := next L) (by omega) ?_ ?_
  · rw [iter_bwd]
    have := h.iter_pred ps.length
    rw [pred_position (by omega) (le_refl _), Nat.sub_self, Nat.add_zero, Nat.mod_eq_of_lt hlt] at this
    rw [this.inj h]
  · intro t h0 ht e
    rw [iter_bwd] at e
    have e := congrArg Prod.fst e
    have h1 := (h.iter_pred t).index
    rw [pred_position (by omega) (by omega)] at h1
    rw [show (pred L)^[t] i = i from e, h.index] at h1
    exact mod_ne hlt (by omega) (by omega : ps.length - t < ps.length) (by omega)

/-- Forwards, the walk is the outline. -/
theorem orbit_fwd (h : At L i L₁ k ps L₂ j) : ((net L hT n hn).orbit (fwd L i)).map (net L hT n hn).pt = ps.rotate j := by
  apply List.ext_getElem?
  intro t
  rw [List.getElem?_map]
  have hlt := h.lt
  by_cases ht : t < ps.length
  · rw [Net.orbit_get (by rw [period_fwd h]; exact ht), List.getElem?_rotate ht]
    show some (pt L ((next L)^[t] (fwd L i))) = _
    rw [iter_fwd, pt_fwd, Nat.add_comm t j]
    exact (h.iter_succ t).corner.symm
  · rw [List.getElem?_eq_none (by rw [Net.orbit_length, period_fwd h]; omega), List.getElem?_eq_none (by rw [List.length_rotate]; omega)]
    rfl

/-- Backwards, the walk is the reversed outline. -/
theorem orbit_bwd (h : At L i L₁ k ps L₂ j) : ((net L hT n hn).orbit (bwd L i)).map (net L hT n hn).pt = (ps.rotate (j + 2)).reverse := by
  apply List.ext_getElem?
  intro t
  rw [List.getElem?_map]
  have hlt := h.lt
  by_cases ht : t < ps.length
  · rw [Net.orbit_get (by rw [period_bwd h]; exact ht), List.getElem?_reverse (by rw [List.length_rotate]; exact ht), List.length_rotate,
      List.getElem?_rotate (by omega)]
    show some (pt L ((next L)^[t] (bwd L i))) = _
    rw [iter_bwd, pt_bwd, ← (h.iter_pred t).succ.corner, pred_position (by omega) (by omega), Nat.mod_add_mod]
    congr 2
    omega
  · rw [List.getElem?_eq_none (by rw [Net.orbit_length, period_bwd h]; omega),
      List.getElem?_eq_none (by rw [List.length_reverse, List.length_rotate]; omega)]
    rfl

/-- Either way. -/
theorem orbit_rotated {x : EndId} (h : At L x.1 L₁ k ps L₂ j) :
    ((net L hT n hn).orbit x).map (net L hT n hn).pt ~r ps ∨ ((net L hT n hn).orbit x).map (net L hT n hn).pt ~r ps.reverse := by
  rcases fwd_or_bwd (L := L) x with e | e
  · left
    rw [e, orbit_fwd h]
    exact List.IsRotated.forall ps j
  · right
    rw [e, orbit_bwd h]
    exact (List.IsRotated.forall ps (j + 2)).reverse

theorem three_le (hT : Tidy L) (h : At L i L₁ k ps L₂ j) : 3 ≤ ps.length := hT.ok.three (k, ps) (by rw [h.list]; simp)

theorem period_eq_length {x : EndId} (h : At L x.1 L₁ k ps L₂ j) : (net L hT n hn).period x = ps.length := by
  rcases fwd_or_bwd (L := L) x with e | e <;> rw [e]
  · exact period_fwd h
  · exact period_bwd h

end Rings

/-! ### Rotations -/

theorem rotated_eq {α : Type} {l l' : List α} (h : l ~r l') (hn : l.Nodup) {v : α} (h1 : l.head? = some v) (h2 : l'.head? = some v) : l = l' := by
  obtain ⟨m, rfl⟩ := h
  have hl : 0 < l.length := by
    cases l with
    | nil => cases h1
    | cons a l => simp
  rw [← List.rotate_mod] at h2 ⊢
  have hm : m % l.length < l.length := Nat.mod_lt _ hl
  rw [List.head?_eq_getElem?] at h1 h2
  rw [List.getElem?_rotate hl, Nat.zero_add, Nat.mod_eq_of_lt hm, ← h1] at h2
  have := (List.getElem?_inj hm hn).1 h2
  rw [this, List.rotate_zero]

end Idc
