import Verif.Props.TidyRing
import Mathlib.Tactic.LinearCombination
/-!
# The net of segments of a list of outlines, for C76
-/

namespace Idc

/-! ### Edges the other way round -/

theorem onSegment_swap (e : Pt ℝ × Pt ℝ) (p : Pt ℝ) : OnSegment (e.2, e.1) p ↔ OnSegment e p := by
  constructor
  · rintro ⟨t, h0, h1, hx, hy⟩
    refine ⟨1 - t, by linarith, by linarith, ?_, ?_⟩
    · rw [hx]; ring
    · rw [hy]; ring
  · rintro ⟨t, h0, h1, hx, hy⟩
    refine ⟨1 - t, by linarith, by linarith, ?_, ?_⟩
    · rw [hx]; ring
    · rw [hy]; ring

theorem endOf_swap (e : Pt ℝ × Pt ℝ) (p : Pt ℝ) : EndOf (e.2, e.1) p ↔ EndOf e p := Or.comm

theorem parallel_swap_left (e e' : Pt ℝ × Pt ℝ) : ParallelEdges (e.2, e.1) e' ↔ ParallelEdges e e' := by
  unfold ParallelEdges
  constructor <;> intro h <;> dsimp only at * <;> linear_combination -h

theorem parallel_swap_right (e e' : Pt ℝ × Pt ℝ) : ParallelEdges e (e'.2, e'.1) ↔ ParallelEdges e e' := by
  unfold ParallelEdges
  constructor <;> intro h <;> dsimp only at * <;> linear_combination -h

theorem nearly_swap_left (e e' : Pt ℝ × Pt ℝ) : NearlyParallel (e.2, e.1) e' ↔ NearlyParallel e e' := by
  unfold NearlyParallel
  constructor <;> intro h <;> dsimp only at * <;> nlinarith [h]

theorem nearly_swap_right (e e' : Pt ℝ × Pt ℝ) : NearlyParallel e (e'.2, e'.1) ↔ NearlyParallel e e' := by
  unfold NearlyParallel
  constructor <;> intro h <;> dsimp only at * <;> nlinarith [h]

theorem onLine_swap (e : Pt ℝ × Pt ℝ) (p : Pt ℝ) : OnLine (e.2, e.1) p ↔ OnLine e p := by
  unfold OnLine
  constructor <;> intro h <;> dsimp only at * <;> linear_combination -h

theorem off_swap (e : Pt ℝ × Pt ℝ) (a b : Pt ℝ) : ClearlyOff (e.2, e.1) a b ↔ ClearlyOff e a b := by
  unfold ClearlyOff
  constructor <;> intro h <;> dsimp only at * <;> nlinarith [h]

theorem onLine_parallel {e e' : Pt ℝ × Pt ℝ} (h : ParallelEdges e e') (h1 : OnLine e e'.1) : OnLine e e'.2 := by
  unfold OnLine ParallelEdges at *
  linear_combination h1 - h

namespace Rings

/-- What the outlines have to satisfy. -/
structure Tidy (L : Rings) : Prop where
  ok : Ok L
  whole : ∀ q ∈ L.corners, WholePt q
  apart : ∀ e ∈ L.edges, ∀ e' ∈ L.edges, e ≠ e' → ∀ q, CommonPoint e e' q → EndOf e q ∧ EndOf e' q
  angles : ∀ e ∈ L.edges, ∀ e' ∈ L.edges, e ≠ e' → ParallelEdges e e' ∨ ¬ NearlyParallel e e'
  distances : ∀ e ∈ L.edges, ∀ e' ∈ L.edges, e ≠ e' → ParallelEdges e e' →
    OnLine e e'.1 ∨ ∀ a b, EndOf e a → EndOf e' b → ClearlyOff e a b

variable (L : Rings)

open Classical in
/-- The end at which the edge starts. -/
noncomputable def startEnd (i : Nat) : SegmentEnd := if LeftOf (corner L i) (corner L (succ L i)) then .left else .right

/-- The left end. -/
noncomputable def lp (i : Nat) : Pt ℝ := match startEnd L i with
  | .left => corner L i
  | .right => corner L (succ L i)

/-- The right end. -/
noncomputable def rp (i : Nat) : Pt ℝ := match startEnd L i with
  | .left => corner L (succ L i)
  | .right => corner L i

/-- The endpoint at which edge `i` starts. -/
noncomputable def fwd (i : Nat) : EndId := (i, startEnd L i)

/-- The endpoint at which edge `i` ends. -/
noncomputable def bwd (i : Nat) : EndId := opp (fwd L i)

open Classical in
/-- The next endpoint in the direction away from `x`. -/
noncomputable def next (x : EndId) : EndId := if x = fwd L x.1 then fwd L (succ L x.1) else bwd L (pred L x.1)

/-- The point of an endpoint. -/
noncomputable def pt (x : EndId) : Pt ℝ := match x.2 with
  | .left => lp L x.1
  | .right => rp L x.1

variable {L}

theorem pt_fwd (i : Nat) : pt L (fwd L i) = corner L i := by
  unfold pt fwd lp rp
  dsimp only
  cases h : startEnd L i <;> rfl

theorem pt_bwd (i : Nat) : pt L (bwd L i) = corner L (succ L i) := by
  unfold pt bwd fwd opp lp rp
  dsimp only
  cases h : startEnd L i <;> rfl

theorem fwd_or_bwd (x : EndId) : x = fwd L x.1 ∨ x = bwd L x.1 := by
  obtain ⟨i, e⟩ := x
  unfold bwd fwd opp
  dsimp only
  cases e <;> cases startEnd L i <;> simp [SegmentEnd.other]

theorem bwd_ne_fwd (i : Nat) : bwd L i ≠ fwd L i := by
  unfold bwd opp fwd
  dsimp only
  cases startEnd L i <;> simp [SegmentEnd.other]

theorem opp_bwd (i : Nat) : opp (bwd L i) = fwd L i := opp_opp _
theorem opp_fwd (i : Nat) : opp (fwd L i) = bwd L i := rfl
theorem fwd_fst (i : Nat) : (fwd L i).1 = i := rfl
theorem bwd_fst (i : Nat) : (bwd L i).1 = i := rfl

theorem next_fwd (i : Nat) : next L (fwd L i) = fwd L (succ L i) := by
  unfold next
  rw [fwd_fst, if_pos rfl]

theorem next_bwd (i : Nat) : next L (bwd L i) = bwd L (pred L i) := by
  unfold next
  rw [bwd_fst, if_neg (bwd_ne_fwd i)]

theorem ends (i : Nat) : (lp L i, rp L i) = (corner L i, corner L (succ L i)) ∨ (lp L i, rp L i) = (corner L (succ L i), corner L i) := by
  unfold lp rp
  cases startEnd L i
  · left; rfl
  · right; rfl

theorem edge_ne (h : Ok L) {i j : Nat} (hi : i < size L) (hj : j < size L) (hij : i ≠ j) :
    (corner L i, corner L (succ L i)) ≠ (corner L j, corner L (succ L j)) := by
  intro e
  exact hij (h.corner_inj hi hj (congrArg Prod.fst e))

/-- The net. -/
noncomputable def net (L : Rings) (hT : Tidy L) (n : Nat) (hn : ∀ r ∈ L, r.1 < n) : Net where
  N := size L
  lp := lp L
  rp := rp L
  poly := poly L
  n := n
  wf := by
    intro i hi
    have hne : corner L i ≠ corner L (succ L i) := fun e => hT.ok.succ_ne hi (hT.ok.corner_inj hi (succ_lt hi) e).symm
    unfold lp rp startEnd
    by_cases h : LeftOf (corner L i) (corner L (succ L i))
    · simpa [h] using h
    · have h' := (LeftOf.total hne).resolve_left h
      simpa [h] using h'
  wholeL := by
    intro i hi
    unfold lp
    cases startEnd L i
    · exact hT.whole _ (corner_mem hi)
    · exact hT.whole _ (corner_mem (succ_lt hi))
  wholeR := by
    intro i hi
    unfold rp
    cases startEnd L i
    · exact hT.whole _ (corner_mem (succ_lt hi))
    · exact hT.whole _ (corner_mem hi)
  poly_lt := by
    intro i hi
    obtain ⟨L₁, k, ps, L₂, j, hat⟩ := exists_at hi
    rw [hat.poly]
    exact hn (k, ps) (by rw [hat.list]; simp)
  apart := by
    intro i hi j hj hij q hq
    have h := hT.apart _ (edge_mem hi) _ (edge_mem hj) (edge_ne hT.ok hi hj hij) q
    rcases ends (L := L) i with ei | ei <;> rcases ends (L := L) j with ej | ej <;> rw [ei, ej] at hq ⊢
    · exact h hq
    · have := h ⟨hq.1, (onSegment_swap _ _).1 hq.2⟩
      exact ⟨this.1, (endOf_swap _ _).2 this.2⟩
    · have := h ⟨(onSegment_swap _ _).1 hq.1, hq.2⟩
      exact ⟨(endOf_swap _ _).2 this.1, this.2⟩
    · have := h ⟨(onSegment_swap _ _).1 hq.1, (onSegment_swap _ _).1 hq.2⟩
      exact ⟨(endOf_swap _ _).2 this.1, (endOf_swap _ _).2 this.2⟩
  angles := by
    intro i hi j hj hij
    have h := hT.angles _ (edge_mem hi) _ (edge_mem hj) (edge_ne hT.ok hi hj hij)
    set e := (corner L i, corner L (succ L i)) with he
    set e' := (corner L j, corner L (succ L j)) with he'
    have ei : (lp L i, rp L i) = e ∨ (lp L i, rp L i) = (e.2, e.1) := ends (L := L) i
    have ej : (lp L j, rp L j) = e' ∨ (lp L j, rp L j) = (e'.2, e'.1) := ends (L := L) j
    rcases ei with ei | ei <;> rcases ej with ej | ej <;> rw [ei, ej]
    · exact h
    · rw [parallel_swap_right e e', nearly_swap_right e e']; exact h
    · rw [parallel_swap_left e e', nearly_swap_left e e']; exact h
    · rw [parallel_swap_left e, parallel_swap_right e e', nearly_swap_left e, nearly_swap_right e e']; exact h
  distances := by
    intro i hi j hj hij hp
    have h := hT.distances _ (edge_mem hi) _ (edge_mem hj) (edge_ne hT.ok hi hj hij)
    have hp' : ParallelEdges (corner L i, corner L (succ L i)) (corner L j, corner L (succ L j)) := by
      rcases ends (L := L) i with ei | ei <;> rcases ends (L := L) j with ej | ej <;> rw [ei, ej] at hp
      · exact hp
      · exact (parallel_swap_right _ _).1 hp
      · exact (parallel_swap_left _ _).1 hp
      · exact (parallel_swap_left _ _).1 ((parallel_swap_right _ _).1 hp)
    have hj' : lp L j = corner L j ∨ lp L j = corner L (succ L j) := by
      rcases ends (L := L) j with ej | ej
      · left; exact congrArg Prod.fst ej
      · right; exact congrArg Prod.fst ej
    have hi' : lp L i = corner L i ∨ lp L i = corner L (succ L i) := by
      rcases ends (L := L) i with ej | ej
      · left; exact congrArg Prod.fst ej
      · right; exact congrArg Prod.fst ej
    have h2 : OnLine (corner L i, corner L (succ L i)) (lp L j) ∨ ClearlyOff (corner L i, corner L (succ L i)) (lp L i) (lp L j) := by
      rcases h hp' with g | g
      · left
        rcases hj' with e | e <;> rw [e]
        · exact g
        · exact onLine_parallel hp' g
      · right
        exact g _ _ hi' hj'
    rcases ends (L := L) i with ei | ei <;> rw [ei]
    · exact h2
    · have e1 := onLine_swap (corner L i, corner L (succ L i)) (lp L j)
      have e2 := off_swap (corner L i, corner L (succ L i)) (lp L i) (lp L j)
      dsimp only at e1 e2
      rw [e1, e2]
      exact h2
  next := next L
  next_lt := by
    intro x hx
    rcases fwd_or_bwd (L := L) x with e | e <;> rw [e]
    · rw [next_fwd]; exact succ_lt hx
    · rw [next_bwd]; exact pred_lt hx
  next_pt := by
    intro x hx
    have : pt L (next L x) = pt L (opp x) := by
      rcases fwd_or_bwd (L := L) x with e | e <;> rw [e]
      · rw [next_fwd, opp_fwd, pt_fwd, pt_bwd]
      · rw [next_bwd, opp_bwd, pt_fwd, pt_bwd, succ_pred hx]
    refine this.trans ?_
    obtain ⟨i, e⟩ := x
    cases e <;> rfl
  next_ne := by
    intro x hx
    rcases fwd_or_bwd (L := L) x with e | e <;> rw [e]
    · rw [next_fwd, fwd_fst, fwd_fst]; exact hT.ok.succ_ne hx
    · rw [next_bwd, bwd_fst, bwd_fst]
      intro h
      have := hT.ok.succ_ne (pred_lt hx)
      rw [succ_pred hx] at this
      exact this h.symm
  next_poly := by
    intro x hx
    rcases fwd_or_bwd (L := L) x with e | e <;> rw [e]
    · rw [next_fwd, fwd_fst, fwd_fst]; exact poly_succ hx
    · rw [next_bwd, bwd_fst, bwd_fst]; exact poly_pred hx
  only := by
    intro x y hx hy h
    have h' : pt L y = pt L (opp x) := by
      refine Eq.trans h ?_
      obtain ⟨i, e⟩ := x
      cases e <;> rfl
    change y = opp x ∨ y = next L x
    rcases fwd_or_bwd (L := L) x with ex | ex <;> rcases fwd_or_bwd (L := L) y with ey | ey <;> rw [ex, ey] at h' ⊢
    · rw [pt_fwd, opp_fwd, pt_bwd] at h'
      right
      rw [next_fwd, hT.ok.corner_inj hy (succ_lt hx) h']
    · rw [pt_bwd, opp_fwd, pt_bwd] at h'
      left
      rw [succ_inj hy hx (hT.ok.corner_inj (succ_lt hy) (succ_lt hx) h'), opp_fwd]
    · rw [pt_fwd, opp_bwd, pt_fwd] at h'
      left
      rw [hT.ok.corner_inj hy hx h', opp_bwd]
    · rw [pt_bwd, opp_bwd, pt_fwd] at h'
      right
      have := hT.ok.corner_inj (succ_lt hy) hx h'
      rw [next_bwd, ← this, pred_succ hy]

end Rings

end Idc
