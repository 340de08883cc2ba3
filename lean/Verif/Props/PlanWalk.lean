import Verif.Props.PlanTrace
import Verif.Props.TidyRing
import Verif.Props.Shape
/-!
# The outline a walk makes, for C81
-/

namespace Idc

namespace Plan

open Net Function

variable {G : Plan} {x : EndId}

theorem arc_get (h : G.Top x.1) {k : ℕ} (hk : k < G.len x) : (G.arc x)[k]? = some (G.next^[k] x) := by
  unfold arc
  rw [List.getElem?_map, List.getElem?_range hk]
  rfl

theorem arc_length : (G.arc x).length = G.len x := by
  unfold arc; simp

/-- The edges of the outline. -/
theorem arc_edges (h : G.Top x.1) : closedEdges ((G.arc x).map G.pt) = (G.arc x).map fun z => (G.pt z, G.pt (opp z)) := by
  obtain ⟨hp, hback, _⟩ := len_spec h
  apply List.ext_getElem?
  intro i
  by_cases hi : i < G.len x
  · have e2 : ((G.arc x).map fun z => (G.pt z, G.pt (opp z)))[i]? = some (G.pt (G.next^[i] x), G.pt (opp (G.next^[i] x))) := by
      rw [List.getElem?_map, arc_get h hi]
      rfl
    rw [e2]
    refine Rings.closedEdges_get (by rw [List.getElem?_map, arc_get h hi]; rfl) ?_
    rw [List.length_map, arc_length, List.getElem?_map, arc_get h (Nat.mod_lt _ hp), ← iter_pt h]
    rw [Option.map_some]
    congr 1
    by_cases hl : i + 1 = G.len x
    · rw [hl, Nat.mod_self, hback]
      rfl
    · rw [Nat.mod_eq_of_lt (by omega)]
  · rw [List.getElem?_eq_none, List.getElem?_eq_none]
    · rw [List.length_map, arc_length]; omega
    · unfold closedEdges
      simp only [List.length_zip, List.length_map, List.length_rotate, arc_length]
      omega

/-- The outline has the area of the walk. -/
theorem arc_area (h : G.Top x.1) : signedArea2 ((G.arc x).map G.pt) = (sub h).area2 (side G x) := by
  classical
  obtain ⟨hp, hback, _⟩ := len_spec h
  have e1 : signedArea2 ((G.arc x).map G.pt) = ((closedEdges ((G.arc x).map G.pt)).map fun e => e.1.x * e.2.y - e.1.y * e.2.x).sum := rfl
  rw [e1, arc_edges h, List.map_map]
  unfold area2
  have hS : (sub h).S = ((List.range (G.len x)).map fun k => (G.next^[k] x).1).toFinset := by
    ext i
    show i ∈ (Finset.range (G.len x)).image _ ↔ _
    simp
  have hside : ∀ z ∈ G.arc x, side G x z.1 = z.2 := by
    intro z hz
    have h1 := side_mem h ((mem_sub h).2 ⟨z, hz, rfl⟩)
    obtain ⟨i, e⟩ := z
    dsimp only at h1 ⊢
    by_contra hn
    refine arc_opp h h1 hz ?_
    unfold opp
    rcases hs : side G x i <;> rw [hs] at hn <;> cases e <;> first | rfl | exact absurd rfl hn
  have hnd : ((List.range (G.len x)).map fun k => (G.next^[k] x).1).Nodup := by
    have h1 : ((G.arc x).map Prod.fst).Nodup := by
      refine List.Nodup.map_on ?_ (arc_nodup h)
      intro y hy z hz e
      have h1 := hside y hy
      have h2 := hside z hz
      exact Prod.ext e (by rw [← h1, ← h2, e])
    unfold arc at h1
    rwa [List.map_map] at h1
  rw [hS, List.sum_toFinset _ hnd, List.map_map]
  unfold arc
  rw [List.map_map]
  -- telescope
  have htel : ∀ n, ((List.range n).map fun k => G.time (G.pt (G.next^[k] x)) * (G.pt (G.next^[k] x)).y -
      G.time (G.pt (opp (G.next^[k] x))) * (G.pt (opp (G.next^[k] x))).y).sum = G.time (G.pt x) * (G.pt x).y - G.time (G.pt (G.next^[n] x)) * (G.pt (G.next^[n] x)).y := by
    intro n
    induction n with
    | zero => simp
    | succ n ih =>
      rw [List.range_succ, List.map_append, List.sum_append, ih]
      simp only [List.map_cons, List.map_nil, List.sum_cons, List.sum_nil]
      rw [iter_pt h]
      ring
  have h0 := htel (G.len x)
  rw [hback, sub_self] at h0
  have hadd : ∀ (l : List ℕ) (f g k : ℕ → ℝ), (∀ i ∈ l, f i = g i + k i) → (l.map f).sum = (l.map g).sum + (l.map k).sum := by
    intro l f g k
    induction l with
    | nil => simp
    | cons a l ih =>
      intro hh
      simp only [List.map_cons, List.sum_cons]
      rw [ih (fun i hi => hh i (by simp [hi])), hh a (by simp)]
      ring
  symm
  rw [hadd _ _ (((fun e : Pt ℝ × Pt ℝ => e.1.x * e.2.y - e.1.y * e.2.x) ∘ fun z => (G.pt z, G.pt (opp z))) ∘ fun k => G.next^[k] x) _ ?_, h0, add_zero]
  intro k hk
  rw [List.mem_range] at hk
  simp only [comp_apply]
  rw [hside _ (mem_arc.2 ⟨k, hk, rfl⟩)]
  rcases hz : G.next^[k] x with ⟨i, e⟩
  show sgn e * ((G.time (G.rp i) - G.time (G.lp i)) * ((G.lp i).y + (G.rp i).y)) = _
  cases e
  · simp only [sgn, if_true, pt, opp, SegmentEnd.other, time, shearX]
    ring
  · simp only [sgn, pt, opp, SegmentEnd.other, time, shearX]
    rw [if_neg (by simp)]
    ring

/-- The outline's area, by the turn at its leftmost corner. -/
theorem start_area (h : G.Start x) :
    (G.key x < G.key (opp (G.last x)) → 0 < signedArea2 ((G.arc x).map G.pt)) ∧ (G.key (opp (G.last x)) < G.key x → signedArea2 ((G.arc x).map G.pt) < 0) := by
  rw [arc_area h.1]
  exact walk_area h

end Plan

end Idc
