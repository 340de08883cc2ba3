import Verif.Props.RedrawnDouble
/-!
# C86 where outlines cross
-/

namespace Idc

variable {lib lib' : Lib} {polys polys' polys₂ : List (Polygon ℝ × PolygonMode)}

/-! ### Pieces of an edge, in the other direction -/

theorem between_on {a b c m : Pt ℝ} (hc : OnSegment (b, a) c) (hm : OnSegment (b, c) m) (hne : c ≠ b) : OnSegment (m, a) c ∧ (m = a → c = a) := by
  obtain ⟨t, t0, t1, tx, ty⟩ := hc
  obtain ⟨s, s0, s1, sx, sy⟩ := hm
  dsimp only at tx ty sx sy
  have hst : s * t ≤ 1 := by nlinarith
  rcases lt_or_eq_of_le hst with h | h
  · have hd : (1 - s * t) ≠ 0 := by linarith
    refine ⟨⟨(t - s * t) / (1 - s * t), div_nonneg (by nlinarith) (by linarith), (div_le_one (by linarith)).2 (by linarith), ?_, ?_⟩, ?_⟩
    · dsimp only
      rw [tx] at sx
      rw [show a.x - m.x = (1 - s * t) * (a.x - b.x) by rw [sx]; ring, ← mul_assoc, div_mul_cancel₀ _ hd, tx, sx]
      ring
    · dsimp only
      rw [ty] at sy
      rw [show a.y - m.y = (1 - s * t) * (a.y - b.y) by rw [sy]; ring, ← mul_assoc, div_mul_cancel₀ _ hd, ty, sy]
      ring
    · rintro rfl
      exfalso
      apply hne
      have ex : (1 - s * t) * (m.x - b.x) = 0 := by
        rw [tx] at sx
        linear_combination sx
      have ey : (1 - s * t) * (m.y - b.y) = 0 := by
        rw [ty] at sy
        linear_combination sy
      have ex' := (mul_eq_zero.1 ex).resolve_left hd
      have ey' := (mul_eq_zero.1 ey).resolve_left hd
      cases c
      cases b
      dsimp only at *
      rw [Pt.mk.injEq]
      rw [ex'] at tx
      rw [ey'] at ty
      constructor <;> linarith
  · have hs : s = 1 := by nlinarith
    have ht : t = 1 := by nlinarith
    subst hs ht
    have e1 : m = c := by
      cases m; cases c
      dsimp only at *
      rw [Pt.mk.injEq]
      constructor <;> linarith
    rw [e1]
    exact ⟨end_of_on.1, id⟩

theorem Pieces.snoc {a : Pt ℝ} {b c : Pt ℝ} {l : List (Pt ℝ × Pt ℝ)} (h : Pieces b c l) : OnSegment (b, a) c → c ≠ b → c ≠ a → Pieces b a (l ++ [(c, a)]) := by
  induction h with
  | whole b c => exact fun h1 h2 h3 => Pieces.step h1 h2 h3 (Pieces.whole c a)
  | @step b c m l hm hmb hmc hp ih =>
    intro h1 h2 h3
    obtain ⟨k1, k2⟩ := between_on h1 hm h2
    refine Pieces.step (on_part (e := (b, a)) (d := (b, c)) end_of_on.1 h1 hm) hmb (fun e => h3 (k2 e)) (ih k1 (Ne.symm hmc) h3)

theorem Pieces.reverse {a b : Pt ℝ} {l : List (Pt ℝ × Pt ℝ)} (h : Pieces a b l) : Pieces b a (l.map Prod.swap).reverse := by
  induction h with
  | whole a b => exact Pieces.whole b a
  | @step a b c l hc hca hcb hp ih =>
    rw [List.map_cons, List.reverse_cons]
    exact ih.snoc (on_swap hc) hcb hca

/-! ### Rotations of lists of lists -/

theorem rotate_append {α : Type} (l m : List α) : (l ++ m) ~r (m ++ l) := ⟨l.length, List.rotate_append_length_eq l m⟩

theorem flatten_rotate {α : Type} (L : List (List α)) (k : ℕ) : (L.rotate k).flatten ~r L.flatten := by
  rw [← List.rotate_mod]
  rcases Nat.eq_zero_or_pos L.length with h | h
  · rw [List.length_eq_zero_iff.1 h]
    exact List.IsRotated.refl _
  · rw [List.rotate_eq_drop_append_take (Nat.mod_lt _ h).le]
    conv_rhs => rw [← List.take_append_drop (k % L.length) L]
    rw [List.flatten_append, List.flatten_append]
    exact rotate_append _ _

theorem forall₂_rotate {α β : Type} {R : α → β → Prop} {l : List α} {m : List β} (h : List.Forall₂ R l m) (k : ℕ) : List.Forall₂ R (l.rotate k) (m.rotate k) := by
  rw [← List.rotate_mod l, ← List.rotate_mod m, ← h.length_eq]
  rcases Nat.eq_zero_or_pos l.length with h0 | h0
  · have e1 := List.length_eq_zero_iff.1 h0
    have e2 := List.length_eq_zero_iff.1 (h.length_eq.symm.trans h0)
    rw [e1, e2]
    simp
  · rw [List.rotate_eq_drop_append_take (Nat.mod_lt _ h0).le, List.rotate_eq_drop_append_take (by rw [← h.length_eq]; exact (Nat.mod_lt _ h0).le)]
    exact List.rel_append (List.forall₂_drop _ h) (List.forall₂_take _ h)

theorem reverse_edges (ps : List (Pt ℝ)) : closedEdges ps.reverse ~r ((closedEdges ps).map Prod.swap).reverse := by
  rcases Nat.eq_zero_or_pos ps.length with h0 | h0
  · rw [List.length_eq_zero_iff.1 h0]
    exact List.IsRotated.refl _
  have h1 : closedEdges ps.reverse = (ps.zip (ps.rotate (ps.length - 1))).reverse := by
    unfold closedEdges
    rw [List.zip_eq_zipWith, List.zip_eq_zipWith, List.reverse_zipWith (by simp), List.rotate_reverse]
    rcases Nat.eq_or_lt_of_le h0 with h | h
    · obtain ⟨p, rfl⟩ := List.length_eq_one_iff.1 h.symm
      simp
    · rw [Nat.mod_eq_of_lt h]
  have h2 : (ps.zip (ps.rotate (ps.length - 1))).rotate 1 = (closedEdges ps).map Prod.swap := by
    unfold closedEdges
    rw [List.zip_eq_zipWith, List.zipWith_rotate_distrib _ _ _ _ (by simp), List.rotate_rotate, Nat.sub_add_cancel h0, List.rotate_length, ← List.zip_eq_zipWith,
      ← List.zip_swap]
  rw [h1, ← h2]
  exact List.IsRotated.reverse ⟨1, rfl⟩

/-- An outline with added corners, retraced. -/
theorem subdivided_retraced {ps ps' qs : List (Pt ℝ)} (h : Subdivided ps qs) (hr : Retraced ps ps') : ∃ qs', Retraced qs qs' ∧ Subdivided ps' qs' := by
  obtain ⟨ds, h1, h2⟩ := h
  rcases hr with hr | hr
  · obtain ⟨k, hr⟩ := hr.symm
    obtain ⟨j, hj⟩ := (flatten_rotate ds (k)).symm
    refine ⟨qs.rotate j, Or.inl (List.IsRotated.symm ⟨j, rfl⟩), ds.rotate (k), ?_, ?_⟩
    · rw [← hr, closedEdges_rotate]
      exact forall₂_rotate h1 _
    · rw [closedEdges_rotate, h2, hj]
  · have he : closedEdges ps' ~r ((closedEdges ps).map Prod.swap).reverse := by
      obtain ⟨k, hk⟩ := hr
      refine List.IsRotated.trans ⟨k, ?_⟩ (reverse_edges ps)
      rw [← closedEdges_rotate, hk]
    obtain ⟨k, hk⟩ := he.symm
    have h3 : List.Forall₂ (fun e d => Pieces e.1 e.2 d) ((closedEdges ps).map Prod.swap).reverse (ds.map fun d => (d.map Prod.swap).reverse).reverse := by
      refine List.rel_reverse ?_
      rw [List.forall₂_map_left_iff, List.forall₂_map_right_iff]
      exact h1.imp fun e d h => h.reverse
    have h4 : (ds.map fun d => (d.map Prod.swap).reverse).reverse.flatten = ((closedEdges qs).map Prod.swap).reverse := by
      rw [h2, List.map_flatten, List.reverse_flatten, List.map_map]
      rfl
    have h5 : ((ds.map fun d => (d.map Prod.swap).reverse).reverse.rotate k).flatten ~r closedEdges qs.reverse :=
      (flatten_rotate _ k).trans (h4 ▸ (reverse_edges qs).symm)
    obtain ⟨j, hj⟩ := h5.symm
    refine ⟨qs.reverse.rotate j, Or.inr (List.IsRotated.symm ⟨j, rfl⟩), (ds.map fun d => (d.map Prod.swap).reverse).reverse.rotate k, ?_, ?_⟩
    · rw [← hk]
      exact forall₂_rotate h3 k
    · rw [closedEdges_rotate, hj]

/-! ### The polygons -/

theorem redrawn_pieces {p p' p₂ : Polygon ℝ} (h : List.Forall₂ (fun c c' => Subdivided c.points c'.points) p.contours p'.contours)
    (hr : ∃ cs, cs.Perm p.contours ∧ List.Forall₂ (fun c c' : Contour ℝ => Retraced c.points c'.points) cs p₂.contours) :
    ∃ q : Polygon ℝ, List.Forall₂ (fun c c' => Subdivided c.points c'.points) p₂.contours q.contours ∧
      ∃ cs, cs.Perm p'.contours ∧ List.Forall₂ (fun c c' : Contour ℝ => Retraced c.points c'.points) cs q.contours := by
  obtain ⟨cs, h1, h2⟩ := hr
  obtain ⟨cs', h3, h4⟩ := List.perm_comp_forall₂ h1 h
  have key : ∀ {cs cs' ds : List (Contour ℝ)}, List.Forall₂ (fun c c' => Subdivided c.points c'.points) cs cs' → List.Forall₂ (fun c c' : Contour ℝ => Retraced c.points c'.points) cs ds →
      ∃ qs : List (Contour ℝ), List.Forall₂ (fun c c' => Subdivided c.points c'.points) ds qs ∧ List.Forall₂ (fun c c' : Contour ℝ => Retraced c.points c'.points) cs' qs := by
    intro cs cs' ds ha hb
    induction ha generalizing ds with
    | nil => cases hb; exact ⟨[], .nil, .nil⟩
    | cons ha _ ih =>
      cases hb with
      | cons hb hbs =>
        obtain ⟨qs, k1, k2⟩ := ih hbs
        obtain ⟨ps, k3, k4⟩ := subdivided_retraced ha hb
        exact ⟨{ (Contour.new : Contour ℝ) with points := ps } :: qs, .cons k4 k1, .cons k3 k2⟩
  obtain ⟨qs, k1, k2⟩ := key h3 h2
  exact ⟨⟨qs⟩, k1, cs', h4, k2⟩

theorem EdgesAlike.allEdges (h : EdgesAlike id polys polys') : ∃ l, l.Perm (allEdges polys) ∧ List.Forall₂ (fun e e' => e' = e ∨ e' = e.swap) l (allEdges polys') := by
  refine flatMap_forall₂ (R := fun p p' : Polygon ℝ × PolygonMode => SameEdges p.1 p'.1) (f := fun p : Polygon ℝ × PolygonMode => p.1.edges)
    (g := fun p : Polygon ℝ × PolygonMode => p.1.edges) (fun a b h => h) (List.forall₂_iff_get.2 ⟨h.len.symm, fun i h1 h2 => ?_⟩)
  exact (h.same i _ _ (List.getElem?_eq_getElem h1) (List.getElem?_eq_getElem h2)).2

/-- Where outlines cross, redrawing them does not change how they are cut. -/
theorem Redrawn.crossed (h : Redrawn polys polys₂) (hC : Crossed polys polys') : ∃ polys₂', Crossed polys₂ polys₂' ∧ Redrawn polys' polys₂' := by
  have hex : ∀ {a b c : List (Polygon ℝ × PolygonMode)}, List.Forall₂ (fun p p' => p'.2 = p.2 ∧ List.Forall₂ (fun c c' => Subdivided c.points c'.points) p.1.contours p'.1.contours) a b →
      Redrawn a c → ∃ d, List.Forall₂ (fun p p' => p'.2 = p.2 ∧ List.Forall₂ (fun c c' => Subdivided c.points c'.points) p.1.contours p'.1.contours) c d ∧ Redrawn b d := by
    intro a b c ha hb
    induction ha generalizing c with
    | nil => cases hb; exact ⟨[], .nil, .nil⟩
    | cons ha _ ih =>
      cases hb with
      | cons hb hbs =>
        obtain ⟨qs, k1, k2⟩ := ih hbs
        obtain ⟨q, k3, k4⟩ := redrawn_pieces ha.2 hb.2
        exact ⟨(q, _) :: qs, .cons ⟨rfl, k3⟩ k1, .cons ⟨hb.1.trans ha.1.symm, k4⟩ k2⟩
  obtain ⟨q, h1, h2⟩ := hex hC.refined h
  have hA := h.alike
  obtain ⟨l, hl1, hl2⟩ := hA.allEdges
  refine ⟨q, ⟨h1, h2.alike.planar hC.planar fun x hx => h2.corners.mem_iff.1 hx, ?_⟩, h2⟩
  intro e' he' x hx ho hn
  obtain ⟨e, he, hh⟩ := forall₂_right hl2 he'
  have on : ∀ {a b : Pt ℝ × Pt ℝ}, (b = a ∨ b = a.swap) → (OnSegment b x ↔ OnSegment a x) := by
    rintro a b (rfl | rfl)
    · rfl
    · exact ⟨fun h => by simpa using on_swap h, on_swap⟩
  have ends : ∀ {a b : Pt ℝ × Pt ℝ} {x : Pt ℝ}, (b = a ∨ b = a.swap) → (EndOf b x ↔ EndOf a x) := by
    rintro a b x (rfl | rfl)
    · rfl
    · exact or_comm
  have par : ∀ {a b a' b' : Pt ℝ × Pt ℝ}, (a' = a ∨ a' = a.swap) → (b' = b ∨ b' = b.swap) → (ParallelEdges a' b' ↔ ParallelEdges a b) := by
    intro a b a' b' ha hb
    unfold ParallelEdges
    rcases ha with rfl | rfl <;> rcases hb with rfl | rfl <;> (try simp only [Prod.fst_swap, Prod.snd_swap]) <;> constructor <;> intro hp <;>
      first | linear_combination hp | linear_combination -hp
  obtain ⟨k1, k0⟩ := hC.met e (hl1.mem_iff.1 he) x (h2.corners.mem_iff.1 hx) ((on hh).1 ho) fun k => hn ((ends hh).2 k)
  constructor
  · classical
    rw [← k1]
    rw [← List.countP_eq_length_filter, ← List.countP_eq_length_filter, ← hl1.countP_eq]
    clear hl1 he
    generalize Idc.allEdges polys₂ = l' at hl2
    induction hl2 with
    | nil => rfl
    | @cons a b l l' hab _ ih =>
      rw [List.countP_cons, List.countP_cons, ih]
      congr 1
      have : (OnSegment b x ∧ ¬ EndOf b x ∧ ParallelEdges e' b) ↔ (OnSegment a x ∧ ¬ EndOf a x ∧ ParallelEdges e a) := by
        rw [on hab, ends hab, par hh hab]
      simp only [this]
  · rcases k0 with ⟨f, hf, k2, k3, a, k4, k5⟩ | ⟨r, k2, k3, f, hf, k4, a, k5, k6, k7⟩
    · obtain ⟨f', hf', hff⟩ := forall₂_left hl2 (hl1.mem_iff.2 hf)
      exact Or.inl ⟨f', hf', (on hff).2 k2, k3.imp (ends hff).2 fun k k' => k ((par hh hff).1 k'), a, (ends hff).2 k4, k5⟩
    · obtain ⟨f', hf', hff⟩ := forall₂_left hl2 (hl1.mem_iff.2 hf)
      exact Or.inr ⟨r, (ends hh).2 k2, k3, f', hf', (ends hff).2 k4, a, (ends hff).2 k5, k6, k7⟩

/-- **C86, where outlines cross.** Also there, the result does not depend on where the outlines begin, in which directions they go and in which
order they are given; nor on the operation asked for or on how the containers work. -/
theorem C86_crossed (hl : lib.Lawful) (hs : lib.SearchHonest) (hl' : lib'.Lawful) (hs' : lib'.SearchHonest) (hC : Crossed polys polys') (hR : Removable polys')
    (h : Redrawn polys polys₂) (op op' : BooleanOpType) {fuel fuel' : ℕ} (hf : 5 * (allCorners polys').length < fuel) (hf' : 5 * (allCorners polys').length < fuel') :
    compute lib' fuel' polys₂ op' = compute lib fuel polys op := by
  obtain ⟨q, h1, h2⟩ := h.crossed hC
  rw [C84_same_run hl hs hC op hf, C84_same_run hl' hs' h1 op' (by rw [h2.corners.length_eq]; exact hf')]
  exact C86_redrawn hl hl' hC.planar hR h2 op op' (by omega) (by omega)

end Idc
