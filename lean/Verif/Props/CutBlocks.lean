import Verif.Props.CutEdges
/-!
# The plan of polygons with corners added at the crossings, for C84
-/

namespace Idc

open Plan

/-! ### Lists of lists -/

/-- In which of the lists the element number `k` is, and where. -/
def blockOf {α : Type} : List (List α) → ℕ → ℕ × ℕ
  | [], k => (0, k)
  | b :: bs, k => if k < b.length then (0, k) else ((blockOf bs (k - b.length)).1 + 1, (blockOf bs (k - b.length)).2)

theorem blockOf_get {α : Type} : ∀ {bs : List (List α)} {k : ℕ} {x : α}, bs.flatten[k]? = some x → ∃ b, bs[(blockOf bs k).1]? = some b ∧ b[(blockOf bs k).2]? = some x
  | [], k, x, h => by simp at h
  | b :: bs, k, x, h => by
    rw [List.flatten_cons] at h
    unfold blockOf
    split
    · rename_i hk
      rw [List.getElem?_append_left hk] at h
      exact ⟨b, rfl, h⟩
    · rename_i hk
      rw [List.getElem?_append_right (by omega)] at h
      obtain ⟨c, h1, h2⟩ := blockOf_get h
      exact ⟨c, h1, h2⟩

theorem exists_blockOf {α : Type} : ∀ {bs : List (List α)} {i j : ℕ} {b : List α} {x : α}, bs[i]? = some b → b[j]? = some x →
    ∃ k, bs.flatten[k]? = some x ∧ blockOf bs k = (i, j)
  | [], i, j, b, x, h, _ => by simp at h
  | c :: bs, 0, j, b, x, h, h' => by
    simp only [List.getElem?_cons_zero, Option.some.injEq] at h
    subst h
    have hj := (List.getElem?_eq_some_iff.1 h').1
    refine ⟨j, ?_, ?_⟩
    · rw [List.flatten_cons, List.getElem?_append_left hj]
      exact h'
    · unfold blockOf
      rw [if_pos hj]
  | c :: bs, i + 1, j, b, x, h, h' => by
    rw [List.getElem?_cons_succ] at h
    obtain ⟨k, h1, h2⟩ := exists_blockOf h h'
    refine ⟨c.length + k, ?_, ?_⟩
    · rw [List.flatten_cons, List.getElem?_append_right (by omega), Nat.add_sub_cancel_left]
      exact h1
    · unfold blockOf
      rw [if_neg (by omega), Nat.add_sub_cancel_left, h2]

theorem filter_one {α : Type} {p : α → Bool} : ∀ {l : List α}, (l.filter p).length = 1 → ∀ {i j : ℕ} {x y : α}, l[i]? = some x → l[j]? = some y →
    p x = true → p y = true → i = j := by
  have none : ∀ {l : List α}, (l.filter p).length = 0 → ∀ (k : ℕ) z, l[k]? = some z → p z = true → False := by
    intro l h k z hz hp
    rw [List.length_eq_zero_iff, List.filter_eq_nil_iff] at h
    exact h z (List.mem_of_getElem? hz) hp
  intro l
  induction l with
  | nil => intro h; simp at h
  | cons a l ih =>
    intro h i j x y hx hy px py
    rw [List.filter_cons] at h
    by_cases ha : p a = true
    · rw [if_pos ha, List.length_cons, Nat.add_eq_right] at h
      cases i with
      | succ i => exact (none h i x hx px).elim
      | zero =>
        cases j with
        | zero => rfl
        | succ j => exact (none h j y hy py).elim
    · rw [if_neg ha] at h
      cases i with
      | zero => simp only [List.getElem?_cons_zero, Option.some.injEq] at hx; rw [hx] at ha; exact absurd px ha
      | succ i =>
        cases j with
        | zero => simp only [List.getElem?_cons_zero, Option.some.injEq] at hy; rw [hy] at ha; exact absurd py ha
        | succ j => rw [ih h hx hy px py]

theorem forall2_get {α β : Type} {r : α → β → Prop} : ∀ {l : List α} {l' : List β}, List.Forall₂ r l l' → ∀ {i : ℕ} {x : α}, l[i]? = some x → ∃ y, l'[i]? = some y ∧ r x y
  | _, _, .nil, i, x, h => by simp at h
  | _, _, .cons (a := a) (b := b) h hs, 0, x, hx => by
    simp only [List.getElem?_cons_zero, Option.some.injEq] at hx
    subst hx
    exact ⟨b, rfl, h⟩
  | _, _, .cons h hs, i + 1, x, hx => forall2_get hs (i := i) hx

theorem forall2_get' {α β : Type} {r : α → β → Prop} : ∀ {l : List α} {l' : List β}, List.Forall₂ r l l' → ∀ {i : ℕ} {y : β}, l'[i]? = some y → ∃ x, l[i]? = some x ∧ r x y
  | _, _, .nil, i, x, h => by simp at h
  | _, _, .cons (a := a) (b := b) h hs, 0, x, hx => by
    simp only [List.getElem?_cons_zero, Option.some.injEq] at hx
    subst hx
    exact ⟨a, rfl, h⟩
  | _, _, .cons h hs, i + 1, x, hx => forall2_get' hs (i := i) hx

/-! ### The blocks -/

theorem edges_blocks : ∀ {cs cs' : List (Contour ℝ)}, List.Forall₂ (fun c c' => Subdivided c.points c'.points) cs cs' →
    ∃ ds, List.Forall₂ (fun e d => Pieces e.1 e.2 d) (cs.flatMap fun c => closedEdges c.points) ds ∧ (cs'.flatMap fun c => closedEdges c.points) = ds.flatten
  | _, _, .nil => ⟨[], .nil, rfl⟩
  | _, _, .cons (a := c) (b := c') ⟨d, hd, e⟩ hs => by
    obtain ⟨ds, h1, h2⟩ := edges_blocks hs
    refine ⟨d ++ ds, ?_, ?_⟩
    · rw [List.flatMap_cons]
      exact List.rel_append hd h1
    · rw [List.flatMap_cons, e, h2, List.flatten_append]

open Classical in
theorem proper_blocks (i : ℕ) : ∀ {es : List (Pt ℝ × Pt ℝ)} {ds : List (List (Pt ℝ × Pt ℝ))}, List.Forall₂ (fun e d => Pieces e.1 e.2 d) es ds →
    ∃ bs, List.Forall₂ (fun (t : ℕ × (Pt ℝ × Pt ℝ)) (b : List (ℕ × (Pt ℝ × Pt ℝ))) => Pieces t.2.1 t.2.2 (b.map Prod.snd) ∧ ∀ u ∈ b, u.1 = t.1)
      ((es.filter fun e => e.1 ≠ e.2).map fun e => (i, e)) bs ∧ ((ds.flatten.filter fun e => e.1 ≠ e.2).map fun e => (i, e)) = bs.flatten
  | _, _, .nil => ⟨[], .nil, rfl⟩
  | _, _, .cons (a := e) (b := d) (l₁ := es) (l₂ := ds) h hs => by
    obtain ⟨bs, h1, h2⟩ := proper_blocks i hs
    by_cases he : e.1 = e.2
    · refine ⟨bs, ?_, ?_⟩
      · rw [List.filter_cons_of_neg (by simpa using he)]
        exact h1
      · rw [he] at h
        rw [List.flatten_cons, List.filter_append, h.improper, List.filter_cons_of_neg (by simp), ← h2]
        rfl
    · refine ⟨(d.map fun e => (i, e)) :: bs, ?_, ?_⟩
      · rw [List.filter_cons_of_pos (by simpa using he), List.map_cons]
        refine .cons ⟨?_, ?_⟩ h1
        · rw [List.map_map]
          have : (Prod.snd ∘ fun e : Pt ℝ × Pt ℝ => (i, e)) = id := rfl
          rw [this, List.map_id]
          exact h
        · intro u hu
          obtain ⟨e', _, rfl⟩ := List.mem_map.1 hu
          rfl
      · rw [List.flatten_cons, List.filter_append, List.map_append, List.flatten_cons, ← h2]
        congr 1
        congr 1
        rw [List.filter_eq_self]
        intro d' hd'
        simpa using h.proper he d' hd'

theorem listed_blocks : ∀ {polys polys' : List (Polygon ℝ × PolygonMode)} (i : ℕ),
    List.Forall₂ (fun p p' => p'.2 = p.2 ∧ List.Forall₂ (fun c c' => Subdivided c.points c'.points) p.1.contours p'.1.contours) polys polys' →
    ∃ bs, List.Forall₂ (fun (t : ℕ × (Pt ℝ × Pt ℝ)) (b : List (ℕ × (Pt ℝ × Pt ℝ))) => Pieces t.2.1 t.2.2 (b.map Prod.snd) ∧ ∀ u ∈ b, u.1 = t.1) (listed i polys) bs ∧
      listed i polys' = bs.flatten
  | _, _, i, .nil => ⟨[], .nil, rfl⟩
  | _, _, i, .cons (a := p) (b := p') ⟨_, h⟩ hs => by
    classical
    obtain ⟨ds, h1, h2⟩ := edges_blocks h
    obtain ⟨b1, h3, h4⟩ := proper_blocks i h1
    obtain ⟨b2, h5, h6⟩ := listed_blocks (i + 1) hs
    refine ⟨b1 ++ b2, ?_, ?_⟩
    · rw [listed]
      exact List.rel_append h3 h5
    · rw [listed, List.flatten_append, ← h6, ← h4, ← h2]
      rfl

theorem listed_edges : ∀ (i : ℕ) (polys : List (Polygon ℝ × PolygonMode)), open Classical in (listed i polys).map Prod.snd = (allEdges polys).filter fun e => e.1 ≠ e.2
  | i, [] => rfl
  | i, p :: rest => by
    classical
    have ih := listed_edges (i + 1) rest
    unfold allEdges at ih ⊢
    rw [listed, List.map_append, ih, List.flatMap_cons, List.filter_append, List.map_map]
    congr 1
    have : (Prod.snd ∘ fun e : Pt ℝ × Pt ℝ => (i, e)) = id := rfl
    rw [this, List.map_id]

/-! ### The plan -/

theorem parallel_right {e e' : Pt ℝ × Pt ℝ} : ParallelEdges (toRight e) (toRight e') ↔ ParallelEdges e e' := by
  unfold ParallelEdges
  rcases toRight_or e with h | h <;> rcases toRight_or e' with h' | h' <;> rw [h, h'] <;> simp only [Prod.fst_swap, Prod.snd_swap] <;>
    constructor <;> intro k <;> linarith

theorem ParallelEdges.symm {e e' : Pt ℝ × Pt ℝ} (h : ParallelEdges e e') : ParallelEdges e' e := by
  unfold ParallelEdges at *
  linarith

theorem on_right {e : Pt ℝ × Pt ℝ} {q : Pt ℝ} : OnSegment (toRight e) q ↔ OnSegment e q := by
  rcases toRight_or e with h | h <;> rw [h]
  exact onSegment_swap e q

theorem end_right {e : Pt ℝ × Pt ℝ} {q : Pt ℝ} : EndOf (toRight e) q ↔ EndOf e q := by
  rcases toRight_or e with h | h <;> rw [h]
  unfold EndOf
  exact or_comm

/-- The blocks of the pieces. -/
structure Blocks (polys polys' : List (Polygon ℝ × PolygonMode)) (bs : List (List (ℕ × (Pt ℝ × Pt ℝ)))) : Prop where
  rel : List.Forall₂ (fun (t : ℕ × (Pt ℝ × Pt ℝ)) (b : List (ℕ × (Pt ℝ × Pt ℝ))) => Pieces t.2.1 t.2.2 (b.map Prod.snd) ∧ ∀ u ∈ b, u.1 = t.1) (listed 0 polys) bs
  flat : listed 0 polys' = bs.flatten

namespace Blocks

variable {polys polys' : List (Polygon ℝ × PolygonMode)} {bs : List (List (ℕ × (Pt ℝ × Pt ℝ)))} (h : Blocks polys polys' bs)

include h

/-- What is known of a piece. -/
theorem get {k : ℕ} (hk : k < (listed 0 polys').length) : ∃ b, (blockOf bs k).1 < (listed 0 polys).length ∧ bs[(blockOf bs k).1]? = some b ∧ nth polys' k ∈ b ∧
    Pieces (nth polys (blockOf bs k).1).2.1 (nth polys (blockOf bs k).1).2.2 (b.map Prod.snd) ∧ ∀ u ∈ b, u.1 = (nth polys (blockOf bs k).1).1 := by
  have h1 := nth_get hk
  rw [h.flat] at h1
  obtain ⟨b, h2, h3⟩ := blockOf_get h1
  obtain ⟨t, h4, h5⟩ := forall2_get' h.rel h2
  have hlt := (List.getElem?_eq_some_iff.1 h4).1
  rw [nth_get hlt] at h4
  cases h4
  exact ⟨b, hlt, h2, List.mem_of_getElem? h3, h5⟩

/-- Every element of a block is a piece. -/
theorem piece {o : ℕ} {b : List (ℕ × (Pt ℝ × Pt ℝ))} (hb : bs[o]? = some b) {d : Pt ℝ × Pt ℝ} (hd : d ∈ b.map Prod.snd) :
    ∃ k < (listed 0 polys').length, (blockOf bs k).1 = o ∧ (nth polys' k).2 = d := by
  obtain ⟨u, hu, rfl⟩ := List.mem_map.1 hd
  obtain ⟨j, hj⟩ := List.getElem?_of_mem hu
  obtain ⟨k, h1, h2⟩ := exists_blockOf hb hj
  rw [← h.flat] at h1
  have hk := (List.getElem?_eq_some_iff.1 h1).1
  rw [nth_get hk] at h1
  cases h1
  exact ⟨k, hk, by rw [h2], rfl⟩

theorem nonempty {o : ℕ} (ho : o < (listed 0 polys).length) : ∃ k < (listed 0 polys').length, (blockOf bs k).1 = o := by
  obtain ⟨b, h1, h2, _⟩ := forall2_get h.rel (nth_get ho)
  obtain ⟨d, hd, _⟩ := h2.first
  obtain ⟨k, h3, h4, _⟩ := h.piece h1 hd
  exact ⟨k, h3, h4⟩

theorem made (hC : Crossed polys polys') (hP : Planar polys') :
    Made (ofPolys polys' hP) (fun k => (blockOf bs k).1) (fun o => (toRight (nth polys o).2).1) (fun o => (toRight (nth polys o).2).2) := by
  have hS : ∀ {k : ℕ}, k ∈ (ofPolys polys' hP).S ↔ k < (listed 0 polys').length := Finset.mem_range
  have hor : ∀ {k : ℕ}, k ∈ (ofPolys polys' hP).S → ∃ b, bs[(blockOf bs k).1]? = some b ∧ (nth polys' k).2 ∈ b.map Prod.snd ∧
      Oriented (toRight (nth polys (blockOf bs k).1).2).1 (toRight (nth polys (blockOf bs k).1).2).2 (b.map Prod.snd) := by
    intro k hk
    obtain ⟨b, h1, h2, h3, h4, h5⟩ := h.get (hS.1 hk)
    exact ⟨b, h2, List.mem_map_of_mem h3, h4.oriented (listed_drawn (nth_mem h1)).1⟩
  have hedge : ∀ {k : ℕ}, k ∈ (ofPolys polys' hP).S → (blockOf bs k).1 < (listed 0 polys).length := by
    intro k hk
    obtain ⟨b, h1, _⟩ := h.get (hS.1 hk)
    exact h1
  have hon : ∀ k ∈ (ofPolys polys' hP).S, OnSegment (toRight (nth polys (blockOf bs k).1).2) ((ofPolys polys' hP).lp k) ∧
      OnSegment (toRight (nth polys (blockOf bs k).1).2) ((ofPolys polys' hP).rp k) := by
    intro k hk
    obtain ⟨b, h1, h2, h3⟩ := hor hk
    exact h3.on _ h2
  have hwf : ∀ k ∈ (ofPolys polys' hP).S, LeftOf (toRight (nth polys (blockOf bs k).1).2).1 (toRight (nth polys (blockOf bs k).1).2).2 :=
    fun k hk => toRight_left (listed_drawn (nth_mem (hedge hk))).1
  have hnend : ∀ {i : ℕ}, i ∈ (ofPolys polys' hP).S → (ofPolys polys' hP).rp i ≠ (toRight (nth polys (blockOf bs i).1).2).2 →
      ¬ EndOf (nth polys (blockOf bs i).1).2 ((ofPolys polys' hP).rp i) := by
    intro i hi hR
    rw [← end_right]
    rintro (e | e)
    · obtain ⟨u, u0, _, ux, uy⟩ := (hon i hi).1
      have hw := (ofPolys polys' hP).wf i hi
      rw [e] at hw
      rcases hwf i hi with g | ⟨g, g'⟩
      · have := mul_nonneg u0 (sub_pos.2 g).le
        rcases hw with k | ⟨k, k'⟩
        · linarith
        · have hu : u = 0 := by
            have : u * ((toRight (nth polys (blockOf bs i).1).2).2.x - (toRight (nth polys (blockOf bs i).1).2).1.x) = 0 := by linarith
            rcases mul_eq_zero.1 this with h | h
            · exact h
            · linarith
          rw [hu, zero_mul, add_zero] at uy
          linarith
      · have := mul_nonneg u0 (sub_pos.2 g').le
        rw [g, sub_self, mul_zero, add_zero] at ux
        rcases hw with k | ⟨k, k'⟩ <;> linarith
    · exact hR e
  have hmet : ∀ {i : ℕ}, i ∈ (ofPolys polys' hP).S → (ofPolys polys' hP).rp i ≠ (toRight (nth polys (blockOf bs i).1).2).2 →
      Met polys (nth polys (blockOf bs i).1).2 ((ofPolys polys' hP).rp i) := by
    intro i hi hR
    refine hC.met _ ?_ _ (drawn_corner (drawn_toRight (nth_mem (hS.1 hi)))).2 (on_right.1 (hon i hi).2) (hnend hi hR)
    · have h1 : (nth polys (blockOf bs i).1).2 ∈ (listed 0 polys).map Prod.snd := List.mem_map_of_mem (nth_mem (hedge hi))
      rw [listed_edges, List.mem_filter] at h1
      exact h1.1
  refine ⟨hwf, ?_, hon, ?_, ?_, ?_, ?_, ?_, ?_, ?_⟩
  · intro i hi j hj e
    obtain ⟨b, _, h2, h3, _, h4⟩ := h.get (hS.1 hi)
    obtain ⟨b', _, h2', h3', _, h4'⟩ := h.get (hS.1 hj)
    show (nth polys' i).1 = (nth polys' j).1
    have e : (blockOf bs i).1 = (blockOf bs j).1 := e
    rw [h4 _ h3, h4' _ h3', e]
  · intro k hk
    obtain ⟨b, h1, h2, h3⟩ := hor hk
    obtain ⟨d, hd, e⟩ := h3.first
    obtain ⟨m, hm, h4, rfl⟩ := h.piece h1 hd
    exact ⟨m, hS.2 hm, h4, e⟩
  · intro k hk
    obtain ⟨b, h1, h2, h3⟩ := hor hk
    obtain ⟨d, hd, e⟩ := h3.last
    obtain ⟨m, hm, h4, rfl⟩ := h.piece h1 hd
    exact ⟨m, hS.2 hm, h4, e⟩
  · intro k hk
    obtain ⟨b, h1, h2, h3⟩ := hor hk
    rcases h3.succ _ h2 with e | ⟨d, hd, e⟩
    · exact Or.inl e
    · obtain ⟨m, hm, h4, rfl⟩ := h.piece h1 hd
      exact Or.inr ⟨m, hS.2 hm, h4, e⟩
  · intro k hk
    obtain ⟨b, h1, h2, h3⟩ := hor hk
    rcases h3.pred _ h2 with e | ⟨d, hd, e⟩
    · exact Or.inl e
    · obtain ⟨m, hm, h4, rfl⟩ := h.piece h1 hd
      exact Or.inr ⟨m, hS.2 hm, h4, e⟩
  · intro k hk q hq
    obtain ⟨b, h1, h2, h3⟩ := hor hk
    obtain ⟨d, hd, e⟩ := h3.cover q hq
    obtain ⟨m, hm, h4, rfl⟩ := h.piece h1 hd
    exact ⟨m, hS.2 hm, h4, e⟩
  · intro i hi hR
    have find : ∀ {e : Pt ℝ × Pt ℝ}, e ∈ allEdges polys → e.1 ≠ e.2 → ∃ k ∈ (ofPolys polys' hP).S, (nth polys (blockOf bs k).1).2 = e := by
      intro e he hd
      have h1 : e ∈ (listed 0 polys).map Prod.snd := by
        rw [listed_edges, List.mem_filter]
        exact ⟨he, by simpa using hd⟩
      obtain ⟨o, ho⟩ := List.getElem?_of_mem h1
      have hlt := (List.getElem?_eq_some_iff.1 ho).1
      rw [List.length_map] at hlt
      rw [List.getElem?_map, nth_get hlt] at ho
      have ho : (nth polys o).2 = e := Option.some.inj ho
      obtain ⟨k, hk, hko⟩ := h.nonempty hlt
      exact ⟨k, hS.2 hk, by rw [hko]; exact ho⟩
    have hnend := hnend hi hR
    rcases (hmet hi hR).2 with ⟨e, he, hq, hp, a, ha, hl⟩ | ⟨r, hr, hqr, e, he, hq, a, ha, hl, hc⟩
    · left
      have hd : e.1 ≠ e.2 := by
        intro hd
        have h1 : (ofPolys polys' hP).rp i = e.1 := by
          obtain ⟨u, _, _, ux, uy⟩ := hq
          rw [← hd, sub_self, mul_zero, add_zero] at ux uy
          exact pt_ext ux uy
        have h2 : a = e.1 := by
          rcases ha with g | g
          · exact g
          · rw [g, hd]
        rw [h1, h2] at hl
        exact leftOf_asymm hl hl
      obtain ⟨k, hk, ho⟩ := find he hd
      refine ⟨k, hk, ?_, ?_, ?_⟩
      · intro e'
        have e' : (blockOf bs k).1 = (blockOf bs i).1 := e'
        rw [e'] at ho
        rcases hp with hp | hp
        · rw [← ho] at hp
          exact hnend hp
        · rw [ho] at hp
          exact hp (by unfold ParallelEdges; ring)
      · exact on_right.2 (by rw [ho]; exact hq)
      · intro e'
        have h2 := toRight_left (e := (nth polys (blockOf bs k).1).2) (by rw [ho]; exact hd)
        rw [← ho, ← end_right] at ha
        rw [e'] at hl
        rcases ha with g | g <;> rw [g] at hl
        · exact leftOf_asymm hl hl
        · exact leftOf_asymm h2 hl
    · right
      have hd : e.1 ≠ e.2 := by
        intro hd
        have h2 : a = (ofPolys polys' hP).rp i := by
          unfold EndOf at ha hq
          rw [hd, or_self] at ha hq
          rw [ha, hq]
        rw [h2] at hl
        exact leftOf_asymm hl hl
      obtain ⟨k, hk, ho⟩ := find he hd
      have hR' : ∀ {j : ℕ} {r : Pt ℝ}, j ∈ (ofPolys polys' hP).S → EndOf (nth polys (blockOf bs j).1).2 r → ∀ {q : Pt ℝ}, OnSegment (nth polys (blockOf bs j).1).2 q → LeftOf q r →
          r = (toRight (nth polys (blockOf bs j).1).2).2 := by
        intro j r hj hr q hq hqr
        rw [← end_right] at hr
        rcases hr with g | g
        · exfalso
          rw [← on_right] at hq
          have hw := hwf j hj
          obtain ⟨u, u0, _, ux, uy⟩ := hq
          rw [g] at hqr
          rcases hw with w | ⟨w, w'⟩
          · have := mul_nonneg u0 (sub_pos.2 w).le
            rcases hqr with k | ⟨k, k'⟩
            · linarith
            · have hu : u = 0 := by
                have : u * ((toRight (nth polys (blockOf bs j).1).2).2.x - (toRight (nth polys (blockOf bs j).1).2).1.x) = 0 := by linarith
                rcases mul_eq_zero.1 this with h | h
                · exact h
                · linarith
              rw [hu, zero_mul, add_zero] at uy
              linarith
          · have := mul_nonneg u0 (sub_pos.2 w').le
            rw [w, sub_self, mul_zero, add_zero] at ux
            rcases hqr with k | ⟨k, k'⟩ <;> linarith
        · exact g
      have hr' := hR' hi hr (on_right.1 (hon i hi).2) hqr
      have ha' := hR' hk (by rw [ho]; exact ha) (by rw [ho]; rcases hq with g | g <;> rw [g]; exacts [Net.onSegment_left e, Net.onSegment_right e]) hl
      refine ⟨k, hk, ?_, ?_, ?_⟩
      · intro e'
        have e' : (blockOf bs k).1 = (blockOf bs i).1 := e'
        rw [e'] at ho
        rw [← ho] at hq
        exact hnend hq
      · rw [← ho, ← end_right] at hq
        rcases hq with g | g
        · exact g.symm
        · rw [ha', ← g] at hl
          exact absurd hl fun hl => leftOf_asymm hl hl
      · rw [← hr', ← ha']
        exact hc
  · intro i hi hR m hm hq hnq hp
    obtain ⟨hf, _⟩ := hmet hi hR
    classical
    have hf2 : (((listed 0 polys).map Prod.snd).filter fun e' => OnSegment e' ((ofPolys polys' hP).rp i) ∧ ¬ EndOf e' ((ofPolys polys' hP).rp i) ∧
        ParallelEdges (nth polys (blockOf bs i).1).2 e').length = 1 := by
      rw [← hf, listed_edges, List.filter_filter]
      congr 1
      refine List.filter_congr fun d hd => ?_
      rw [← Bool.decide_and, decide_eq_decide]
      refine ⟨fun h => h.1, fun h => ⟨h, fun e => h.2.1 ?_⟩⟩
      obtain ⟨u, _, _, ux, uy⟩ := h.1
      rw [← e, sub_self, mul_zero, add_zero] at ux uy
      exact Or.inl (pt_ext ux uy)
    refine filter_one hf2 (by rw [List.getElem?_map, nth_get (hedge hm)]; rfl) (by rw [List.getElem?_map, nth_get (hedge hi)]; rfl) ?_ ?_
    · exact decide_eq_true ⟨on_right.1 hq, fun h => hnq (end_right.2 h), parallel_right.1 hp⟩
    · exact decide_eq_true ⟨on_right.1 (hon i hi).2, hnend hi hR, by unfold ParallelEdges; ring⟩

end Blocks

end Idc
