import Verif.Props.TidyOrbit
/-!
# The corners and edges of a list of outlines, numbered, for C76
-/

namespace Idc

/-- Outlines with the numbers of the polygons they belong to. -/
abbrev Rings := List (Nat × List (Pt ℝ))

namespace Rings

/-- All corners. -/
def corners (L : Rings) : List (Pt ℝ) := L.flatMap fun r => r.2

/-- How many corners, and edges. -/
def size (L : Rings) : Nat := L.corners.length

theorem size_nil : size [] = 0 := rfl
theorem size_cons (r : Nat × List (Pt ℝ)) (L : Rings) : size (r :: L) = r.2.length + size L := by
  unfold size corners
  rw [List.flatMap_cons, List.length_append]

theorem size_append (L L' : Rings) : size (L ++ L') = size L + size L' := by
  unfold size corners
  rw [List.flatMap_append, List.length_append]

/-- The next corner. -/
def succ : Rings → Nat → Nat
  | [], i => i
  | r :: L, i => if i < r.2.length then (i + 1) % r.2.length else r.2.length + succ L (i - r.2.length)

/-- The corner before. -/
def pred : Rings → Nat → Nat
  | [], i => i
  | r :: L, i => if i < r.2.length then (i + (r.2.length - 1)) % r.2.length else r.2.length + pred L (i - r.2.length)

/-- The polygon. -/
def poly : Rings → Nat → Nat
  | [], _ => 0
  | r :: L, i => if i < r.2.length then r.1 else poly L (i - r.2.length)

/-- The corner. -/
noncomputable def corner (L : Rings) (i : Nat) : Pt ℝ := L.corners.getD i ⟨0, 0⟩

theorem corner_get {L : Rings} {i : Nat} (h : i < size L) : L.corners[i]? = some (corner L i) := by
  unfold corner
  rw [List.getD_eq_getElem?_getD, List.getElem?_eq_getElem h]
  rfl

theorem corner_mem {L : Rings} {i : Nat} (h : i < size L) : corner L i ∈ L.corners := List.mem_of_getElem? (corner_get h)

/-! ### One outline among others -/

theorem succ_append (L₁ L : Rings) (i : Nat) : succ (L₁ ++ L) (size L₁ + i) = size L₁ + succ L i := by
  induction L₁ generalizing i with
  | nil => simp [size_nil]
  | cons r L₁ ih =>
    rw [List.cons_append, succ, if_neg (by rw [size_cons]; omega), size_cons]
    rw [show r.2.length + size L₁ + i - r.2.length = size L₁ + i by omega, ih]
    omega

theorem pred_append (L₁ L : Rings) (i : Nat) : pred (L₁ ++ L) (size L₁ + i) = size L₁ + pred L i := by
  induction L₁ generalizing i with
  | nil => simp [size_nil]
  | cons r L₁ ih =>
    rw [List.cons_append, pred, if_neg (by rw [size_cons]; omega), size_cons]
    rw [show r.2.length + size L₁ + i - r.2.length = size L₁ + i by omega, ih]
    omega

theorem poly_append (L₁ L : Rings) (i : Nat) : poly (L₁ ++ L) (size L₁ + i) = poly L i := by
  induction L₁ generalizing i with
  | nil => simp [size_nil]
  | cons r L₁ ih =>
    rw [List.cons_append, poly, if_neg (by rw [size_cons]; omega), size_cons]
    rw [show r.2.length + size L₁ + i - r.2.length = size L₁ + i by omega, ih]

theorem corner_append (L₁ L : Rings) (i : Nat) : corner (L₁ ++ L) (size L₁ + i) = corner L i := by
  unfold corner corners
  rw [List.flatMap_append, List.getD_eq_getElem?_getD, List.getD_eq_getElem?_getD]
  rw [List.getElem?_append_right (by unfold size corners; omega)]
  congr 2
  unfold size corners
  omega

/-- Position `j` of an outline. -/
structure At (L : Rings) (i : Nat) (L₁ : Rings) (k : Nat) (ps : List (Pt ℝ)) (L₂ : Rings) (j : Nat) : Prop where
  list : L = L₁ ++ (k, ps) :: L₂
  index : i = size L₁ + j
  lt : j < ps.length

theorem exists_at : ∀ {L : Rings} {i : Nat}, i < size L → ∃ L₁ k ps L₂ j, At L i L₁ k ps L₂ j
  | [], i, h => by rw [size_nil] at h; omega
  | (k, ps) :: L, i, h => by
    rw [size_cons] at h
    by_cases hi : i < ps.length
    · exact ⟨[], k, ps, L, i, rfl, by rw [size_nil]; omega, hi⟩
    · obtain ⟨L₁, k', ps', L₂, j, e1, e2, e3⟩ := exists_at (L := L) (i := i - ps.length) (by dsimp only at h; omega)
      exact ⟨(k, ps) :: L₁, k', ps', L₂, j, by rw [e1]; rfl, by rw [size_cons]; dsimp only; omega, e3⟩

theorem At.size {L : Rings} {i : Nat} {L₁ : Rings} {k : Nat} {ps : List (Pt ℝ)} {L₂ : Rings} {j : Nat} (h : At L i L₁ k ps L₂ j) : i < Rings.size L := by
  rw [h.list, size_append, size_cons, h.index]
  have := h.lt
  dsimp only
  omega

theorem At.corner {L : Rings} {i : Nat} {L₁ : Rings} {k : Nat} {ps : List (Pt ℝ)} {L₂ : Rings} {j : Nat} (h : At L i L₁ k ps L₂ j) :
    ps[j]? = some (Rings.corner L i) := by
  rw [h.list, h.index, corner_append]
  unfold Rings.corner corners
  rw [List.flatMap_cons, List.getD_eq_getElem?_getD, List.getElem?_append_left h.lt, List.getElem?_eq_getElem h.lt]
  rfl

theorem At.poly {L : Rings} {i : Nat} {L₁ : Rings} {k : Nat} {ps : List (Pt ℝ)} {L₂ : Rings} {j : Nat} (h : At L i L₁ k ps L₂ j) : Rings.poly L i = k := by
  rw [h.list, h.index, poly_append, Rings.poly, if_pos h.lt]

theorem At.succ {L : Rings} {i : Nat} {L₁ : Rings} {k : Nat} {ps : List (Pt ℝ)} {L₂ : Rings} {j : Nat} (h : At L i L₁ k ps L₂ j) :
    At L (Rings.succ L i) L₁ k ps L₂ ((j + 1) % ps.length) := by
  have h0 := h.lt
  refine ⟨h.list, ?_, Nat.mod_lt _ (by omega)⟩
  rw [h.list, h.index, succ_append, Rings.succ, if_pos h.lt]

theorem At.pred {L : Rings} {i : Nat} {L₁ : Rings} {k : Nat} {ps : List (Pt ℝ)} {L₂ : Rings} {j : Nat} (h : At L i L₁ k ps L₂ j) :
    At L (Rings.pred L i) L₁ k ps L₂ ((j + (ps.length - 1)) % ps.length) := by
  have h0 := h.lt
  refine ⟨h.list, ?_, Nat.mod_lt _ (by omega)⟩
  rw [h.list, h.index, pred_append, Rings.pred, if_pos h.lt]

theorem At.inj {L : Rings} {i i' : Nat} {L₁ : Rings} {k : Nat} {ps : List (Pt ℝ)} {L₂ : Rings} {j : Nat} (h : At L i L₁ k ps L₂ j) (h' : At L i' L₁ k ps L₂ j) : i = i' := by
  rw [h.index, h'.index]

variable {L : Rings}

theorem succ_lt {i : Nat} (h : i < size L) : succ L i < size L := by
  obtain ⟨_, _, _, _, _, hat⟩ := exists_at h
  exact hat.succ.size

theorem pred_lt {i : Nat} (h : i < size L) : pred L i < size L := by
  obtain ⟨_, _, _, _, _, hat⟩ := exists_at h
  exact hat.pred.size

theorem poly_succ {i : Nat} (h : i < size L) : poly L (succ L i) = poly L i := by
  obtain ⟨_, _, _, _, _, hat⟩ := exists_at h
  rw [hat.succ.poly, hat.poly]

theorem poly_pred {i : Nat} (h : i < size L) : poly L (pred L i) = poly L i := by
  obtain ⟨_, _, _, _, _, hat⟩ := exists_at h
  rw [hat.pred.poly, hat.poly]

theorem succ_pred {i : Nat} (h : i < size L) : succ L (pred L i) = i := by
  obtain ⟨_, _, ps, _, j, hat⟩ := exists_at h
  have h1 := hat.pred.succ
  have hj := hat.lt
  have e : (((j + (ps.length - 1)) % ps.length) + 1) % ps.length = j := by
    rw [Nat.mod_add_mod, show j + (ps.length - 1) + 1 = j + ps.length by omega, Nat.add_mod_right, Nat.mod_eq_of_lt hj]
  rw [e] at h1
  exact h1.inj hat

theorem pred_succ {i : Nat} (h : i < size L) : pred L (succ L i) = i := by
  obtain ⟨_, _, ps, _, j, hat⟩ := exists_at h
  have h1 := hat.succ.pred
  have hj := hat.lt
  have e : (((j + 1) % ps.length) + (ps.length - 1)) % ps.length = j := by
    rw [Nat.mod_add_mod, show j + 1 + (ps.length - 1) = j + ps.length by omega, Nat.add_mod_right, Nat.mod_eq_of_lt hj]
  rw [e] at h1
  exact h1.inj hat

theorem succ_inj {i j : Nat} (hi : i < size L) (hj : j < size L) (h : succ L i = succ L j) : i = j := by
  rw [← pred_succ hi, h, pred_succ hj]

/-- Every outline has at least three corners, and no corner occurs twice. -/
structure Ok (L : Rings) : Prop where
  three : ∀ r ∈ L, 3 ≤ r.2.length
  nodup : L.corners.Nodup

theorem Ok.corner_inj (h : Ok L) {i j : Nat} (hi : i < size L) (hj : j < size L) (e : corner L i = corner L j) : i = j := by
  have h1 := corner_get hi
  have h2 := corner_get hj
  rw [← e, ← h1] at h2
  exact ((List.getElem?_inj hi h.nodup).1 h2.symm)

theorem Ok.succ_ne (h : Ok L) {i : Nat} (hi : i < size L) : succ L i ≠ i := by
  obtain ⟨L₁, k, ps, L₂, j, hat⟩ := exists_at hi
  have h3 : 3 ≤ ps.length := h.three (k, ps) (by rw [hat.list]; simp)
  intro e
  have h1 := hat.succ.index
  rw [e, hat.index] at h1
  have hj := hat.lt
  have : j = (j + 1) % ps.length := by omega
  rcases Nat.lt_or_ge (j + 1) ps.length with hlt | hge
  · rw [Nat.mod_eq_of_lt hlt] at this; omega
  · rw [show j + 1 = ps.length by omega, Nat.mod_self] at this; omega

theorem Ok.succ_succ_ne (h : Ok L) {i : Nat} (hi : i < size L) : succ L (succ L i) ≠ i := by
  obtain ⟨L₁, k, ps, L₂, j, hat⟩ := exists_at hi
  have h3 : 3 ≤ ps.length := h.three (k, ps) (by rw [hat.list]; simp)
  intro e
  have h1 := hat.succ.succ.index
  rw [e, hat.index, Nat.mod_add_mod] at h1
  have hj := hat.lt
  have : j = (j + 1 + 1) % ps.length := by omega
  rcases Nat.lt_or_ge (j + 1 + 1) ps.length with hlt | hge
  · rw [Nat.mod_eq_of_lt hlt] at this; omega
  · have e2 : j + 1 + 1 = (j + 2 - ps.length) + ps.length := by omega
    rw [e2, Nat.add_mod_right, Nat.mod_eq_of_lt (by omega)] at this
    omega

/-! ### Edges -/

/-- All edges. -/
def edges (L : Rings) : List (Pt ℝ × Pt ℝ) := L.flatMap fun r => closedEdges r.2

theorem closedEdges_get {ps : List (Pt ℝ)} {j : Nat} {a b : Pt ℝ} (ha : ps[j]? = some a) (hb : ps[(j + 1) % ps.length]? = some b) :
    (closedEdges ps)[j]? = some (a, b) := by
  unfold closedEdges
  rw [List.getElem?_zip_eq_some]
  refine ⟨ha, ?_⟩
  have hj := (List.getElem?_eq_some_iff.1 ha).1
  rw [List.getElem?_rotate hj]
  exact hb

theorem closedEdges_length (ps : List (Pt ℝ)) : (closedEdges ps).length = ps.length := by
  unfold closedEdges
  simp

theorem edges_length : ∀ L : Rings, (edges L).length = size L
  | [] => rfl
  | r :: L => by
    unfold edges at *
    rw [List.flatMap_cons, List.length_append, size_cons, closedEdges_length]
    congr 1
    exact edges_length L

theorem edges_append (L L' : Rings) : edges (L ++ L') = edges L ++ edges L' := List.flatMap_append

theorem edge_get {i : Nat} (h : i < size L) : (edges L)[i]? = some (corner L i, corner L (succ L i)) := by
  obtain ⟨L₁, k, ps, L₂, j, hat⟩ := exists_at h
  have e := hat.list
  have hc := closedEdges_get hat.corner hat.succ.corner
  have hlen := edges_length L₁
  have hi := hat.index
  have : (edges L)[i]? = (edges (L₁ ++ (k, ps) :: L₂))[i]? := by rw [← e]
  rw [this, edges_append, List.getElem?_append_right (by omega), hi, hlen]
  rw [show size L₁ + j - size L₁ = j by omega]
  unfold edges
  rw [List.flatMap_cons, List.getElem?_append_left (by rw [closedEdges_length]; exact hat.lt), ← hi]
  exact hc

theorem edge_mem {i : Nat} (h : i < size L) : (corner L i, corner L (succ L i)) ∈ edges L := List.mem_of_getElem? (edge_get h)

end Rings

end Idc
