import Verif.Props.TidyStep
import Verif.Props.TidyLib
import Verif.Props.Holes
import Verif.Spec.Checked
import Verif.Spec.Crossed
import Mathlib.Data.List.Perm.Subperm
/-!
# What a checked run says about other implementations of the containers, for C93
-/

namespace Idc

open FloatOps

variable {F : Type} [FloatOps F]

/-! ### Searches -/

theorem checkedSearch_sound {lib : Lib} (hl : lib.Lawful) {α : Type} {cmp : α → α → Res Ordering} {x : α} {l : List α} {r : Bool × Nat} (h : checkedSearch cmp x l = .ok r) :
    lib.binarySearch cmp x l = .ok r := by
  have key : ∀ (l : List α) (r : Bool × Nat), checkedSearch cmp x l = .ok r → ∃ l₁ l₂, (∀ y ∈ l₁, cmp y x = .ok .lt) ∧ (∀ y ∈ l₂, cmp y x = .ok .gt) ∧ r.2 = l₁.length ∧
      ((r.1 = false ∧ l = l₁ ++ l₂) ∨ ∃ y, r.1 = true ∧ cmp y x = .ok .eq ∧ l = l₁ ++ y :: l₂) := by
    intro l
    induction l with
    | nil => intro r h; cases h; exact ⟨[], [], by simp, by simp, rfl, .inl ⟨rfl, rfl⟩⟩
    | cons y l ih =>
      intro r h
      unfold checkedSearch at h
      obtain ⟨c, hc, h⟩ := Res.bind_eq_ok h
      cases c with
      | lt =>
        obtain ⟨⟨f, i⟩, h1, h2⟩ := Res.bind_eq_ok h
        cases h2
        obtain ⟨l₁, l₂, e1, e2, e3, e4⟩ := ih _ h1
        refine ⟨y :: l₁, l₂, ?_, e2, by simp only [List.length_cons] at e3 ⊢; omega, ?_⟩
        · intro z hz
          rcases List.mem_cons.1 hz with rfl | hz
          · exact hc
          · exact e1 z hz
        · rcases e4 with ⟨hf, rfl⟩ | ⟨z, hf, hz, rfl⟩
          · exact .inl ⟨hf, rfl⟩
          · exact .inr ⟨z, hf, hz, rfl⟩
      | eq =>
        dsimp only at h
        split at h
        · rename_i ha
          cases h
          simp only [List.all_eq_true, decide_eq_true_eq] at ha
          exact ⟨[], l, by simp, ha, rfl, .inr ⟨y, rfl, hc, rfl⟩⟩
        · cases h
      | gt =>
        dsimp only at h
        split at h
        · rename_i ha
          cases h
          simp only [List.all_eq_true, decide_eq_true_eq] at ha
          refine ⟨[], y :: l, by simp, ?_, rfl, .inl ⟨rfl, rfl⟩⟩
          intro z hz
          rcases List.mem_cons.1 hz with rfl | hz
          · exact hc
          · exact ha z hz
        · cases h
  obtain ⟨l₁, l₂, e1, e2, e3, e4⟩ := key l r h
  obtain ⟨b, i⟩ := r
  dsimp only at e3 e4
  subst e3
  rcases e4 with ⟨rfl, rfl⟩ | ⟨y, rfl, hy, rfl⟩
  · exact hl.search_missing cmp x l₁ l₂ e1 e2
  · exact hl.search_found cmp x y l₁ l₂ e1 hy e2

/-! ### Segments keep their place -/

/-- What the order of endpoints depends on. -/
def geo (s : BoolSegment F) : Pt F × Pt F × Nat := (s.left_point, s.right_point, s.order)

/-- The segments of `A` are still where they are, and there may be more. -/
def Ext (A B : Arena F) : Prop := A.map geo <+: B.map geo

theorem Ext.refl (A : Arena F) : Ext A A := List.prefix_rfl

theorem Ext.trans {A B C : Arena F} (h : Ext A B) (h' : Ext B C) : Ext A C := List.IsPrefix.trans h h'

theorem Ext.append (A B : Arena F) : Ext A (A ++ B) := by
  unfold Ext
  rw [List.map_append]
  exact List.prefix_append ..

theorem Ext.length {A B : Arena F} (h : Ext A B) : A.length ≤ B.length := by
  have := List.IsPrefix.length_le h
  simpa using this

theorem Ext.of_eq {A B : Arena F} (h : A.map geo = B.map geo) : Ext A B := by unfold Ext; rw [h]

theorem geo_redirect (A : Arena F) (i j : Nat) : (A.redirect i j).map geo = A.map geo := by
  unfold Arena.redirect
  rw [List.map_map]
  refine List.map_congr_left fun s _ => ?_
  simp only [Function.comp_apply]
  split <;> rfl

theorem geo_setPacket {A B : Arena F} {i : Nat} {p : SegmentPacket} (h : A.setPacket i p = .ok B) : B.map geo = A.map geo := by
  unfold Arena.setPacket at h
  obtain ⟨s, hs, h⟩ := Res.bind_eq_ok h
  cases h
  have hs := index_eq_ok hs
  rw [List.map_set]
  exact map_set_self hs
where
  map_set_self {A : Arena F} {i : Nat} {s : BoolSegment F} {p : SegmentPacket} (hs : A[i]? = some s) : (A.map geo).set i (geo { s with data := p }) = A.map geo := by
    apply List.ext_getElem?
    intro k
    rw [List.getElem?_set]
    split
    · rename_i h
      subst h
      have := List.getElem?_eq_some_iff.1 hs
      obtain ⟨hlt, _⟩ := this
      rw [if_pos (by simpa using hlt), List.getElem?_map, hs]
      rfl
    · rfl

theorem geo_facing {A B : Arena F} {i : Nat} {b : Option Nat} (h : updatePolygonFacing A i b = .ok B) : B.map geo = A.map geo := by
  unfold updatePolygonFacing at h
  obtain ⟨s, -, h⟩ := Res.bind_eq_ok h
  obtain ⟨c, -, h⟩ := Res.bind_eq_ok h
  obtain ⟨p, -, h⟩ := Res.bind_eq_ok h
  exact geo_setPacket h

theorem geo_upper {A B : Arena F} {i : Nat} {t : EdgeType} (h : setUpperType A i t = .ok B) : B.map geo = A.map geo := by
  unfold setUpperType at h
  obtain ⟨s, -, h⟩ := Res.bind_eq_ok h
  split at h
  · exact geo_setPacket h
  · cases h; rfl

theorem geo_handle {A B : Arena F} {a b : Option Nat} {r : Nat × Option (Pt F) × Option (Pt F)} (h : handleIntersections A a b = .ok (B, r)) : B.map geo = A.map geo := by
  unfold handleIntersections at h
  split at h
  · cases h; rfl
  · cases h; rfl
  · obtain ⟨s, -, h⟩ := Res.bind_eq_ok h
    obtain ⟨t, -, h⟩ := Res.bind_eq_ok h
    split at h
    · cases h; rfl
    · split at h
      · cases h; rfl
      · cases h; rfl
    · split at h
      · cases h
      · obtain ⟨lc, -, h⟩ := Res.bind_eq_ok h
        obtain ⟨rc, -, h⟩ := Res.bind_eq_ok h
        split at h
        · obtain ⟨A1, h1, h⟩ := Res.bind_eq_ok h
          obtain ⟨A2, h2, h⟩ := Res.bind_eq_ok h
          have e : A2.map geo = A.map geo := (geo_upper h2).trans (geo_setPacket h1)
          split at h <;> cases h <;> exact e
        · split at h <;> cases h <;> rfl

theorem endpointCmp_geo {s s' t t' : BoolSegment F} (hs : geo s = geo s') (ht : geo t = geo t') (e e' : SegmentEnd) : endpointCmp s e t e' = endpointCmp s' e t' e' := by
  unfold geo at hs ht
  simp only [Prod.mk.injEq] at hs ht
  obtain ⟨a1, a2, a3⟩ := hs
  obtain ⟨b1, b2, b3⟩ := ht
  have p1 : s.pointAt e = s'.pointAt e := by cases e <;> simp [SweepSegment.pointAt, a1, a2]
  have p2 : s.otherPointAt e = s'.otherPointAt e := by cases e <;> simp [SweepSegment.otherPointAt, a1, a2]
  have p3 : t.pointAt e' = t'.pointAt e' := by cases e' <;> simp [SweepSegment.pointAt, b1, b2]
  have p4 : t.otherPointAt e' = t'.otherPointAt e' := by cases e' <;> simp [SweepSegment.otherPointAt, b1, b2]
  unfold endpointCmp
  rw [p1, p2, p3, p4, a3, b3]

theorem Ext.get {A B : Arena F} (h : Ext A B) {i : Nat} (hi : i < A.length) : ∃ s t, A[i]? = some s ∧ B[i]? = some t ∧ geo s = geo t := by
  have hi' : i < B.length := lt_of_lt_of_le hi h.length
  refine ⟨A[i], B[i], List.getElem?_eq_getElem hi, List.getElem?_eq_getElem hi', ?_⟩
  have := List.IsPrefix.getElem h (i := i) (by simpa using hi)
  simpa using this

theorem Ext.endCmp {A B : Arena F} (h : Ext A B) {x y : Nat × SegmentEnd} (hx : x.1 < A.length) (hy : y.1 < A.length) : A.endCmp x y = B.endCmp x y := by
  obtain ⟨s, s', h1, h2, h3⟩ := h.get hx
  obtain ⟨t, t', h4, h5, h6⟩ := h.get hy
  unfold Arena.endCmp index
  rw [h1, h2, h4, h5]
  exact endpointCmp_geo h3 h6 x.2 y.2

/-- The order of the endpoints is a total preorder. -/
def Ordered (A : Arena F) : Prop := TotalPreorderOn (fun x : Nat × SegmentEnd => x.1 < A.length) A.endCmp

theorem Ordered.ext {A B : Arena F} (h : Ordered B) (he : Ext A B) : Ordered A where
  total a b ha hb := by
    rw [he.endCmp ha hb, he.endCmp hb ha]
    exact h.total a b (lt_of_lt_of_le ha he.length) (lt_of_lt_of_le hb he.length)
  trans a b c o₁ o₂ o₃ ha hb hc := by
    rw [he.endCmp ha hb, he.endCmp hb hc, he.endCmp ha hc]
    exact h.trans a b c o₁ o₂ o₃ (lt_of_lt_of_le ha he.length) (lt_of_lt_of_le hb he.length) (lt_of_lt_of_le hc he.length)

/-! ### Queues -/

/-- The queue of another implementation: the same elements, and some that have no effect. -/
structure SameQueue (Heap : (EndId → EndId → Res Ordering) → List EndId → Prop) (S : List EndId) (A : Arena F) (q q' : List EndId) : Prop where
  perm : q'.Perm (q ++ S)
  heap : Heap A.endCmp q'
  range : ∀ x ∈ q', x.1 < A.length
  sorted : q.Pairwise fun x y => A.endCmp x y ≠ .ok .gt

variable {Heap : (EndId → EndId → Res Ordering) → List EndId → Prop} {S : List EndId} {lib : Lib}

theorem SameQueue.ext (hh : HeapOk lib Heap) {A B : Arena F} {q q' : List EndId} (h : SameQueue Heap S A q q') (he : Ext A B) : SameQueue Heap S B q q' where
  perm := h.perm
  heap := hh.congr _ _ _ (fun a ha b hb => he.endCmp (h.range a ha) (h.range b hb)) h.heap
  range x hx := lt_of_lt_of_le (h.range x hx) he.length
  sorted := List.Pairwise.imp_of_mem (fun {x y} hx hy hxy => by
    rw [← he.endCmp (h.range x (h.perm.mem_iff.2 (List.mem_append_left _ hx))) (h.range y (h.perm.mem_iff.2 (List.mem_append_left _ hy)))]
    exact hxy) h.sorted

theorem SameQueue.push (hh : HeapOk lib Heap) {A : Arena F} {q q' : List EndId} (h : SameQueue Heap S A q q') (ho : Ordered A) {x : EndId} (hx : x.1 < A.length) {l : List EndId}
    (hp : checkedLib.heapPush A.endCmp x q = .ok l) : ∃ l', lib.heapPush A.endCmp x q' = .ok l' ∧ SameQueue Heap S A l l' := by
  have hr : ∀ y ∈ x :: q', y.1 < A.length := by
    intro y hy
    rcases List.mem_cons.1 hy with rfl | hy
    · exact hx
    · exact h.range y hy
  obtain ⟨l', h1, h2, h3⟩ := hh.push A.endCmp x q' (ho.mono hr) h.heap
  have hq : l.Perm (x :: q) := listLib_ok.push_perm A.endCmp x q l hp
  have hrq : ∀ y ∈ x :: q, y.1 < A.length := by
    intro y hy
    rcases List.mem_cons.1 hy with rfl | hy
    · exact hx
    · exact h.range y (h.perm.mem_iff.2 (List.mem_append_left _ hy))
  have hsort : l.Pairwise fun x y => A.endCmp x y ≠ .ok .gt := by
    obtain ⟨l2, e1, -, e2⟩ := insertSorted_sorted (cmp := A.endCmp) (x := x) (l := q) (ho.mono hrq) h.sorted
    have : insertSorted A.endCmp x q = .ok l := hp
    rw [e1, Res.ok.injEq] at this
    rw [← this]
    exact e2
  refine ⟨l', h1, ?_, h3, fun y hy => hr y (h2.mem_iff.1 hy), hsort⟩
  refine h2.trans ?_
  refine ((h.perm.cons x)).trans ?_
  rw [← List.cons_append]
  exact (hq.symm.append_right S)

theorem run_search (hl : lib.Lawful) {α : Type} {cmp : α → α → Res Ordering} {x : α} {l : List α} {r : Bool × Nat} (h : checkedLib.binarySearch cmp x l = .ok r) :
    lib.binarySearch cmp x l = .ok r := checkedSearch_sound hl h

theorem run_remove (hl : lib.Lawful) {α : Type} {cmp : α → α → Res Ordering} {x : α} {l : List α} {r : Bool × List α} (h : SweepLine2.remove checkedLib cmp x l = .ok r) :
    SweepLine2.remove lib cmp x l = .ok r := by
  unfold SweepLine2.remove at h ⊢
  obtain ⟨s, h1, h⟩ := Res.bind_eq_ok h
  rw [run_search hl h1]; exact h

theorem run_insert (hl : lib.Lawful) {α : Type} {cmp : α → α → Res Ordering} {x : α} {l : List α} {r : List α} (h : SweepLine2.insert checkedLib cmp x l = .ok r) :
    SweepLine2.insert lib cmp x l = .ok r := by
  unfold SweepLine2.insert at h ⊢
  obtain ⟨s, h1, h⟩ := Res.bind_eq_ok h
  rw [run_search hl h1]; exact h

theorem run_previous (hl : lib.Lawful) {α : Type} {cmp : α → α → Res Ordering} {x : α} {l : List α} {r : Option α} (h : SweepLine2.getPrevious checkedLib cmp x l = .ok r) :
    SweepLine2.getPrevious lib cmp x l = .ok r := by
  unfold SweepLine2.getPrevious at h ⊢
  obtain ⟨s, h1, h⟩ := Res.bind_eq_ok h
  rw [run_search hl h1]; exact h

theorem run_removeGet (hl : lib.Lawful) {α : Type} {cmp : α → α → Res Ordering} {x : α} {l : List α} {r : (Bool × Option α × Option α) × List α}
    (h : SweepLine2.removeAndGetNeighbors checkedLib cmp x l = .ok r) : SweepLine2.removeAndGetNeighbors lib cmp x l = .ok r := by
  unfold SweepLine2.removeAndGetNeighbors at h ⊢
  obtain ⟨s, h1, h⟩ := Res.bind_eq_ok h
  rw [run_search hl h1]; exact h

theorem run_insertGet (hl : lib.Lawful) {α : Type} {cmp : α → α → Res Ordering} {x : α} {l : List α} {r : (Option α × Option α) × List α}
    (h : SweepLine2.insertAndGetNeighbors checkedLib cmp x l = .ok r) : SweepLine2.insertAndGetNeighbors lib cmp x l = .ok r := by
  unfold SweepLine2.insertAndGetNeighbors at h ⊢
  obtain ⟨s, h1, h⟩ := Res.bind_eq_ok h
  rw [run_search hl h1]; exact h

end Idc
