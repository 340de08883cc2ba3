import Verif.Props.Checked
/-!
# One step of a checked run, and the same step with other containers, for C93
-/

namespace Idc

open FloatOps

variable {F : Type} [FloatOps F] {Heap : (EndId → EndId → Res Ordering) → List EndId → Prop} {S : List EndId} {lib : Lib} {n : Nat}

/-! ### Segments keep their place -/

theorem geo_map_length {A B : Arena F} (h : B.map geo = A.map geo) : B.length = A.length := by
  have := congrArg List.length h
  simpa using this

theorem ext_split {lib : Lib} {st st2 : SweepState F} {i k : Nat} {pt : Pt F} (h : splitSegment lib n st i pt = .ok (st2, k)) : Ext st.arena st2.arena := by
  unfold splitSegment at h
  obtain ⟨seg, -, h⟩ := Res.bind_eq_ok h
  obtain ⟨left, -, h⟩ := Res.bind_eq_ok h
  obtain ⟨right, -, h⟩ := Res.bind_eq_ok h
  obtain ⟨l, -, h⟩ := Res.bind_eq_ok h
  obtain ⟨r, -, h⟩ := Res.bind_eq_ok h
  obtain ⟨⟨found, active⟩, -, h⟩ := Res.bind_eq_ok h
  dsimp only at h
  split at h
  · cases h
  · obtain ⟨active2, -, h⟩ := Res.bind_eq_ok h
    obtain ⟨q1, -, h⟩ := Res.bind_eq_ok h
    obtain ⟨q2, -, h⟩ := Res.bind_eq_ok h
    obtain ⟨q3, -, h⟩ := Res.bind_eq_ok h
    cases h
    exact (Ext.append st.arena _).trans (Ext.of_eq (geo_redirect _ _ _).symm)

theorem ext_splitIf {lib : Lib} {st st2 : SweepState F} {i k : Nat} {pt : Option (Pt F)} (h : splitIf lib n st i pt = .ok (st2, k)) : Ext st.arena st2.arena := by
  unfold splitIf at h
  split at h
  · cases h; exact Ext.refl _
  · exact ext_split h

theorem ext_splitIfOpt {lib : Lib} {st st2 : SweepState F} {i k : Option Nat} {pt : Option (Pt F)} (h : splitIfOpt lib n st i pt = .ok (st2, k)) : Ext st.arena st2.arena := by
  unfold splitIfOpt at h
  split at h
  · cases h; exact Ext.refl _
  · obtain ⟨i, -, h⟩ := Res.bind_eq_ok h
    obtain ⟨⟨st3, i⟩, h1, h⟩ := Res.bind_eq_ok h
    cases h
    exact ext_split h1

theorem ext_after {mode : Nat} {st st2 : SweepState F} {i : Nat} {b a : Option Nat} (h : updateAfter mode st i b a = .ok st2) : st2.arena.map geo = st.arena.map geo := by
  unfold updateAfter at h
  split at h
  · obtain ⟨A1, h1, h⟩ := Res.bind_eq_ok h
    obtain ⟨a, -, h⟩ := Res.bind_eq_ok h
    obtain ⟨A2, h2, h⟩ := Res.bind_eq_ok h
    cases h
    exact (geo_facing h2).trans (geo_facing h1)
  · cases h; rfl

/-! ### The same step -/

theorem run_split (hl : lib.Lawful) (hh : HeapOk lib Heap) {st st2 : SweepState F} {i k : Nat} {pt : Pt F} {q' : List EndId} (h : splitSegment checkedLib n st i pt = .ok (st2, k))
    (ho : Ordered st2.arena) (hq : SameQueue Heap S st.arena st.queue q') :
    ∃ q2, splitSegment lib n { st with queue := q' } i pt = .ok ({ st2 with queue := q2 }, k) ∧ SameQueue Heap S st2.arena st2.queue q2 := by
  unfold splitSegment at h ⊢
  obtain ⟨seg, h0, h⟩ := Res.bind_eq_ok h
  obtain ⟨left, h1, h⟩ := Res.bind_eq_ok h
  obtain ⟨right, h2, h⟩ := Res.bind_eq_ok h
  obtain ⟨l, h3, h⟩ := Res.bind_eq_ok h
  obtain ⟨r, h4, h⟩ := Res.bind_eq_ok h
  obtain ⟨⟨found, active⟩, h5, h⟩ := Res.bind_eq_ok h
  dsimp only at h ⊢
  rw [h0, Res.bind_ok, h1, Res.bind_ok, h2, Res.bind_ok, h3, Res.bind_ok, h4, Res.bind_ok, run_remove hl h5, Res.bind_ok]
  dsimp only
  split at h
  · cases h
  · rename_i hf
    rw [if_neg hf]
    obtain ⟨active2, h6, h⟩ := Res.bind_eq_ok h
    obtain ⟨q1, h7, h⟩ := Res.bind_eq_ok h
    obtain ⟨q2, h8, h⟩ := Res.bind_eq_ok h
    obtain ⟨q3, h9, h⟩ := Res.bind_eq_ok h
    cases h
    have hr := Ext.of_eq (geo_redirect (st.arena ++ [left, { right with data := { right.data with left_faces_polygons := l, right_faces_polygons := r } }]) i st.arena.length).symm
    have ho' := ho.ext hr
    have hlen : (st.arena ++ [left, { right with data := { right.data with left_faces_polygons := l, right_faces_polygons := r } }]).length = st.arena.length + 2 := by simp
    have hq0 := hq.ext hh (Ext.append st.arena [left, { right with data := { right.data with left_faces_polygons := l, right_faces_polygons := r } }])
    obtain ⟨p1, e1, hq1⟩ := hq0.push hh ho' (by rw [hlen]; dsimp only; omega) h7
    obtain ⟨p2, e2, hq2⟩ := hq1.push hh ho' (by rw [hlen]; dsimp only; omega) h8
    obtain ⟨p3, e3, hq3⟩ := hq2.push hh ho' (by rw [hlen]; dsimp only; omega) h9
    refine ⟨p3, ?_, hq3.ext hh hr⟩
    rw [run_insert hl h6, Res.bind_ok, e1, Res.bind_ok, e2, Res.bind_ok, e3, Res.bind_ok]
    rfl

theorem run_splitIf (hl : lib.Lawful) (hh : HeapOk lib Heap) {st st2 : SweepState F} {i k : Nat} {pt : Option (Pt F)} {q' : List EndId} (h : splitIf checkedLib n st i pt = .ok (st2, k))
    (ho : Ordered st2.arena) (hq : SameQueue Heap S st.arena st.queue q') :
    ∃ q2, splitIf lib n { st with queue := q' } i pt = .ok ({ st2 with queue := q2 }, k) ∧ SameQueue Heap S st2.arena st2.queue q2 := by
  cases pt with
  | none => cases h; exact ⟨q', rfl, hq⟩
  | some pt => exact run_split hl hh h ho hq

theorem run_splitIfOpt (hl : lib.Lawful) (hh : HeapOk lib Heap) {st st2 : SweepState F} {i k : Option Nat} {pt : Option (Pt F)} {q' : List EndId}
    (h : splitIfOpt checkedLib n st i pt = .ok (st2, k)) (ho : Ordered st2.arena) (hq : SameQueue Heap S st.arena st.queue q') :
    ∃ q2, splitIfOpt lib n { st with queue := q' } i pt = .ok ({ st2 with queue := q2 }, k) ∧ SameQueue Heap S st2.arena st2.queue q2 := by
  cases pt with
  | none => cases h; exact ⟨q', rfl, hq⟩
  | some pt =>
    unfold splitIfOpt at h ⊢
    obtain ⟨j, h0, h⟩ := Res.bind_eq_ok h
    obtain ⟨⟨st3, j2⟩, h1, h⟩ := Res.bind_eq_ok h
    cases h
    obtain ⟨q2, e, hq2⟩ := run_split hl hh h1 ho hq
    refine ⟨q2, ?_, hq2⟩
    dsimp only
    rw [h0, Res.bind_ok, e]
    rfl

theorem run_after (hh : HeapOk lib Heap) {mode : Nat} {st st2 : SweepState F} {i : Nat} {b a : Option Nat} {q' : List EndId} (h : updateAfter mode st i b a = .ok st2)
    (hq : SameQueue Heap S st.arena st.queue q') :
    updateAfter mode { st with queue := q' } i b a = .ok { st2 with queue := q' } ∧ SameQueue Heap S st2.arena st2.queue q' := by
  have hg := ext_after h
  unfold updateAfter at h ⊢
  split at h
  · rename_i hm
    obtain ⟨A1, h1, h⟩ := Res.bind_eq_ok h
    obtain ⟨a', h2, h⟩ := Res.bind_eq_ok h
    obtain ⟨A2, h3, h⟩ := Res.bind_eq_ok h
    cases h
    dsimp only
    rw [if_pos hm, h1, Res.bind_ok, h2, Res.bind_ok, h3]
    exact ⟨rfl, hq.ext hh (Ext.of_eq hg.symm)⟩
  · rename_i hm
    cases h
    rw [if_neg hm]
    exact ⟨rfl, hq⟩

theorem ext_right {lib : Lib} {st st2 : SweepState F} {i : Nat} (h : sweepRight lib n st i = .ok st2) : Ext st.arena st2.arena := by
  unfold sweepRight at h
  obtain ⟨⟨⟨found, below, above⟩, active⟩, h0, h⟩ := Res.bind_eq_ok h
  dsimp only at h
  split at h
  · split at h
    · rename_i above below
      obtain ⟨⟨A1, m, p1, p2⟩, h1, h⟩ := Res.bind_eq_ok h
      obtain ⟨⟨st3, k⟩, h2, h⟩ := Res.bind_eq_ok h
      obtain ⟨⟨st4, k'⟩, h3, h⟩ := Res.bind_eq_ok h
      cases h
      exact (Ext.of_eq (geo_handle h1).symm).trans ((ext_splitIf h2).trans (ext_splitIf h3))
    · cases h; exact Ext.refl _
  · cases h; exact Ext.refl _

theorem run_right (hl : lib.Lawful) (hh : HeapOk lib Heap) {st st2 : SweepState F} {i : Nat} {q' : List EndId} (h : sweepRight checkedLib n st i = .ok st2)
    (ho : Ordered st2.arena) (hq : SameQueue Heap S st.arena st.queue q') :
    ∃ q2, sweepRight lib n { st with queue := q' } i = .ok { st2 with queue := q2 } ∧ SameQueue Heap S st2.arena st2.queue q2 := by
  unfold sweepRight at h ⊢
  obtain ⟨⟨⟨found, below, above⟩, active⟩, h0, h⟩ := Res.bind_eq_ok h
  dsimp only at h ⊢
  rw [run_removeGet hl h0, Res.bind_ok]
  dsimp only
  split at h
  · rename_i hf
    rw [if_pos hf]
    split at h
    · rename_i above below
      obtain ⟨⟨A1, m, p1, p2⟩, h1, h⟩ := Res.bind_eq_ok h
      obtain ⟨⟨st3, k⟩, h2, h⟩ := Res.bind_eq_ok h
      obtain ⟨⟨st4, k'⟩, h3, h⟩ := Res.bind_eq_ok h
      cases h
      obtain ⟨q2, e2, hq2⟩ := run_splitIf hl hh h2 (ho.ext (ext_splitIf h3)) (hq.ext hh (Ext.of_eq (geo_handle h1).symm))
      obtain ⟨q3, e3, hq3⟩ := run_splitIf hl hh h3 ho hq2
      refine ⟨q3, ?_, hq3⟩
      dsimp only
      rw [h1, Res.bind_ok]
      dsimp only at e2 ⊢
      rw [e2, Res.bind_ok]
      dsimp only
      rw [e3, Res.bind_ok]
      rfl
    · cases h
      exact ⟨q', rfl, hq⟩
  · rename_i hf
    rw [if_neg hf]
    cases h
    exact ⟨q', rfl, hq⟩

theorem ext_left {lib : Lib} {st st2 : SweepState F} {i : Nat} (h : sweepLeft lib n st i = .ok st2) : Ext st.arena st2.arena := by
  unfold sweepLeft at h
  obtain ⟨⟨⟨below, above⟩, active⟩, h0, h⟩ := Res.bind_eq_ok h
  obtain ⟨A1, h1, h⟩ := Res.bind_eq_ok h
  obtain ⟨⟨A2, m, p1, p2⟩, h2, h⟩ := Res.bind_eq_ok h
  obtain ⟨⟨st3, k⟩, h3, h⟩ := Res.bind_eq_ok h
  obtain ⟨⟨st4, k'⟩, h4, h⟩ := Res.bind_eq_ok h
  obtain ⟨st5, h5, h⟩ := Res.bind_eq_ok h
  obtain ⟨⟨A6, m', p1', p2'⟩, h6, h⟩ := Res.bind_eq_ok h
  obtain ⟨⟨st7, b⟩, h7, h⟩ := Res.bind_eq_ok h
  obtain ⟨⟨st8, k8⟩, h8, h⟩ := Res.bind_eq_ok h
  have e : Ext st.arena st8.arena :=
    (Ext.of_eq (geo_facing h1).symm).trans ((Ext.of_eq (geo_handle h2).symm).trans ((ext_splitIf h3).trans ((ext_splitIfOpt h4).trans
      ((Ext.of_eq (ext_after h5).symm).trans ((Ext.of_eq (geo_handle h6).symm).trans ((ext_splitIfOpt h7).trans (ext_splitIf h8)))))))
  dsimp only at h
  split at h
  · obtain ⟨b', h9, h⟩ := Res.bind_eq_ok h
    obtain ⟨prev, h10, h⟩ := Res.bind_eq_ok h
    obtain ⟨A11, h11, h⟩ := Res.bind_eq_ok h
    obtain ⟨A12, h12, h⟩ := Res.bind_eq_ok h
    cases h
    exact e.trans ((Ext.of_eq (geo_facing h11).symm).trans (Ext.of_eq (geo_facing h12).symm))
  · cases h; exact e

theorem run_left (hl : lib.Lawful) (hh : HeapOk lib Heap) {st st2 : SweepState F} {i : Nat} {q' : List EndId} (h : sweepLeft checkedLib n st i = .ok st2)
    (ho : Ordered st2.arena) (hq : SameQueue Heap S st.arena st.queue q') :
    ∃ q2, sweepLeft lib n { st with queue := q' } i = .ok { st2 with queue := q2 } ∧ SameQueue Heap S st2.arena st2.queue q2 := by
  unfold sweepLeft at h ⊢
  obtain ⟨⟨⟨below, above⟩, active⟩, h0, h⟩ := Res.bind_eq_ok h
  obtain ⟨A1, h1, h⟩ := Res.bind_eq_ok h
  obtain ⟨⟨A2, m, p1, p2⟩, h2, h⟩ := Res.bind_eq_ok h
  obtain ⟨⟨st3, k⟩, h3, h⟩ := Res.bind_eq_ok h
  obtain ⟨⟨st4, k'⟩, h4, h⟩ := Res.bind_eq_ok h
  obtain ⟨st5, h5, h⟩ := Res.bind_eq_ok h
  obtain ⟨⟨A6, m', p1', p2'⟩, h6, h⟩ := Res.bind_eq_ok h
  obtain ⟨⟨st7, b⟩, h7, h⟩ := Res.bind_eq_ok h
  obtain ⟨⟨st8, k8⟩, h8, h⟩ := Res.bind_eq_ok h
  have o8 : Ordered st8.arena := by
    dsimp only at h
    split at h
    · obtain ⟨b', h9, h⟩ := Res.bind_eq_ok h
      obtain ⟨prev, h10, h⟩ := Res.bind_eq_ok h
      obtain ⟨A11, h11, h⟩ := Res.bind_eq_ok h
      obtain ⟨A12, h12, h⟩ := Res.bind_eq_ok h
      cases h
      exact ho.ext ((Ext.of_eq (geo_facing h11).symm).trans (Ext.of_eq (geo_facing h12).symm))
    · cases h; exact ho
  have o7 := o8.ext (ext_splitIf h8)
  have o5 := o7.ext ((Ext.of_eq (geo_handle h6).symm).trans (ext_splitIfOpt h7))
  have o4 := o5.ext (Ext.of_eq (ext_after h5).symm)
  have o3 := o4.ext (ext_splitIfOpt h4)
  dsimp only at h h1 h2 h3 h4 h5 h6 h7 h8 ⊢
  rw [run_insertGet hl h0, Res.bind_ok]
  dsimp only
  rw [h1, Res.bind_ok]
  rw [h2, Res.bind_ok]
  dsimp only
  obtain ⟨q3, e3, hq3⟩ := run_splitIf hl hh h3 o3 (q' := q') (hq.ext hh ((Ext.of_eq (geo_facing h1).symm).trans (Ext.of_eq (geo_handle h2).symm)))
  dsimp only at e3
  rw [e3, Res.bind_ok]
  dsimp only
  obtain ⟨q4, e4, hq4⟩ := run_splitIfOpt hl hh h4 o4 hq3
  rw [e4, Res.bind_ok]
  dsimp only
  obtain ⟨e5, hq5⟩ := run_after hh h5 hq4
  rw [e5, Res.bind_ok]
  dsimp only
  rw [h6, Res.bind_ok]
  dsimp only
  obtain ⟨q7, e7, hq7⟩ := run_splitIfOpt hl hh h7 o7 (hq5.ext hh (Ext.of_eq (geo_handle h6).symm))
  dsimp only at e7
  rw [e7, Res.bind_ok]
  dsimp only
  obtain ⟨q8, e8, hq8⟩ := run_splitIf hl hh h8 o8 hq7
  rw [e8, Res.bind_ok]
  dsimp only
  split at h
  · rename_i hm
    rw [if_pos hm]
    obtain ⟨b', h9, h⟩ := Res.bind_eq_ok h
    obtain ⟨prev, h10, h⟩ := Res.bind_eq_ok h
    obtain ⟨A11, h11, h⟩ := Res.bind_eq_ok h
    obtain ⟨A12, h12, h⟩ := Res.bind_eq_ok h
    cases h
    refine ⟨q8, ?_, hq8.ext hh ((Ext.of_eq (geo_facing h11).symm).trans (Ext.of_eq (geo_facing h12).symm))⟩
    rw [h9, Res.bind_ok, run_previous hl h10, Res.bind_ok, h11, Res.bind_ok, h12]
    rfl
  · rename_i hm
    rw [if_neg hm]
    cases h
    exact ⟨q8, rfl, hq8⟩

theorem ext_end {lib : Lib} {st st2 : SweepState F} {i : Nat} {e : SegmentEnd} (h : sweepEnd lib n st i e = .ok st2) : Ext st.arena st2.arena := by
  cases e with
  | left => exact ext_left h
  | right => exact ext_right h

theorem run_end (hl : lib.Lawful) (hh : HeapOk lib Heap) {st st2 : SweepState F} {i : Nat} {e : SegmentEnd} {q' : List EndId} (h : sweepEnd checkedLib n st i e = .ok st2)
    (ho : Ordered st2.arena) (hq : SameQueue Heap S st.arena st.queue q') :
    ∃ q2, sweepEnd lib n { st with queue := q' } i e = .ok { st2 with queue := q2 } ∧ SameQueue Heap S st2.arena st2.queue q2 := by
  cases e with
  | left => exact run_left hl hh h ho hq
  | right => exact run_right hl hh h ho hq

end Idc
