import Verif.Props.CutLoop
import Verif.Props.PlanFinish
/-!
# Tracing the result of two runs that differ in the numbers of the segments, for C84
-/

namespace Idc

namespace Cut

open Plan

/-- The endpoint, renamed. -/
def ren (π : ℕ → ℕ) (x : EndId) : EndId := (π x.1, x.2)

/-- Two arenas with the same segments under other numbers. -/
structure Twin (L : ℕ → Prop) (π : ℕ → ℕ) (A A' : Arena ℝ) : Prop where
  inj : ∀ i j, L i → L j → π i = π j → i = j
  get : ∀ i, L i → ∃ s s', A[i]? = some s ∧ A'[π i]? = some s' ∧ s.left_point = s'.left_point ∧ s.right_point = s'.right_point ∧
    s.order = s'.order ∧ s.index = i ∧ s'.index = π i ∧ view π s.data = view id s'.data
  below : ∀ i, L i → ∀ s, A[i]? = some s → ∀ b, s.data.below_in_result = some b → L b

section

variable {π : ℕ → ℕ} {p p' : SegmentPacket}

theorem view_lf (h : view π p = view id p') : p.left_faces_polygons = p'.left_faces_polygons := (congrArg SegmentPacket.left_faces_polygons h :)
theorem view_rf (h : view π p = view id p') : p.right_faces_polygons = p'.right_faces_polygons := (congrArg SegmentPacket.right_faces_polygons h :)
theorem view_res (h : view π p = view id p') : p.is_in_result = p'.is_in_result := (congrArg SegmentPacket.is_in_result h :)
theorem view_lid (h : view π p = view id p') : p.left_contour_id = p'.left_contour_id := (congrArg SegmentPacket.left_contour_id h :)
theorem view_rid (h : view π p = view id p') : p.right_contour_id = p'.right_contour_id := (congrArg SegmentPacket.right_contour_id h :)
theorem view_lindex (h : view π p = view id p') : p.left_index = p'.left_index := (congrArg SegmentPacket.left_index h :)
theorem view_below (h : view π p = view id p') : p.below_in_result.map π = p'.below_in_result := by
  have : p.below_in_result.map π = p'.below_in_result.map id := (congrArg SegmentPacket.below_in_result h :)
  simpa using this

theorem view_processed (h : view π p = view id p') (e : SegmentEnd) : p.isProcessed e = p'.isProcessed e := by
  cases e
  · exact (congrArg SegmentPacket.left_processed h :)
  · exact (congrArg SegmentPacket.right_processed h :)

theorem view_faces (h : view π p = view id p') (e : SegmentEnd) : p.faces e = p'.faces e := by
  cases e
  · exact view_lf h
  · exact view_rf h

theorem view_setIndex (h : view π p = view id p') (k : ℕ) (e : SegmentEnd) : view π (p.setIndex k e) = view id (p'.setIndex k e) := by
  cases e
  · exact congrArg (fun q : SegmentPacket => { q with left_index := k }) h
  · exact congrArg (fun q : SegmentPacket => { q with right_index := k }) h

theorem view_assign (h : view π p = view id p') (k : ℕ) (e : SegmentEnd) : view π (p.assign k e) = view id (p'.assign k e) := by
  cases e
  · exact congrArg (fun q : SegmentPacket => { q with left_processed := true, left_contour_id := some k, result_in_out := false }) h
  · exact congrArg (fun q : SegmentPacket => { q with right_processed := true, right_contour_id := some k, result_in_out := true }) h

end

variable {L : ℕ → Prop} {π : ℕ → ℕ} {A A' : Arena ℝ}

theorem index_of {α : Type} {l : List α} {i : ℕ} {x : α} (h : l[i]? = some x) : index l i = .ok x := by unfold index; rw [h]

theorem Twin.put (h : Twin L π A A') {i : ℕ} (hi : L i) {p p' : SegmentPacket} (hp : view π p = view id p')
    (hb : ∀ b, p.below_in_result = some b → L b) : Twin L π (putPacket A i p) (putPacket A' (π i) p') := by
  refine ⟨h.inj, ?_, ?_⟩
  · intro j hj
    obtain ⟨s, s', e1, e2, e3, e4, e5, e6, e7, e8⟩ := h.get j hj
    rw [put_get, put_get, e1, e2]
    refine ⟨_, _, rfl, rfl, ?_⟩
    dsimp only
    by_cases e : j = i
    · rw [if_pos e, if_pos (by rw [e])]
      exact ⟨e3, e4, e5, e6, e7, hp⟩
    · rw [if_neg e, if_neg fun e' => e (h.inj j i hj hi e')]
      exact ⟨e3, e4, e5, e6, e7, e8⟩
  · intro j hj s hs b hb'
    rw [put_get] at hs
    obtain ⟨t, ht, rfl⟩ := Option.map_eq_some_iff.1 hs
    split at hb'
    · exact hb b hb'
    · exact h.below j hj t ht b hb'

/-! ### Runs that end alike -/

/-- Both runs return, with related results, or both fail in the same way. -/
def Alike {α β : Type} (R : α → β → Prop) : Res α → Res β → Prop
  | .ok a, .ok b => R a b
  | .err e, .err e' => e = e'
  | .panic c, .panic c' => c = c'
  | .diverge, .diverge => True
  | _, _ => False

theorem Alike.bind {α β γ δ : Type} {R : α → β → Prop} {Q : γ → δ → Prop} {f : Res α} {f' : Res β} {k : α → Res γ} {k' : β → Res δ} (h : Alike R f f')
    (hk : ∀ a b, f = .ok a → f' = .ok b → R a b → Alike Q (k a) (k' b)) : Alike Q (f >>= k) (f' >>= k') := by
  rcases f with a | e | c | _ <;> rcases f' with b | e' | c' | _ <;> first | exact hk a b rfl rfl h | exact h | exact h.elim

theorem Alike.same {α γ δ : Type} {Q : γ → δ → Prop} {f : Res α} {k : α → Res γ} {k' : α → Res δ}
    (hk : ∀ a, f = .ok a → Alike Q (k a) (k' a)) : Alike Q (f >>= k) (f >>= k') := by
  rcases f with a | e | c | _
  · exact hk a rfl
  · rfl
  · rfl
  · trivial

theorem Alike.refl {α : Type} {R : α → α → Prop} {f : Res α} (h : ∀ a, f = .ok a → R a a) : Alike R f f := by
  rcases f with a | e | c | _
  · exact h a rfl
  · rfl
  · rfl
  · trivial

theorem Alike.eq {α : Type} {f f' : Res α} (h : Alike (fun a b => a = b) f f') : f = f' := by
  rcases f with a | e | c | _ <;> rcases f' with b | e' | c' | _ <;> first | rfl | exact h.elim | (cases h; rfl)

theorem Alike.mono {α β : Type} {R Q : α → β → Prop} {f : Res α} {f' : Res β} (h : Alike R f f') (hR : ∀ a b, R a b → Q a b) : Alike Q f f' := by
  rcases f with a | e | c | _ <;> rcases f' with b | e' | c' | _ <;> first | exact hR a b h | exact h | exact h.elim

theorem index_alike {α β : Type} (f : α → β) (l : List α) (i : ℕ) : Alike (fun x y => y = f x ∧ x ∈ l) (index l i) (index (l.map f) i) := by
  unfold index
  rw [List.getElem?_map]
  rcases hx : l[i]? with _ | x
  · exact Eq.refl (α := Panic) _
  · exact ⟨rfl, List.mem_of_getElem? hx⟩

theorem Twin.setPacket (h : Twin L π A A') {i : ℕ} (hi : L i) {p p' : SegmentPacket} (hp : view π p = view id p')
    (hb : ∀ b, p.below_in_result = some b → L b) : ∃ B B', A.setPacket i p = .ok B ∧ A'.setPacket (π i) p' = .ok B' ∧ Twin L π B B' := by
  obtain ⟨s, s', e1, e2, _⟩ := h.get i hi
  exact ⟨_, _, setPacket_put (List.getElem?_eq_some_iff.1 e1).1 _, setPacket_put (List.getElem?_eq_some_iff.1 e2).1 _, h.put hi hp hb⟩

/-! ### Comparisons -/

theorem points_eq {s s' : BoolSegment ℝ} (h1 : s.left_point = s'.left_point) (h2 : s.right_point = s'.right_point) (e : SegmentEnd) :
    s.pointAt e = s'.pointAt e ∧ s.otherPointAt e = s'.otherPointAt e := by
  cases e
  · exact ⟨h1, h2⟩
  · exact ⟨h2, h1⟩

theorem endpointCmp_eq' {s s' t t' : BoolSegment ℝ} (h1 : s.left_point = s'.left_point) (h2 : s.right_point = s'.right_point) (h3 : s.order = s'.order)
    (k1 : t.left_point = t'.left_point) (k2 : t.right_point = t'.right_point) (k3 : t.order = t'.order) (e f : SegmentEnd) :
    endpointCmp s e t f = endpointCmp s' e t' f := by
  unfold endpointCmp
  rw [(points_eq h1 h2 e).1, (points_eq h1 h2 e).2, (points_eq k1 k2 f).1, (points_eq k1 k2 f).2, h3, k3]

theorem cmp_twin {s s' t t' : BoolSegment ℝ} (h1 : s.left_point = s'.left_point) (h2 : s.right_point = s'.right_point) (h3 : s.order = s'.order)
    (k1 : t.left_point = t'.left_point) (k2 : t.right_point = t'.right_point) (k3 : t.order = t'.order) (hi : s.index = t.index ↔ s'.index = t'.index) :
    Alike (fun o o' => o = .eq ↔ o' = .eq) (s.cmp t) (s'.cmp t') := by
  unfold SweepSegment.cmp
  unfold SweepSegment.below SweepSegment.above SweepSegment.below
  rw [endpointCmp_eq' k1 k2 k3 h1 h2 h3, endpointCmp_eq' h1 h2 h3 k1 k2 k3, h1, h2, h3, k1, k2, k3]
  by_cases e : s'.index = t'.index
  · rw [if_pos e, if_pos (hi.2 e)]
    exact Iff.rfl
  · rw [if_neg e, if_neg fun e' => e (hi.1 e')]
    split
    · rcases ho : compare s'.order t'.order with _ | _ | _
      · exact Alike.refl fun _ _ => Iff.rfl
      · by_cases hb : (s'.left_point.beq t'.left_point) = true
        · rw [if_pos hb, if_pos hb]
          have ne : ∀ {a b : ℕ}, a ≠ b → compare a b ≠ .eq := fun hab hc => hab (compare_eq_iff_eq.1 hc)
          have n1 := ne e
          have n2 := ne fun e' => e (hi.1 e')
          revert n1 n2
          rcases compare s'.index t'.index with _ | _ | _ <;> rcases compare s.index t.index with _ | _ | _ <;>
            simp [Ordering.then, thenWith, Alike]
        · rw [if_neg hb, if_neg hb]
          exact Alike.refl fun _ _ => Iff.rfl
      · exact Alike.refl fun _ _ => Iff.rfl
    · exact Alike.refl fun _ _ => Iff.rfl

/-! ### Which ends to trace -/

theorem include_twin {modes : List PolygonMode} (h : Twin L π A A') : ∀ (l segs : List ℕ) (ends : List EndId), (∀ i ∈ l, L i) →
    Alike (fun r r' => r'.1 = r.1.map π ∧ r'.2 = r.2.map (ren π) ∧ (∀ i ∈ r.1, i ∈ segs ∨ i ∈ l) ∧ ∀ x ∈ r.2, x ∈ ends ∨ x.1 ∈ l)
      (includeSegments modes A l segs ends) (includeSegments modes A' (l.map π) (segs.map π) (ends.map (ren π)))
  | [], segs, ends, _ => by
    unfold includeSegments
    exact ⟨rfl, rfl, fun i hi => Or.inl hi, fun x hx => Or.inl hx⟩
  | i :: l, segs, ends, hl => by
    obtain ⟨s, s', e1, e2, e3, e4, e5, e6, e7, e8⟩ := h.get i (hl i (by simp))
    rw [List.map_cons, includeSegments, includeSegments, index_of e2, index_of e1]
    simp only [Res.bind_ok]
    rw [view_res e8, view_lf e8, view_rf e8]
    have hl' : ∀ k ∈ l, L k := fun k hk => hl k (by simp [hk])
    have skip := (include_twin (modes := modes) h l segs ends hl').mono
      (Q := fun r r' => r'.1 = r.1.map π ∧ r'.2 = r.2.map (ren π) ∧ (∀ k ∈ r.1, k ∈ segs ∨ k ∈ i :: l) ∧ ∀ x ∈ r.2, x ∈ ends ∨ x.1 ∈ i :: l) fun r r' hr =>
      ⟨hr.1, hr.2.1, fun k hk => (hr.2.2.1 k hk).imp_right fun h => List.mem_cons_of_mem _ h, fun x hx => (hr.2.2.2 x hx).imp_right fun h => List.mem_cons_of_mem _ h⟩
    by_cases hres : (!s'.data.is_in_result) = true
    · rw [if_pos hres, if_pos hres]
      exact skip
    · rw [if_neg hres, if_neg hres]
      refine Alike.same fun b1 _ => Alike.same fun b2 _ => ?_
      by_cases hb : (b1 && b2) = true
      · rw [if_pos hb, if_pos hb]
        exact skip
      · rw [if_neg hb, if_neg hb]
        have hE : ends.map (ren π) ++ (if b1 = true then [] else [(π i, SegmentEnd.left)]) ++ (if b2 = true then [] else [(π i, SegmentEnd.right)]) =
            (ends ++ (if b1 = true then [] else [(i, SegmentEnd.left)]) ++ (if b2 = true then [] else [(i, SegmentEnd.right)])).map (ren π) := by
          cases b1 <;> cases b2 <;> simp [ren]
        rw [hE, show segs.map π ++ [π i] = (segs ++ [i]).map π by simp]
        refine (include_twin h l _ _ hl').mono fun r r' hr => ⟨hr.1, hr.2.1, ?_, ?_⟩
        · intro k hk
          rcases hr.2.2.1 k hk with h | h
          · rw [List.mem_append, List.mem_singleton] at h
            rcases h with h | h <;> simp [h]
          · simp [h]
        · intro x hx
          rcases hr.2.2.2 x hx with h | h
          · rw [List.mem_append, List.mem_append] at h
            rcases h with (h | h) | h
            · exact Or.inl h
            · split at h
              · cases h
              · rw [List.mem_singleton] at h; subst h; simp
            · split at h
              · cases h
              · rw [List.mem_singleton] at h; subst h; simp
          · simp [h]

/-! ### Tracing -/

theorem record_twin : ∀ (l : List EndId) (k : ℕ) {A A' : Arena ℝ}, Twin L π A A' → (∀ x ∈ l, L x.1) →
    Alike (Twin L π) (recordIndices k l A) (recordIndices k (l.map (ren π)) A')
  | [], k, A, A', h, _ => by
    unfold recordIndices
    exact h
  | (i, e) :: l, k, A, A', h, hl => by
    obtain ⟨s, s', e1, e2, e3, e4, e5, e6, e7, e8⟩ := h.get i (hl (i, e) (by simp))
    rw [List.map_cons, ren, recordIndices, recordIndices, index_of e2, index_of e1]
    simp only [Res.bind_ok]
    have hLi : L i := hl (i, e) (by simp)
    obtain ⟨B, B', hB, hB', hT⟩ := h.setPacket hLi (view_setIndex e8 k e) (fun b hb => h.below i hLi s e1 b (by cases e <;> exact hb))
    rw [hB, hB']
    simp only [Res.bind_ok]
    exact record_twin l (k + 1) hT (fun x hx => hl x (by simp [hx]))

theorem firstAt_twin (h : Twin L π A A') (p : Pt ℝ) : ∀ (l : List EndId) (k : ℕ), (∀ x ∈ l, L x.1) → firstAt A p k l = firstAt A' p k (l.map (ren π))
  | [], k, _ => by unfold firstAt; rfl
  | (i, e) :: l, k, hl => by
    obtain ⟨s, s', e1, e2, e3, e4, e5, e6, e7, e8⟩ := h.get i (hl (i, e) (by simp))
    rw [List.map_cons, ren, firstAt, firstAt, index_of e1, index_of e2]
    simp only [Res.bind_ok]
    rw [(points_eq e3 e4 e).1, firstAt_twin h p l (k + 1) fun x hx => hl x (by simp [hx])]

theorem search_twin (h : Twin L π A A') (cur : ℕ) {c : EndId} (hc : L c.1) (v q : Pt ℝ) : ∀ (l : List EndId) (k : ℕ) (st : NextState ℝ), (∀ x ∈ l, L x.1) →
    searchNext A cur c v q k l st = searchNext A' cur (ren π c) v q k (l.map (ren π)) st
  | [], k, st, _ => by
    unfold searchNext
    rfl
  | (i, e) :: l, k, st, hl => by
    have hLi : L i := hl (i, e) (by simp)
    obtain ⟨s, s', e1, e2, e3, e4, e5, e6, e7, e8⟩ := h.get i hLi
    obtain ⟨t, t', f1, f2, f3, f4, f5, f6, f7, f8⟩ := h.get c.1 hc
    have hl' : ∀ x ∈ l, L x.1 := fun x hx => hl x (by simp [hx])
    have ih := fun (st : NextState ℝ) => search_twin h cur hc v q l (k + 1) st hl'
    rw [List.map_cons, show ren π (i, e) = (π i, e) from rfl, searchNext, searchNext, index_of e2, show (ren π c).1 = π c.1 from rfl, show (ren π c).2 = c.2 from rfl, index_of f2,
      index_of e1, index_of f1]
    simp only [Res.bind_ok]
    rw [view_processed e8]
    refine Alike.eq ?_
    by_cases hp : s'.data.isProcessed e = true
    · rw [if_pos hp, if_pos hp, ih]
      exact Alike.refl fun _ _ => rfl
    · rw [if_neg hp, if_neg hp]
      have ho' : endpointOrder (k = cur) s e t c.2 = endpointOrder (k = cur) s' e t' c.2 := by
        unfold endpointOrder
        rw [endpointCmp_eq' e3 e4 e5 f3 f4 f5]
      rw [ho']
      refine Alike.same fun o _ => ?_
      by_cases hoe : o = .eq
      · rw [if_pos hoe, if_pos hoe, ih]
        exact Alike.refl fun _ _ => rfl
      · rw [if_neg hoe, if_neg hoe]
        refine (cmp_twin e3 e4 e5 f3 f4 f5 (by
          rw [e6, e7, f6, f7]
          exact ⟨fun e => by rw [e], fun e => h.inj _ _ hLi hc e⟩)).bind fun o3 o2 _ _ hiff => ?_
        by_cases h2 : o2 = .eq
        · rw [if_pos h2, if_pos (hiff.2 h2), ih]
          exact Alike.refl fun _ _ => rfl
        · rw [if_neg h2, if_neg (fun e => h2 (hiff.1 e)), (points_eq e3 e4 e).1, (points_eq e3 e4 e).2, ih]
          exact Alike.refl fun _ _ => rfl

theorem findNext_twin (h : Twin L π A A') {l : List EndId} (hl : ∀ x ∈ l, L x.1) (cur : ℕ) :
    findNextSegment A l cur = findNextSegment A' (l.map (ren π)) cur := by
  unfold findNextSegment
  refine Alike.eq ((index_alike (ren π) l cur).bind fun c c' _ _ hc => ?_)
  obtain ⟨rfl, hcm⟩ := hc
  obtain ⟨t, t', f1, f2, f3, f4, f5, f6, f7, f8⟩ := h.get c.1 (hl c hcm)
  rw [show (ren π c).1 = π c.1 from rfl, show (ren π c).2 = c.2 from rfl, index_of f2, index_of f1]
  simp only [Res.bind_ok]
  rw [firstAt_twin h _ l 0 hl, (points_eq f3 f4 _).1, (points_eq f3 f4 _).2]
  refine Alike.same fun start _ => ?_
  rw [← List.map_drop, search_twin h cur (hl c hcm) _ _ _ _ _ (fun x hx => hl x (List.mem_of_mem_drop hx))]
  exact Alike.refl fun _ _ => rfl

theorem contour_twin {l : List EndId} (hl : ∀ x ∈ l, L x.1) (id : ℕ) (p : Pt ℝ) : ∀ (fuel : ℕ) {A A' : Arena ℝ}, Twin L π A A' → ∀ (c : Contour ℝ) (cur : ℕ),
    Alike (fun r r' => Twin L π r.1 r'.1 ∧ r.2 = r'.2) (traceContour l id p fuel A c cur) (traceContour (l.map (ren π)) id p fuel A' c cur)
  | 0, A, A', h, c, cur => by
    unfold traceContour
    trivial
  | fuel + 1, A, A', h, c, cur => by
    unfold traceContour
    refine (index_alike (ren π) l cur).bind fun x x' _ _ hx => ?_
    obtain ⟨rfl, hxm⟩ := hx
    obtain ⟨i, e⟩ := x
    have hLi : L i := hl _ hxm
    obtain ⟨s, s', e1, e2, e3, e4, e5, e6, e7, e8⟩ := h.get i hLi
    rw [show ren π (i, e) = (π i, e) from rfl]
    dsimp only
    rw [index_of e2, index_of e1]
    simp only [Res.bind_ok]
    rw [view_faces (view_assign e8 id e) e]
    refine Alike.same fun fp _ => ?_
    obtain ⟨B, B', hB, hB', hT⟩ := h.setPacket hLi (view_assign e8 id e) (fun b hb => h.below i hLi s e1 b (by cases e <;> exact hb))
    rw [hB, hB']
    simp only [Res.bind_ok]
    rw [(points_eq e3 e4 e).2]
    split
    · exact ⟨hT, rfl⟩
    · rw [findNext_twin hT hl]
      exact Alike.same fun nx _ => contour_twin hl id p fuel hT _ nx

theorem step_twin (h : Twin L π A A') {l : List EndId} (hl : ∀ x ∈ l, L x.1) {fuel : ℕ} {x : EndId} (hx : L x.1) (cs : List (Contour ℝ)) :
    Alike (fun r r' => Twin L π r.1 r'.1 ∧ r.2 = r'.2) (traceStep fuel l A cs x) (traceStep fuel (l.map (ren π)) A' cs (ren π x)) := by
  obtain ⟨i, e⟩ := x
  obtain ⟨s, s', e1, e2, e3, e4, e5, e6, e7, e8⟩ := h.get i hx
  unfold traceStep
  rw [show ren π (i, e) = (π i, e) from rfl]
  dsimp only
  rw [index_of e2, index_of e1]
  simp only [Res.bind_ok]
  rw [view_processed e8]
  by_cases hp : s'.data.isProcessed e = true
  · rw [if_pos hp, if_pos hp]
    exact ⟨h, rfl⟩
  · rw [if_neg hp, if_neg hp]
    rw [view_faces e8, view_lindex e8, e3]
    refine (contour_twin hl _ _ fuel h _ _).bind fun r r' _ _ hr => ?_
    obtain ⟨C, c, last⟩ := r
    obtain ⟨C', c', last'⟩ := r'
    obtain ⟨hT, he⟩ := hr
    cases he
    dsimp only
    refine Alike.same fun z _ => ?_
    obtain ⟨cw, c'⟩ := z
    dsimp only
    by_cases hcw : cw = true
    · rw [if_pos hcw, if_pos hcw]
      refine (index_alike (ren π) l last).bind fun y y' _ _ hy => ?_
      obtain ⟨rfl, hym⟩ := hy
      obtain ⟨j, f⟩ := y
      have hLj : L j := hl _ hym
      obtain ⟨t, t', f1, f2, f3, f4, f5, f6, f7, f8⟩ := hT.get j hLj
      rw [show ren π (j, f) = (π j, f) from rfl]
      dsimp only
      rw [index_of f2, index_of f1]
      simp only [Res.bind_ok]
      have hb := view_below f8
      rcases hbt : t.data.below_in_result with _ | b
      · rw [hbt] at hb
        rw [← hb]
        exact ⟨hT, rfl⟩
      · rw [hbt] at hb
        rw [← hb]
        have hLb := hT.below j hLj t f1 b hbt
        obtain ⟨u, u', g1, g2, g3, g4, g5, g6, g7, g8⟩ := hT.get b hLb
        dsimp only [Option.map]
        rw [index_of g2, index_of g1]
        simp only [Res.bind_ok]
        rw [view_lid g8]
        exact Alike.same fun pa _ => Alike.same fun q1 _ => Alike.same fun q2 _ => ⟨hT, rfl⟩
    · rw [if_neg hcw, if_neg hcw]
      exact ⟨hT, rfl⟩

theorem all_twin {l : List EndId} (hl : ∀ x ∈ l, L x.1) {fuel : ℕ} : ∀ (r : List EndId) {A A' : Arena ℝ}, Twin L π A A' → (∀ x ∈ r, L x.1) → ∀ cs,
    Alike (fun r r' => Twin L π r.1 r'.1 ∧ r.2 = r'.2) (traceAll fuel l r A cs) (traceAll fuel (l.map (ren π)) (r.map (ren π)) A' cs)
  | [], A, A', h, _, cs => by
    unfold traceAll
    exact ⟨h, rfl⟩
  | x :: r, A, A', h, hx, cs => by
    rw [List.map_cons, traceAll, traceAll]
    refine (step_twin h hl (hx x (by simp)) cs).bind fun z z' _ _ hz => ?_
    obtain ⟨C, c1⟩ := z
    obtain ⟨C', c1'⟩ := z'
    obtain ⟨hT, he⟩ := hz
    cases he
    exact all_twin hl r hT (fun y hy => hx y (by simp [hy])) c1

theorem neighbors_twin (h : Twin L π A A') : ∀ (l : List EndId) (cs : List (Contour ℝ)), (∀ x ∈ l, L x.1) →
    assignNeighbors A l cs = assignNeighbors A' (l.map (ren π)) cs
  | [], cs, _ => by unfold assignNeighbors; rfl
  | (i, e) :: l, cs, hl => by
    obtain ⟨s, s', e1, e2, e3, e4, e5, e6, e7, e8⟩ := h.get i (hl (i, e) (by simp))
    rw [List.map_cons, ren, assignNeighbors, assignNeighbors, index_of e1, index_of e2]
    simp only [Res.bind_ok]
    rw [view_lid e8, view_rid e8]
    have ih := fun cs => neighbors_twin h l cs fun x hx => hl x (by simp [hx])
    simp only [ih]

end Cut

end Idc
