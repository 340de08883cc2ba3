import Verif.Props.CheckedSweep
/-!
# A checked run and the same run with other containers, for C93
-/

namespace Idc

open FloatOps

variable {F : Type} [FloatOps F] {Heap : (EndId → EndId → Res Ordering) → List EndId → Prop} {S : List EndId} {lib : Lib} {n : Nat}

/-- Handling an endpoint without effect. -/
theorem stale_end (hs : lib.SearchHonest) {st : SweepState F} {x : EndId} (h : isStale st x = true) (q : List EndId) :
    sweepEnd lib n { st with queue := q } x.1 x.2 = .ok { st with queue := q } := by
  unfold isStale at h
  simp only [Bool.and_eq_true, decide_eq_true_eq, List.all_eq_true, Bool.or_eq_true] at h
  obtain ⟨h1, h2⟩ := h
  obtain ⟨i, hi, hb⟩ := hs st.arena.segCmp x.1 st.active fun y hy => by
    rcases h2 y hy with h | h
    · exact ⟨.lt, h, by decide⟩
    · exact ⟨.gt, h, by decide⟩
  rw [h1]
  unfold sweepEnd sweepRight SweepLine2.removeAndGetNeighbors
  dsimp only
  rw [hb, Res.bind_ok]
  dsimp only
  have hp : ∃ p, prevAt st.active i = .ok p := by
    unfold prevAt
    split
    · rename_i h0
      have : i - 1 < st.active.length := by omega
      refine ⟨some st.active[i - 1], ?_⟩
      unfold index
      rw [List.getElem?_eq_getElem this]
      rfl
    · exact ⟨none, rfl⟩
  obtain ⟨p, hp⟩ := hp
  rw [if_neg (by decide), hp]
  rfl

theorem stale_queue {st : SweepState F} {x : EndId} (q : List EndId) : isStale { st with queue := q } x = isStale st x := rfl

/-- At the end there are only endpoints without effect. -/
theorem run_drain (hs : lib.SearchHonest) (hh : HeapOk lib Heap) {st : SweepState F} (ho : Ordered st.arena) : ∀ (k : Nat) (S q' : List EndId), S.length = k → (∀ x ∈ S, isStale st x = true) →
    SameQueue Heap S st.arena [] q' → ∃ N, ∀ fuel, N ≤ fuel → sweepLoop lib n fuel { st with queue := q' } = .ok { st with queue := [] }
  | 0, S, q', hk, _, hq => by
    have hS : S = [] := List.length_eq_zero_iff.1 hk
    subst hS
    have hn : q' = [] := List.Perm.nil_eq (by simpa using hq.perm.symm) |>.symm
    subst hn
    refine ⟨1, fun fuel hf => ?_⟩
    obtain ⟨f, rfl⟩ : ∃ f, fuel = f + 1 := ⟨fuel - 1, by omega⟩
    unfold sweepLoop
    dsimp only
    rw [hh.pop_nil, Res.bind_ok]
    rfl
  | k + 1, S, q', hk, hS, hq => by
    have hne : q' ≠ [] := by
      rintro rfl
      have := hq.perm.length_eq
      simp [hk] at this
    obtain ⟨x, q'', h1, h2, h3, h4⟩ := hh.pop st.arena.endCmp q' hne (ho.mono hq.range) hq.heap
    have hx : x ∈ S := by
      have := hq.perm.mem_iff.1 (h2.mem_iff.2 (List.mem_cons_self ..))
      simpa using this
    have hp : S.Perm (x :: S.erase x) := List.perm_cons_erase hx
    have hq2 : SameQueue Heap (S.erase x) st.arena [] q'' := by
      refine ⟨?_, h3, fun y hy => hq.range y (h2.mem_iff.2 (List.mem_cons_of_mem _ hy)), hq.sorted⟩
      rw [List.nil_append]
      have : (x :: q'').Perm (x :: S.erase x) := h2.symm.trans ((by simpa using hq.perm : q'.Perm S).trans hp)
      exact this.cons_inv
    obtain ⟨N, hN⟩ := run_drain hs hh ho k (S.erase x) q'' (by rw [List.length_erase_of_mem hx]; omega) (fun y hy => hS y (List.mem_of_mem_erase hy)) hq2
    refine ⟨N + 1, fun fuel hf => ?_⟩
    obtain ⟨f, rfl⟩ : ∃ f, fuel = f + 1 := ⟨fuel - 1, by omega⟩
    unfold sweepLoop
    dsimp only
    rw [h1, Res.bind_ok]
    dsimp only
    rw [stale_end hs (hS x hx) q'', Res.bind_ok]
    exact hN f (by omega)

/-- Before the next endpoint that has an effect, there may be others. -/
theorem run_pop (hs : lib.SearchHonest) (hh : HeapOk lib Heap) {st : SweepState F} (ho : Ordered st.arena) {x : EndId} {q : List EndId} (hx : ∀ y ∈ q, st.arena.endCmp x y = .ok .lt) :
    ∀ (k : Nat) (S q' : List EndId), S.length = k → (∀ x ∈ S, isStale st x = true) → SameQueue Heap S st.arena (x :: q) q' →
      ∃ S2 q2 N, S2.Subperm S ∧ (∀ y ∈ S2, st.arena.endCmp y x ≠ .ok .lt) ∧ SameQueue Heap S2 st.arena q q2 ∧
        ∀ fuel, sweepLoop lib n (N + 1 + fuel) { st with queue := q' } = (sweepEnd lib n { st with queue := q2 } x.1 x.2 >>= fun st' => sweepLoop lib n fuel st')
  | k, S, q', hk, hS, hq => by
    have hne : q' ≠ [] := by
      rintro rfl
      have := hq.perm.length_eq
      simp at this
    have hxq : x ∈ q' := hq.perm.mem_iff.2 (by simp)
    obtain ⟨y, q'', h1, h2, h3, h4⟩ := hh.pop st.arena.endCmp q' hne (ho.mono hq.range) hq.heap
    have hr2 : ∀ z ∈ q'', z.1 < st.arena.length := fun z hz => hq.range z (h2.mem_iff.2 (List.mem_cons_of_mem _ hz))
    by_cases hyx : y = x
    · subst hyx
      have hp : q''.Perm (q ++ S) := (h2.symm.trans hq.perm).cons_inv
      refine ⟨S, q'', 0, List.Subperm.refl S, fun s hs' hlt => ?_, ⟨hp, h3, hr2, (List.pairwise_cons.1 hq.sorted).2⟩, fun fuel => ?_⟩
      · have hsq : s ∈ q'' := hp.mem_iff.2 (List.mem_append_right _ hs')
        obtain ⟨o, e1, e2⟩ := ho.total y s (hq.range y hxq) (hr2 s hsq)
        rw [hlt, Res.ok.injEq] at e2
        cases o <;> simp at e2
        exact h4 s hsq e1
      · rw [show 0 + 1 + fuel = fuel + 1 by omega, sweepLoop]
        dsimp only
        rw [h1, Res.bind_ok]
    · have hxq2 : x ∈ q'' := by
        rcases List.mem_cons.1 (h2.mem_iff.1 hxq) with h | h
        · exact absurd h.symm hyx
        · exact h
      have hyr : y.1 < st.arena.length := hq.range y (h2.mem_iff.2 (List.mem_cons_self ..))
      have hy : y ∈ S := by
        have := hq.perm.mem_iff.1 (h2.mem_iff.2 (List.mem_cons_self ..))
        rcases List.mem_append.1 this with h | h
        · exfalso
          rcases List.mem_cons.1 h with h | h
          · exact hyx h
          · have hlt := hx y h
            obtain ⟨o, e1, e2⟩ := ho.total x y (hr2 x hxq2) hyr
            rw [hlt, Res.ok.injEq] at e1
            subst e1
            exact h4 x hxq2 e2
        · exact h
      have hp : S.Perm (y :: S.erase y) := List.perm_cons_erase hy
      have hq2 : SameQueue Heap (S.erase y) st.arena (x :: q) q'' := by
        refine ⟨?_, h3, hr2, hq.sorted⟩
        have : (y :: q'').Perm (y :: ((x :: q) ++ S.erase y)) := by
          refine h2.symm.trans (hq.perm.trans ?_)
          refine (hp.append_left (x :: q)).trans ?_
          exact List.perm_middle
        exact this.cons_inv
      cases k with
      | zero =>
        have := List.length_pos_of_mem hy
        omega
      | succ k =>
        obtain ⟨S2, q2, N, e1, e2, e3, e4⟩ := run_pop hs hh ho hx k (S.erase y) q'' (by rw [List.length_erase_of_mem hy]; omega) (fun z hz => hS z (List.mem_of_mem_erase hz)) hq2
        refine ⟨S2, q2, N + 1, e1.trans (List.erase_subperm ..), e2, e3, fun fuel => ?_⟩
        rw [show N + 1 + 1 + fuel = (N + 1 + fuel) + 1 by omega, sweepLoop]
        dsimp only
        rw [h1, Res.bind_ok]
        dsimp only
        rw [stale_end hs (hS y hy) q'', Res.bind_ok]
        exact e4 fuel

theorem loop_ext : ∀ (fuel : Nat) {st st2 : SweepState F} {S : List EndId}, checkedLoop n fuel st S = .ok st2 → Ext st.arena st2.arena ∧ st2.queue = []
  | 0, st, st2, S, h => by cases h
  | fuel + 1, st, st2, S, h => by
    unfold checkedLoop at h
    split at h
    · split at h
      · rename_i hq
        cases h; exact ⟨Ext.refl _, hq⟩
      · rename_i q _
        split at h
        · exact loop_ext fuel (st := { st with queue := q }) h
        · split at h
          · obtain ⟨st', h1, h⟩ := Res.bind_eq_ok h
            have := loop_ext fuel h
            exact ⟨(ext_end h1).trans this.1, this.2⟩
          · cases h
    · cases h

/-- The whole sweep. -/
theorem run_loop (hl : lib.Lawful) (hs : lib.SearchHonest) (hh : HeapOk lib Heap) : ∀ (fuel : Nat) {st st2 : SweepState F} {P S q' : List EndId}, checkedLoop n fuel st P = .ok st2 → Ordered st2.arena →
    S.Subperm P → SameQueue Heap S st.arena st.queue q' → ∃ N, ∀ fuel, N ≤ fuel → sweepLoop lib n fuel { st with queue := q' } = .ok st2
  | 0, st, st2, P, S, q', h, _, _, _ => by cases h
  | fuel + 1, st, st2, P, S, q', h, ho, hsub, hq => by
    have he := (loop_ext _ h).1
    have ho1 := ho.ext he
    unfold checkedLoop at h
    split at h
    · rename_i hall
      rw [List.all_eq_true] at hall
      have hS : ∀ x ∈ S, isStale st x = true := fun x hx => hall x (hsub.subset hx)
      split at h
      · rename_i hq0
        cases h
        rw [hq0] at hq
        obtain ⟨N, hN⟩ := run_drain (n := n) hs hh ho1 S.length S q' rfl hS hq
        refine ⟨N, fun fuel hf => ?_⟩
        rw [hN fuel hf, ← hq0]
      · rename_i x q hxq
        rw [hxq] at hq
        split at h
        · rename_i hst
          have hq2 : SameQueue Heap (x :: S) st.arena q q' := ⟨hq.perm.trans (by rw [List.cons_append]; exact List.perm_middle.symm), hq.heap, hq.range, (List.pairwise_cons.1 hq.sorted).2⟩
          exact run_loop hl hs hh fuel (st := { st with queue := q }) h ho ((List.subperm_cons x).2 hsub) hq2
        · split at h
          · rename_i hlt
            have hlt : ∀ y ∈ q, st.arena.endCmp x y = .ok .lt := by
              cases q with
              | nil => simp
              | cons y q =>
                simp only [List.head?_cons, Option.all_some, decide_eq_true_eq] at hlt
                intro z hz
                rcases List.mem_cons.1 hz with rfl | hz
                · exact hlt
                · have hr : ∀ w ∈ x :: y :: q, w.1 < st.arena.length := fun w hw => hq.range w (hq.perm.mem_iff.2 (List.mem_append_left _ hw))
                  have hs2 := (List.pairwise_cons.1 (List.pairwise_cons.1 hq.sorted).2).1 z hz
                  have rx := hr x (by simp)
                  have ry := hr y (by simp)
                  have rz := hr z (by simp [hz])
                  obtain ⟨o2, e2, -⟩ := ho1.total y z ry rz
                  obtain ⟨o3, e3, -⟩ := ho1.total x z rx rz
                  have := ho1.trans x y z .lt o2 o3 rx ry rz hlt e2 e3 (by decide) (by rintro rfl; exact hs2 e2)
                  rw [e3]
                  cases o3 with
                  | lt => rfl
                  | eq => exact absurd (this.2 rfl).1 (by decide)
                  | gt => exact absurd rfl this.1
            obtain ⟨st', h1, h⟩ := Res.bind_eq_ok h
            obtain ⟨S2, q2, N, e1, e2, e3, e4⟩ := run_pop (n := n) hs hh ho1 hlt S.length S q' rfl hS hq
            obtain ⟨q3, e5, hq3⟩ := run_end hl hh (st := { st with queue := q }) h1 (ho.ext (loop_ext _ h).1) e3
            have hsub2 : S2.Subperm (P.filter fun y => decide (st.arena.endCmp y x ≠ .ok .lt)) := by
              have hf : S2.filter (fun y => decide (st.arena.endCmp y x ≠ .ok .lt)) = S2 := List.filter_eq_self.2 fun y hy => decide_eq_true (e2 y hy)
              rw [← hf]
              exact (e1.trans hsub).filter _
            obtain ⟨M, hM⟩ := run_loop hl hs hh fuel h ho hsub2 hq3
            refine ⟨N + 1 + M, fun fuel' hf => ?_⟩
            obtain ⟨f, rfl⟩ : ∃ f, fuel' = N + 1 + f := ⟨fuel' - (N + 1), by omega⟩
            rw [e4 f]
            dsimp only at e5
            rw [e5, Res.bind_ok]
            exact hM f (by omega)
          · cases h
    · cases h

/-! ### Before the sweep -/

theorem ext_addSegments {lib : Lib} {i : Nat} {mode : PolygonMode} : ∀ {l : List (Pt F × Pt F)} {st st2 : SweepState F}, addSegments lib n i mode l st = .ok st2 → Ext st.arena st2.arena
  | [], st, st2, h => by cases h; exact Ext.refl _
  | (p, q) :: l, st, st2, h => by
    unfold addSegments at h
    split at h
    · exact ext_addSegments h
    · obtain ⟨s, -, h⟩ := Res.bind_eq_ok h
      obtain ⟨q1, -, h⟩ := Res.bind_eq_ok h
      obtain ⟨q2, -, h⟩ := Res.bind_eq_ok h
      exact (Ext.append st.arena [s]).trans (ext_addSegments h)

theorem ext_addContours {lib : Lib} {i : Nat} {mode : PolygonMode} : ∀ {l : List (Contour F)} {st st2 : SweepState F}, addContours lib n i mode l st = .ok st2 → Ext st.arena st2.arena
  | [], st, st2, h => by cases h; exact Ext.refl _
  | c :: l, st, st2, h => by
    unfold addContours at h
    obtain ⟨s, -, h⟩ := Res.bind_eq_ok h
    obtain ⟨st1, h1, h⟩ := Res.bind_eq_ok h
    exact (ext_addSegments h1).trans (ext_addContours h)

theorem ext_addPolygons {lib : Lib} : ∀ {l : List (Polygon F × PolygonMode)} {i : Nat} {st st2 : SweepState F}, addPolygons lib n i l st = .ok st2 → Ext st.arena st2.arena
  | [], i, st, st2, h => by cases h; exact Ext.refl _
  | (p, mode) :: l, i, st, st2, h => by
    unfold addPolygons at h
    obtain ⟨st1, h1, h⟩ := Res.bind_eq_ok h
    exact (ext_addContours h1).trans (ext_addPolygons h)

theorem run_addSegments (hh : HeapOk lib Heap) {i : Nat} {mode : PolygonMode} : ∀ {l : List (Pt F × Pt F)} {st st2 : SweepState F} {q' : List EndId}, addSegments checkedLib n i mode l st = .ok st2 →
    Ordered st2.arena → SameQueue Heap S st.arena st.queue q' → ∃ q2, addSegments lib n i mode l { st with queue := q' } = .ok { st2 with queue := q2 } ∧ SameQueue Heap S st2.arena st2.queue q2
  | [], st, st2, q', h, _, hq => by cases h; exact ⟨q', rfl, hq⟩
  | (p, q) :: l, st, st2, q', h, ho, hq => by
    unfold addSegments at h ⊢
    split at h
    · rename_i hb
      rw [if_pos hb]
      exact run_addSegments hh h ho hq
    · rename_i hb
      rw [if_neg hb]
      obtain ⟨s, h1, h⟩ := Res.bind_eq_ok h
      obtain ⟨q1, h2, h⟩ := Res.bind_eq_ok h
      obtain ⟨q2, h3, h⟩ := Res.bind_eq_ok h
      have ho' : Ordered (st.arena ++ [s]) := ho.ext (ext_addSegments h)
      have hlen : (st.arena ++ [s]).length = st.arena.length + 1 := by simp
      obtain ⟨p1, e1, hq1⟩ := (hq.ext hh (Ext.append st.arena [s])).push hh ho' (by rw [hlen]; dsimp only; omega) h2
      obtain ⟨p2, e2, hq2⟩ := hq1.push hh ho' (by rw [hlen]; dsimp only; omega) h3
      dsimp only
      rw [h1, Res.bind_ok, e1, Res.bind_ok, e2, Res.bind_ok]
      exact run_addSegments hh (st := { st with arena := st.arena ++ [s], queue := q2 }) h ho hq2

theorem run_addContours (hh : HeapOk lib Heap) {i : Nat} {mode : PolygonMode} : ∀ {l : List (Contour F)} {st st2 : SweepState F} {q' : List EndId}, addContours checkedLib n i mode l st = .ok st2 →
    Ordered st2.arena → SameQueue Heap S st.arena st.queue q' → ∃ q2, addContours lib n i mode l { st with queue := q' } = .ok { st2 with queue := q2 } ∧ SameQueue Heap S st2.arena st2.queue q2
  | [], st, st2, q', h, _, hq => by cases h; exact ⟨q', rfl, hq⟩
  | c :: l, st, st2, q', h, ho, hq => by
    unfold addContours at h ⊢
    obtain ⟨s, h0, h⟩ := Res.bind_eq_ok h
    obtain ⟨st1, h1, h⟩ := Res.bind_eq_ok h
    obtain ⟨q1, e1, hq1⟩ := run_addSegments hh h1 (ho.ext (ext_addContours h)) hq
    rw [h0, Res.bind_ok, e1, Res.bind_ok]
    exact run_addContours hh h ho hq1

theorem run_addPolygons (hh : HeapOk lib Heap) : ∀ {l : List (Polygon F × PolygonMode)} {i : Nat} {st st2 : SweepState F} {q' : List EndId}, addPolygons checkedLib n i l st = .ok st2 →
    Ordered st2.arena → SameQueue Heap S st.arena st.queue q' → ∃ q2, addPolygons lib n i l { st with queue := q' } = .ok { st2 with queue := q2 } ∧ SameQueue Heap S st2.arena st2.queue q2
  | [], i, st, st2, q', h, _, hq => by cases h; exact ⟨q', rfl, hq⟩
  | (p, mode) :: l, i, st, st2, q', h, ho, hq => by
    unfold addPolygons at h ⊢
    obtain ⟨st1, h1, h⟩ := Res.bind_eq_ok h
    obtain ⟨q1, e1, hq1⟩ := run_addContours hh h1 (ho.ext (ext_addPolygons h)) hq
    rw [e1, Res.bind_ok]
    exact run_addPolygons hh h ho hq1

end Idc
