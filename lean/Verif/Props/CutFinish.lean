import Verif.Props.CutTrace
/-!
# The result of the run on the edges is that of the run on the pieces, for C84
-/

namespace Idc

namespace Cut

open Plan

variable {G : Plan} {C : Cut G} {Heap : (EndId → EndId → Res Ordering) → List EndId → Prop} {g : Ghost} {st st' : SweepState ℝ}

theorem Rel.whole (h : Rel C Heap g st st') (hq : st'.queue = []) {i : ℕ} (hi : i < st.arena.length) (hl : Live g i) : g.lst i = g.fst i := by
  have := h.last (g.fst i) (h.arenas.covers.run i hi).left (by rw [hq]; simp)
  rwa [hl] at this

theorem Rel.twin (h : Rel C Heap g st st') (hq : st'.queue = []) : Twin (fun i => i < st.arena.length ∧ Live g i) g.fst st.arena st'.arena := by
  refine ⟨fun i j hi hj e => hi.2.inj hj.2 e, ?_, ?_⟩
  · rintro i ⟨hi, hl⟩
    obtain ⟨s, hs, is⟩ := h.arenas.seg i hi
    obtain ⟨s', hs', is'⟩ := h.arenas.has.seg _ (h.arenas.covers.run i hi).left
    have hd := h.arenas.sim i hi hl (by rw [hq]; simp)
    rw [dat_of hs, dat_of hs'] at hd
    rw [h.whole hq hi hl] at is
    exact ⟨s, s', hs, hs', by rw [is.left, is'.left], by rw [is.right, is'.right], by rw [is.order, is'.order], is.index, is'.index, hd.eq⟩
  · rintro i ⟨hi, hl⟩ s hs b hb
    refine h.arenas.below i hi hl b ?_
    rw [dat_of hs]; exact hb

theorem Rel.segCmp (h : Rel C Heap g st st') (hq : st'.queue = []) {a b : ℕ} (ha : a < st.arena.length ∧ Live g a) (hb : b < st.arena.length ∧ Live g b) :
    (∃ o, st.arena.segCmp a b = .ok o) ∧ ∃ o, st'.arena.segCmp (g.fst a) (g.fst b) = .ok o := by
  have hT := h.twin hq
  obtain ⟨s, s', e1, e2, e3, e4, e5, e6, e7, e8⟩ := hT.get a ha
  obtain ⟨t, t', f1, f2, f3, f4, f5, f6, f7, f8⟩ := hT.get b hb
  obtain ⟨u, hu, iu⟩ := h.inv.has.seg _ (h.arenas.covers.run a ha.1).left
  obtain ⟨v, hv, iv⟩ := h.inv.has.seg _ (h.arenas.covers.run b hb.1).left
  rw [e2] at hu
  cases hu
  rw [f2] at hv
  cases hv
  obtain ⟨o', ho', _⟩ := segCmp_plan iu iv
  have hc := cmp_twin e3 e4 e5 f3 f4 f5 (by
    rw [e6, e7, f6, f7]
    exact ⟨fun e => by rw [e], fun e => hT.inj _ _ ha hb e⟩)
  unfold Arena.segCmp
  rw [index_of e1, index_of f1, index_of e2, index_of f2]
  simp only [Res.bind_ok]
  rw [ho'] at hc ⊢
  refine ⟨?_, o', rfl⟩
  rcases hs : s.cmp t with o | _ | _ | _ <;> rw [hs] at hc
  · exact ⟨o, rfl⟩
  all_goals exact hc.elim

theorem finish_cut {lib : Lib} (hl : lib.Lawful) (h : Rel C Heap g st st') (hq : st'.queue = []) (fuel : ℕ) (modes : List PolygonMode) :
    finish lib fuel modes st = finish lib fuel modes st' := by
  have hT := h.twin hq
  have hS : ∀ i, i < st.arena.length ∧ Live g i → g.fst i ∈ G.S := fun i hi => (h.arenas.covers.run i hi.1).left
  unfold finish
  rw [← h.swept]
  refine Alike.eq ((include_twin hT st.swept [] [] (fun i hi => ⟨(h.slive i hi).1, (h.slive i hi).2.1⟩)).bind fun r r' _ _ hr => ?_)
  obtain ⟨S, E⟩ := r
  obtain ⟨S', E'⟩ := r'
  obtain ⟨rfl, rfl, hSm, hEm⟩ := hr
  dsimp only at hSm hEm ⊢
  have hSl : ∀ i ∈ S, i < st.arena.length ∧ Live g i := fun i hi => by
    rcases hSm i hi with hi | hi
    · cases hi
    · exact ⟨(h.slive i hi).1, (h.slive i hi).2.1⟩
  have hEl : ∀ x ∈ E, x.1 < st.arena.length ∧ Live g x.1 := fun x hx => by
    rcases hEm x hx with hi | hi
    · cases hi
    · exact ⟨(h.slive _ hi).1, (h.slive _ hi).2.1⟩
  obtain ⟨segs, hsort1⟩ := hl.sort_returns st.arena.segCmp S (fun a ha b hb => (h.segCmp hq (hSl a ha) (hSl b hb)).1)
  obtain ⟨segs', hsort1'⟩ := hl.sort_returns st'.arena.segCmp (S.map g.fst) (fun a ha b hb => by
    obtain ⟨a', ha', rfl⟩ := List.mem_map.1 ha
    obtain ⟨b', hb', rfl⟩ := List.mem_map.1 hb
    exact (h.segCmp hq (hSl a' ha') (hSl b' hb')).2)
  rw [hsort1, hsort1']
  simp only [Res.bind_ok]
  have hES : ∀ x ∈ E.map (ren g.fst), x.1 ∈ G.S := by
    intro x hx
    obtain ⟨y, hy, rfl⟩ := List.mem_map.1 hx
    exact hS _ (hEl y hy)
  have himg : ∀ x ∈ E, img g x = ren g.fst x := by
    rintro ⟨i, e⟩ hx
    cases e
    · rfl
    · show (g.lst i, SegmentEnd.right) = _
      rw [h.whole hq (hEl _ hx).1 (hEl _ hx).2]
      rfl
  obtain ⟨inc', hs2', hp2', ho2'⟩ := hl.sort_sorts st'.arena.endCmp _ (endCmp_total h.inv.has hES)
  rw [hs2']
  obtain ⟨inc, hs2, hp2, ho2⟩ := hl.sort_sorts st.arena.endCmp E (h.arenas.runs.total fun x hx => (hEl x hx).1)
  have heq : inc' = inc.map (ren g.fst) := by
    have hm' : ∀ x ∈ inc', x.1 ∈ G.S := fun x hx => hES x (hp2'.mem_iff.1 hx)
    have hm : ∀ x ∈ inc.map (ren g.fst), x.1 ∈ G.S := fun x hx => hES x ((hp2.map (ren g.fst)).mem_iff.1 hx)
    have o1 : inc'.Pairwise fun x y => G.key x ≤ G.key y := ho2'.imp_of_mem fun {x y} hx hy hn => by
      rw [endCmp_key h.inv.has (hm' x hx) (hm' y hy)] at hn
      by_contra hc
      exact hn (by rw [compare_gt_iff_gt.2 (not_le.1 hc)])
    have o2 : (inc.map (ren g.fst)).Pairwise fun x y => G.key x ≤ G.key y := by
      rw [List.pairwise_map]
      refine ho2.imp_of_mem fun {x y} hx hy hn => ?_
      have hx := hp2.mem_iff.1 hx
      have hy := hp2.mem_iff.1 hy
      rw [h.arenas.runs.endCmp (hEl x hx).1 (hEl y hy).1, himg x hx, himg y hy] at hn
      by_contra hc
      exact hn (by rw [compare_gt_iff_gt.2 (not_le.1 hc)])
    exact List.Perm.eq_of_pairwise (fun a b ha hb h1 h2 => key_inj (hm' a ha) (hm b hb) (le_antisymm h1 h2)) o1 o2 (hp2'.trans (hp2.map _).symm)
  subst heq
  have hil : ∀ x ∈ inc, x.1 < st.arena.length ∧ Live g x.1 := fun x hx => hEl x (hp2.mem_iff.1 hx)
  rw [hs2]
  simp only [Res.bind_ok]
  refine (record_twin inc 0 hT hil).bind fun B B' _ _ hTB => ?_
  refine (all_twin hil inc hTB hil []).bind fun z z' _ _ hz => ?_
  obtain ⟨D, cs⟩ := z
  obtain ⟨D', cs'⟩ := z'
  obtain ⟨hTD, he⟩ := hz
  cases he
  dsimp only
  rw [neighbors_twin hTD inc _ hil]
  exact Alike.refl fun _ _ => rfl

end Cut

end Idc
