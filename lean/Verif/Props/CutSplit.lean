import Verif.Props.CutRuns
/-!
# Splitting a segment, for C84
-/

namespace Idc

namespace Cut

open Plan

variable {G : Plan} {C : Cut G} {Heap : (EndId → EndId → Res Ordering) → List EndId → Prop} {g : Ghost} {st st' : SweepState ℝ}

/-- What a split does. -/
theorem Rel.split {lib : Lib} (hl : lib.Lawful) (hh : HeapOk lib Heap) (h : Rel C Heap g st st') {i k m : ℕ} (hi : i ∈ st.active) (hj : C.Joint k m)
    (ck : g.cov k = i) (cm : g.cov m = i) : ∃ st2, splitSegment lib G.n st i (G.rp k) = .ok (st2, st.arena.length) ∧
      Rel C Heap (cut G g st.arena.length i k m) st2 st' ∧ st2.active = st.active.map (fun x => if x = i then st.arena.length else x) ∧
      st2.queue.length = st.queue.length + 3 ∧ st2.swept = st.swept ∧ st2.arena.length = st.arena.length + 2 := by
  set n := st.arena.length with hn
  set g' := cut G g n i k m with hg'
  obtain ⟨hin, hli⟩ := h.alive i hi
  have hA := h.arenas
  have hc := hA.covers
  obtain ⟨r1, r2⟩ := cut_within hc hj ck cm
  have rkm : C.Run k m := ⟨hj.left, hj.right, hj.own, hj.lt.le⟩
  have hc' : Covers C g' (n + 2) := cut_covers hc hin hli hj ck cm
  obtain ⟨q1, q2, q3⟩ := h.of_active hi
  obtain ⟨seg, hseg, is⟩ := hA.seg i hin
  have hS : g.fst i ∈ G.S := r1.left
  have dseg : dat st.arena i = seg.data := dat_of hseg
  have hps := hA.sim i hin hli q1
  have solid := h.inv.solid _ hS
  rw [dseg] at hps
  have hpoly : seg.data.polygon_index = G.poly (g.fst i) := by
    rw [← solid.polyi]; exact (congrArg SegmentPacket.polygon_index hps.eq :)
  have hlf : seg.data.left_faces_polygons.length = G.n := by
    have e : seg.data.left_faces_polygons = (dat st'.arena (g.fst i)).left_faces_polygons := (congrArg SegmentPacket.left_faces_polygons hps.eq :)
    rw [e, solid.left]
  have hrf : seg.data.right_faces_polygons.length = G.n := by
    have e : seg.data.right_faces_polygons = (dat st'.arena (g.fst i)).right_faces_polygons := (congrArg SegmentPacket.right_faces_polygons hps.eq :)
    rw [e, solid.right]
  have hmq : (m, SegmentEnd.left) ∈ st'.queue := by
    by_contra hq
    have e := h.first m hj.right hq
    rw [cm] at e
    have h1 := r1.le
    have h2 := hj.lt
    rw [e] at h1
    linarith
  have hkq : (k, SegmentEnd.right) ∈ st'.queue := by
    by_contra hq
    have e := h.last k hj.left hq
    rw [ck] at e
    have h2 := r2.le
    have h1 := hj.lt
    rw [e] at h2
    linarith
  -- the parts
  obtain ⟨left, hleft, il, dl⟩ := new_run (i := n) r1 seg.data.polygon_index seg.data hpoly
  obtain ⟨right, hright, ir, dr⟩ := new_run (i := n + 1) r2 seg.data.polygon_index (SegmentPacket.new seg.data.polygon_index seg.data.mode G.n)
    (hpoly.trans (C.poly _ hS _ hj.right (r1.own.trans hj.own)))
  set right' : BoolSegment ℝ := { right with data := { right.data with
    left_faces_polygons := seg.data.left_faces_polygons, right_faces_polygons := seg.data.right_faces_polygons } } with hright'
  have ir' : Seg G m (g.lst i) (n + 1) right' := ⟨ir.left, ir.right, ir.index, ir.order⟩
  set A := st.arena ++ [left, right'] with hAdef
  have hAlen : A.length = n + 2 := by rw [hAdef, List.length_append]; rfl
  have get1 : ∀ j < n, A[j]? = st.arena[j]? := fun j hj => List.getElem?_append_left hj
  have get2 : A[n]? = some left := by rw [hAdef, List.getElem?_append_right (le_refl _), ← hn, Nat.sub_self]; rfl
  have get3 : A[n + 1]? = some right' := by rw [hAdef, List.getElem?_append_right (by omega), ← hn, Nat.add_sub_cancel_left]; rfl
  have hR : Runs C g' A := by
    refine ⟨fun j hj => hc'.run j (by omega), fun j hj => ?_⟩
    rcases (by omega : j < n ∨ j = n ∨ j = n + 1) with h | h | h
    · obtain ⟨s, hs, is⟩ := hA.seg j h
      refine ⟨s, (get1 j h).trans hs, ?_⟩
      rw [hg', cut_fst h, cut_lst h]; exact is
    · subst h
      refine ⟨left, get2, ?_⟩
      rw [hg', cut_fst_n, cut_lst_n]; exact il
    · rw [h]
      refine ⟨right', get3, ?_⟩
      rw [hg', cut_fst_n1, cut_lst_n1]; exact ir'
  -- the sweep line
  have hst := h.inv.lower
  rw [← h.active] at hst
  obtain ⟨l₁, l₂, hact⟩ := List.append_of_mem hi
  have hlt : ∀ j ∈ l₁ ++ i :: l₂, j < n := fun j hj => (h.alive j (by rw [hact]; exact hj)).1
  have hnd : (l₁ ++ i :: l₂).Nodup := by
    rw [← hact]; exact List.Nodup.of_map _ (hst.imp Lower.ne)
  have hmap : (l₁ ++ i :: l₂).map g'.fst = st.active.map g.fst := by
    rw [hact]
    refine List.map_congr_left fun j hj => cut_fst (hlt j hj)
  have hmap' : (l₁ ++ n :: l₂).map g'.fst = st.active.map g.fst := by
    rw [← hmap]
    simp only [List.map_append, List.map_cons]
    rw [hg', cut_fst_n, cut_fst hin]
  obtain ⟨c1, c2⟩ := hR.search (l₁ := l₁) (l₂ := l₂) (i := i) (fun j hj => by have := hlt j hj; omega) (by rw [hmap]; exact hst)
  obtain ⟨c3, c4⟩ := hR.search (l₁ := l₁) (l₂ := l₂) (i := n) (fun j hj => by
    rw [List.mem_append, List.mem_cons] at hj
    rcases hj with hj | hj | hj
    · have := hlt j (by simp [hj]); omega
    · omega
    · have := hlt j (by simp [hj]); omega) (by rw [hmap']; exact hst)
  have hrem : SweepLine2.remove lib (Arena.segCmp A) i st.active = .ok (true, l₁ ++ l₂) := by
    unfold SweepLine2.remove
    rw [hact, hl.search_found _ _ _ _ _ c1 (hR.segCmp_self (by omega)) c2]
    simp only [Res.bind_ok]
    rw [if_pos trivial, eraseIdx_len]
    rfl
  have hins : SweepLine2.insert lib (Arena.segCmp A) n (l₁ ++ l₂) = .ok (l₁ ++ n :: l₂) := by
    unfold SweepLine2.insert
    rw [hl.search_missing _ _ _ _ c3 c4]
    simp only [Res.bind_ok]
    rw [if_neg (by decide), insertIdx_len]
    rfl
  -- the queue
  have img_old : ∀ x : EndId, x.1 < n → img g x = img g' x := by
    rintro ⟨j, e⟩ hj
    cases e
    · show (g.fst j, SegmentEnd.left) = (g'.fst j, SegmentEnd.left)
      rw [hg', cut_fst hj]
    · show (g.lst j, SegmentEnd.right) = (g'.lst j, SegmentEnd.right)
      rw [hg', cut_lst hj]
  have hq0 : Heap A.endCmp st.queue := hA.runs.heap hh hR h.qlt (fun x hx => by have := h.qlt x hx; omega) (fun x hx => img_old x (h.qlt x hx)) h.heap
  obtain ⟨Q1, p1, e1, h1⟩ := hh.push A.endCmp (n, .right) st.queue (hR.total fun x hx => by
    rcases List.mem_cons.1 hx with rfl | hx
    · show n < _; omega
    · have := h.qlt x hx; omega) hq0
  have m1 : ∀ x ∈ Q1, x.1 < A.length := fun x hx => by
    rw [e1.mem_iff, List.mem_cons] at hx
    rcases hx with rfl | hx
    · show n < _; omega
    · have := h.qlt x hx; omega
  obtain ⟨Q2, p2, e2, h2⟩ := hh.push A.endCmp (n + 1, .left) Q1 (hR.total fun x hx => by
    rcases List.mem_cons.1 hx with rfl | hx
    · show n + 1 < _; omega
    · exact m1 x hx) h1
  have m2 : ∀ x ∈ Q2, x.1 < A.length := fun x hx => by
    rw [e2.mem_iff, List.mem_cons] at hx
    rcases hx with rfl | hx
    · show n + 1 < _; omega
    · exact m1 x hx
  obtain ⟨Q3, p3, e3, h3⟩ := hh.push A.endCmp (n + 1, .right) Q2 (hR.total fun x hx => by
    rcases List.mem_cons.1 hx with rfl | hx
    · show n + 1 < _; omega
    · exact m2 x hx) h2
  have eQ : Q3.Perm ((n + 1, .right) :: (n + 1, .left) :: (n, .right) :: st.queue) :=
    e3.trans (List.Perm.cons _ (e2.trans (List.Perm.cons _ e1)))
  have m3 : ∀ x ∈ Q3, x.1 < A.length := fun x hx => by
    rw [e3.mem_iff, List.mem_cons] at hx
    rcases hx with rfl | hx
    · show n + 1 < _; omega
    · exact m2 x hx
  have memQ : ∀ x : EndId, x ∈ Q3 ↔ x = (n + 1, .right) ∨ x = (n + 1, .left) ∨ x = (n, .right) ∨ x ∈ st.queue := fun x => by
    rw [eQ.mem_iff]; simp only [List.mem_cons]
  have hRr := hR.redirect i n
  have hrlen : (A.redirect i n).length = n + 2 := by unfold Arena.redirect; rw [List.length_map, hAlen]
  have hbelow : ∀ j < n, Live g j → ∀ b, (dat st.arena j).below_in_result = some b → b < n := fun j hj hlj b hb => (hA.below j hj hlj b hb).1
  -- the data
  have dat1 : ∀ j < n, dat (A.redirect i n) j = turn i n (dat st.arena j) := by
    intro j hj
    obtain ⟨s, hs, _⟩ := hA.seg j hj
    rw [dat_of (redirect_get ((get1 j hj).trans hs)), dat_of hs]
  have dat2 : dat (A.redirect i n) n = turn i n (dat st.arena i) := by
    rw [dat_of (redirect_get get2), dseg]
    show turn i n left.data = _
    rw [dl]
  have dat3 : dat (A.redirect i n) (n + 1) = { SegmentPacket.new seg.data.polygon_index seg.data.mode G.n with
      left_faces_polygons := seg.data.left_faces_polygons, right_faces_polygons := seg.data.right_faces_polygons } := by
    rw [dat_of (redirect_get get3)]
    show turn i n { right.data with left_faces_polygons := _, right_faces_polygons := _ } = _
    rw [dr]
    unfold turn
    rw [if_neg (by show ¬ (none = some i); simp)]
  refine ⟨⟨A.redirect i n, Q3, l₁ ++ n :: l₂, st.swept⟩, ?_, ?_, ?_, ?_, rfl, hrlen⟩
  · unfold splitSegment
    have e0 : index st.arena i = .ok seg := by unfold index; rw [hseg]
    rw [e0]
    simp only [Res.bind_ok]
    rw [is.left, is.right, hleft]
    simp only [Res.bind_ok]
    rw [hj.meet, hright]
    simp only [Res.bind_ok]
    rw [dr, dl, bvUnion_clear (by show (List.replicate G.n false).length = _; rw [List.length_replicate, hlf])]
    simp only [Res.bind_ok]
    rw [bvUnion_clear (by show (List.replicate G.n false).length = _; rw [List.length_replicate, hrf])]
    simp only [Res.bind_ok]
    have eA : st.arena ++ [left, { right with data := { SegmentPacket.new seg.data.polygon_index seg.data.mode G.n with
        left_faces_polygons := seg.data.left_faces_polygons, right_faces_polygons := seg.data.right_faces_polygons } }] = A := by
      rw [hAdef, hright', dr]
    rw [eA, hrem]
    simp only [Res.bind_ok]
    rw [if_neg (by decide), hins]
    simp only [Res.bind_ok]
    rw [p1]
    simp only [Res.bind_ok]
    rw [p2]
    simp only [Res.bind_ok]
    rw [p3]
    rfl
  · have hl' : ∀ j < n, (Live g' j ↔ Live g j ∧ j ≠ i) := fun j hj => cut_live hin hj
    have hln : Live g' n := cut_live_n hc hli hj ck cm
    have hln1 : Live g' (n + 1) := cut_live_n1 hc hli hj ck cm
    refine { inv := h.inv, arenas := ?_, plain := h.plain, heap := ?_, qlt := ?_, qnodup := ?_, qleft := ?_, qright := ?_, active := ?_, alive := ?_,
             swept := ?_, slive := ?_, first := ?_, last := ?_ }
    · refine ⟨by rw [hrlen]; exact hc', hRr.seg, hA.has, ?_, ?_, ?_⟩
      · intro j hjn hlj hst
        rw [hrlen] at hjn
        rcases (by omega : j < n ∨ j = n ∨ j = n + 1) with e | e | e
        · have hlj := ((hl' j e).1 hlj).1
          rw [dat1 j e, hg', cut_fst e]
          rw [hg', cut_fst e] at hst
          exact (hA.sim j e hlj hst).turn (hbelow j e hlj)
        · rw [e, dat2, hg', cut_fst_n]
          exact (hA.sim i hin hli q1).turn (hbelow i hin hli)
        · rw [e, hg', cut_fst_n1] at hst
          exact absurd hmq hst
      · intro j hjn hlj
        rw [hrlen] at hjn
        rcases (by omega : j < n ∨ j = n ∨ j = n + 1) with e | e | e
        · have hlj := ((hl' j e).1 hlj).1
          rw [dat1 j e, hg', cut_fst e]
          exact (hA.fresh j e hlj).turn (hbelow j e hlj)
        · rw [e, dat2, hg', cut_fst_n]
          exact (hA.fresh i hin hli).turn (hbelow i hin hli)
        · rw [e, dat3, hg', cut_fst_n1]
          obtain ⟨mode, hm⟩ := h.plain m hj.right hmq
          refine ⟨?_, hps.mode.trans ((h.inv.solid _ hS).mode.trans (by rw [C.poly _ hS _ hj.right (r1.own.trans hj.own)]; exact (h.inv.solid m hj.right).mode.symm))⟩
          rw [hm]
          have e1 : bvClear seg.data.left_faces_polygons = bvClear (List.replicate G.n false) := by
            unfold bvClear; rw [List.map_const', List.map_const', hlf, List.length_replicate]
          have e2 : bvClear seg.data.right_faces_polygons = bvClear (List.replicate G.n false) := by
            unfold bvClear; rw [List.map_const', List.map_const', hrf, List.length_replicate]
          have e3 : seg.data.polygon_index = G.poly m := hpoly.trans (C.poly _ hS _ hj.right (r1.own.trans hj.own))
          unfold bare view SegmentPacket.new
          simp only [SegmentPacket.mk.injEq, e1, e2, e3, Option.map, true_and, and_true]
      · intro j hjn hlj b hb
        rw [hrlen] at hjn ⊢
        have key : ∀ j < n, Live g j → (turn i n (dat st.arena j)).below_in_result = some b → b < n + 2 ∧ Live g' b := by
          intro j hj hlj hb
          unfold turn at hb
          split at hb
          · cases hb
            exact ⟨by omega, hln⟩
          · rename_i hne
            obtain ⟨h1, h2⟩ := hA.below j hj hlj b hb
            exact ⟨by omega, (hl' b h1).2 ⟨h2, fun e => hne (e ▸ hb)⟩⟩
        rcases (by omega : j < n ∨ j = n ∨ j = n + 1) with e | e | e
        · have hlj := ((hl' j e).1 hlj).1
          rw [dat1 j e] at hb
          exact key j e hlj hb
        · rw [e, dat2] at hb
          exact key i hin hli hb
        · rw [e, dat3] at hb
          cases hb
    · exact hR.heap hh hRr m3 (fun x hx => by have := m3 x hx; show _ < (A.redirect i n).length; omega) (fun _ _ => rfl) h3
    · intro x hx
      have := m3 x hx
      show _ < (A.redirect i n).length
      omega
    · show Q3.Nodup
      rw [eQ.nodup_iff]
      have hq : ∀ x : EndId, n ≤ x.1 → x ∉ st.queue := fun x hx hx' => by have := h.qlt x hx'; omega
      simp only [List.nodup_cons, List.mem_cons, not_or]
      refine ⟨⟨by simp, by simp, hq _ (by show n ≤ n + 1; omega)⟩, ⟨by simp, hq _ (by show n ≤ n + 1; omega)⟩, hq _ (le_refl n), h.qnodup⟩
    · intro j hjn
      change j < (A.redirect i n).length at hjn
      rw [hrlen] at hjn
      show (j, SegmentEnd.left) ∈ Q3 ↔ _
      rw [memQ]
      rcases (by omega : j < n ∨ j = n ∨ j = n + 1) with e | e | e
      · rw [hl' j e, hg', cut_fst e]
        have := h.qleft j e
        constructor
        · rintro (h1 | h1 | h1 | h1)
          · cases h1
          · cases h1; omega
          · cases h1
          · have := this.1 h1
            refine ⟨⟨this.1, fun e' => ?_⟩, this.2⟩
            rw [e'] at this
            exact q1 this.2
        · rintro ⟨⟨h1, _⟩, h2⟩
          exact Or.inr (Or.inr (Or.inr (this.2 ⟨h1, h2⟩)))
      · subst e
        constructor
        · rintro (h1 | h1 | h1 | h1)
          · cases h1
          · cases h1
          · cases h1
          · have := h.qlt _ h1
            dsimp only at this
            omega
        · rintro ⟨_, h1⟩
          rw [hg', cut_fst_n] at h1
          exact absurd h1 q1
      · rw [e, hg', cut_fst_n1]
        exact ⟨fun _ => ⟨hln1, hmq⟩, fun _ => Or.inr (Or.inl rfl)⟩
    · intro j hjn hlj
      change j < (A.redirect i n).length at hjn
      rw [hrlen] at hjn
      show (j, SegmentEnd.right) ∈ Q3 ↔ _
      rw [memQ]
      rcases (by omega : j < n ∨ j = n ∨ j = n + 1) with e | e | e
      · have hlj := ((hl' j e).1 hlj).1
        rw [hg', cut_lst e]
        have := h.qright j e hlj
        constructor
        · rintro (h1 | h1 | h1 | h1)
          · cases h1; omega
          · cases h1
          · cases h1; omega
          · exact this.1 h1
        · intro h1
          exact Or.inr (Or.inr (Or.inr (this.2 h1)))
      · rw [e, hg', cut_lst_n]
        exact ⟨fun _ => hkq, fun _ => Or.inr (Or.inr (Or.inl rfl))⟩
      · rw [e, hg', cut_lst_n1]
        exact ⟨fun _ => q3, fun _ => Or.inl rfl⟩
    · show (l₁ ++ n :: l₂).map g'.fst = _
      rw [hmap']; exact h.active
    · intro j hj
      change j ∈ l₁ ++ n :: l₂ at hj
      show j < (A.redirect i n).length ∧ _
      rw [hrlen]
      have key : ∀ j ∈ l₁ ++ l₂, j < n + 2 ∧ Live g' j := by
        intro j hj
        have hj' : j ∈ l₁ ++ i :: l₂ := by
          rw [List.mem_append] at hj ⊢
          rcases hj with hj | hj
          · exact Or.inl hj
          · exact Or.inr (List.mem_cons_of_mem _ hj)
        obtain ⟨a1, a2⟩ := h.alive j (by rw [hact]; exact hj')
        refine ⟨by omega, (hl' j a1).2 ⟨a2, ?_⟩⟩
        rintro rfl
        rw [List.nodup_append, List.nodup_cons] at hnd
        rw [List.mem_append] at hj
        rcases hj with hj | hj
        · exact hnd.2.2 j hj j (by simp) rfl
        · exact hnd.2.1.1 hj
      rw [List.mem_append, List.mem_cons] at hj
      rcases hj with hj | hj | hj
      · exact key j (by simp [hj])
      · rw [hj]; exact ⟨by omega, hln⟩
      · exact key j (by simp [hj])
    · show st.swept.map g'.fst = _
      rw [← h.swept]
      exact List.map_congr_left fun j hj => cut_fst (h.slive j hj).1
    · intro j hj
      obtain ⟨a1, a2, a3⟩ := h.slive j hj
      show j < (A.redirect i n).length ∧ _
      rw [hrlen, hg', cut_fst a1, cut_lst a1]
      refine ⟨by omega, (hl' j a1).2 ⟨a2, ?_⟩, a3⟩
      rintro rfl
      have : g.fst j ∈ st'.swept := by rw [← h.swept]; exact List.mem_map_of_mem hj
      exact ((h.inv.swept _).1 this).2 q2
    · intro x hx hq
      have hf := h.first x hx hq
      by_cases e : g.cov x = i
      · rw [e] at hf
        rw [hg', cut_cov_left e (by rw [← hf]; exact r1.le), cut_fst_n, hf]
      · rw [hg', cut_cov_other e, cut_fst (hc.lt x hx), hf]
    · intro x hx hq
      have hf := h.last x hx hq
      by_cases e : g.cov x = i
      · rw [e] at hf
        rw [← hf] at hq
        exact absurd q3 hq
      · rw [hg', cut_cov_other e, cut_lst (hc.lt x hx), hf]
  · show l₁ ++ n :: l₂ = _
    rw [hact]
    rw [List.nodup_append, List.nodup_cons] at hnd
    rw [List.map_append, List.map_cons, if_pos rfl]
    have key : ∀ l : List ℕ, (∀ x ∈ l, x ≠ i) → l.map (fun x => if x = i then n else x) = l := by
      intro l hl
      exact (List.map_congr_left (f := fun x => if x = i then n else x) (g := id) (fun x hx => if_neg (hl x hx))).trans (List.map_id l)
    rw [key l₁ (fun x hx => hnd.2.2 x hx i (by simp)), key l₂ (fun x hx e => hnd.2.1.1 (e ▸ hx))]
  · show Q3.length = _
    rw [eQ.length_eq]; rfl

end Cut

end Idc
