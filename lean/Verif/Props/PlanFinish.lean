import Verif.Props.PlanAll
import Verif.Props.TidyFinish
/-!
# From the end of the sweep to the result, for C81
-/

namespace Idc

namespace Plan

open Net

variable {G : Plan}

theorem include_plan {modes : List PolygonMode} (hm : modes.length = G.n) {arena : Arena ℝ} (ha : G.Has arena) (hst : ∀ i ∈ G.S, G.Good (dat arena i) i) :
    ∀ (l segs : List Nat) (ends : List EndId), (∀ i ∈ l, i ∈ G.S) → ∃ segs', includeSegments modes arena l segs ends = .ok (segs', ends ++ (l.filter fun i => (dat arena i).is_in_result).flatMap (wantedEnds modes arena)) ∧
      ∀ i ∈ segs', i ∈ segs ∨ i ∈ l
  | [], segs, ends, _ => ⟨segs, by simp [includeSegments], by simp⟩
  | i :: l, segs, ends, hl => by
    have hi := hl i (by simp)
    obtain ⟨s, hs, is⟩ := ha.seg i hi
    have hd := dat_of hs
    have hsi := hst i hi
    have hl1 : (dat arena i).left_faces_polygons.length = modes.length := by rw [hsi.left, flag_length, hm]
    have hl2 : (dat arena i).right_faces_polygons.length = modes.length := by rw [hsi.right, flag_length, hm]
    obtain ⟨b1, hb1, hb1'⟩ := skipSide_spec hl1
    obtain ⟨b2, hb2, hb2'⟩ := skipSide_spec hl2
    have he : wantedEnds modes arena i = (if b1 then [] else [(i, .left)]) ++ (if b2 then [] else [(i, .right)]) := by
      unfold wantedEnds
      have e1 : Wanted modes (sideFlags arena (i, .left)) ↔ b1 = false := hb1'.symm
      have e2 : Wanted modes (sideFlags arena (i, .right)) ↔ b2 = false := hb2'.symm
      simp only [e1, e2]
      cases b1 <;> cases b2 <;> simp
    rw [includeSegments]
    unfold index
    rw [hs]
    simp only [Res.bind_ok]
    rw [← hd]
    by_cases hres : (dat arena i).is_in_result = true
    swap
    · rw [if_pos (by simp at hres; simp [hres])]
      obtain ⟨segs', h1, h2⟩ := include_plan hm ha hst l segs ends (fun k hk => hl k (by simp [hk]))
      refine ⟨segs', ?_, ?_⟩
      · rw [h1, List.filter_cons_of_neg (by simpa using hres)]
      · intro k hk
        rcases h2 k hk with h | h <;> simp [h]
    rw [if_neg (by simp [hres]), hb1, List.filter_cons_of_pos (by simpa using hres)]
    simp only [Res.bind_ok]
    rw [hb2]
    simp only [Res.bind_ok]
    by_cases hb : (b1 && b2) = true
    · rw [if_pos hb]
      obtain ⟨segs', h1, h2⟩ := include_plan hm ha hst l segs ends (fun k hk => hl k (by simp [hk]))
      refine ⟨segs', ?_, ?_⟩
      · rw [h1, List.flatMap_cons, he]
        rw [Bool.and_eq_true] at hb
        simp [hb.1, hb.2]
      · intro k hk
        rcases h2 k hk with h | h <;> simp [h]
    · rw [if_neg hb]
      obtain ⟨segs', h1, h2⟩ := include_plan hm ha hst l (segs ++ [i]) (ends ++ (if b1 then [] else [(i, .left)]) ++ (if b2 then [] else [(i, .right)]))
        (fun k hk => hl k (by simp [hk]))
      refine ⟨segs', ?_, ?_⟩
      · rw [h1, List.flatMap_cons, he]
        simp only [List.append_assoc]
      · intro k hk
        rcases h2 k hk with h | h
        · rw [List.mem_append, List.mem_singleton] at h
          rcases h with h | h <;> simp [h]
        · simp [h]

/-! ### Positions -/

/-- What recording positions changes. -/
structure Recorded (G : Plan) (k : Nat) (l : List EndId) (arena arena' : Arena ℝ) : Prop where
  has : G.Has arena'
  faces : ∀ x : EndId, x.1 ∈ G.S → sideFlags arena' x = sideFlags arena x
  below : ∀ i ∈ G.S, (dat arena' i).below_in_result = (dat arena i).below_in_result
  processed : ∀ x : EndId, x.1 ∈ G.S → (dat arena' x.1).isProcessed x.2 = (dat arena x.1).isProcessed x.2
  lid : ∀ i ∈ G.S, (dat arena' i).left_contour_id = (dat arena i).left_contour_id
  rid : ∀ i ∈ G.S, (dat arena' i).right_contour_id = (dat arena i).right_contour_id
  other : ∀ i ∈ G.S, (i, .left) ∉ l → (dat arena' i).left_index = (dat arena i).left_index
  position : ∀ i ∈ G.S, ∀ j : Nat, l[j]? = some (i, .left) → (dat arena' i).left_index = k + j

theorem record_plan : ∀ (l : List EndId) (k : Nat) (arena : Arena ℝ), G.Has arena → (∀ x ∈ l, x.1 ∈ G.S) → l.Nodup →
    ∃ arena', recordIndices k l arena = .ok arena' ∧ Recorded G k l arena arena'
  | [], k, arena, ha, _, _ => ⟨arena, rfl, ha, fun _ _ => rfl, fun _ _ => rfl, fun _ _ => rfl, fun _ _ => rfl, fun _ _ => rfl, fun _ _ _ => rfl, by simp⟩
  | (seg, e) :: l, k, arena, ha, hl, hnd => by
    have hseg : seg ∈ G.S := hl (seg, e) (by simp)
    obtain ⟨s, hs, is⟩ := ha.seg seg hseg
    have hL : seg < arena.length := ha.lt hseg
    rw [List.nodup_cons] at hnd
    have hd := dat_put hL ((dat arena seg).setIndex k e)
    have ha1 := ha.put seg ((dat arena seg).setIndex k e)
    obtain ⟨arena', hrun, h⟩ := record_plan l (k + 1) (putPacket arena seg ((dat arena seg).setIndex k e)) ha1 (fun x hx => hl x (by simp [hx])) hnd.2
    refine ⟨arena', ?_, ?_⟩
    · rw [recordIndices]
      unfold index
      rw [hs]
      simp only [Res.bind_ok]
      rw [← dat_of hs, setPacket_put hL]
      exact hrun
    · refine ⟨h.has, ?_, ?_, ?_, ?_, ?_, ?_, ?_⟩
      · intro x hx
        rw [h.faces x hx]
        unfold sideFlags
        rw [hd]
        split
        · rename_i e'
          rw [e']
          cases e <;> cases x.2 <;> rfl
        · rfl
      · intro i hi
        rw [h.below i hi, hd]
        split
        · rename_i e'
          rw [e']
          cases e <;> rfl
        · rfl
      · intro x hx
        rw [h.processed x hx, hd]
        split
        · rename_i e'
          rw [e']
          cases e <;> cases x.2 <;> rfl
        · rfl
      · intro i hi
        rw [h.lid i hi, hd]
        split
        · rename_i e'
          rw [e']
          cases e <;> rfl
        · rfl
      · intro i hi
        rw [h.rid i hi, hd]
        split
        · rename_i e'
          rw [e']
          cases e <;> rfl
        · rfl
      · intro i hi hn
        rw [List.mem_cons, not_or] at hn
        rw [h.other i hi hn.2, hd]
        split
        · rename_i e'
          subst e'
          cases e
          · exact absurd rfl hn.1
          · rfl
        · rfl
      · intro i hi j hj
        cases j with
        | zero =>
          simp only [List.getElem?_cons_zero, Option.some.injEq, Prod.mk.injEq] at hj
          obtain ⟨rfl, rfl⟩ := hj
          rw [h.other seg hi hnd.1, hd, if_pos rfl]
          rfl
        | succ j =>
          rw [List.getElem?_cons_succ] at hj
          rw [h.position i hi j hj]
          omega

/-! ### Neighbours -/

theorem neighbors_plan {A : Arena ℝ} {ids : EndId → Option Nat} {arena : Arena ℝ} (h : Tr G A ids arena) {n : Nat} (hids : ∀ z j, ids z = some j → j < n) :
    ∀ (l : List EndId) (cs : List (Contour ℝ)), (∀ x ∈ l, x.1 ∈ G.S) → cs.length = n → (∀ c ∈ cs, c.neighbors.length = n) →
    ∃ cs', assignNeighbors arena l cs = .ok cs' ∧ cs'.length = n ∧ (∀ c ∈ cs', c.neighbors.length = n) ∧ ∀ (j : Nat) c', cs'[j]? = some c' →
      ∃ c, cs[j]? = some c ∧ c' = { c with neighbors := c'.neighbors } ∧ ∀ k : Nat, c'.neighbors[k]? = some true ↔
        c.neighbors[k]? = some true ∨ ∃ z : EndId, (∃ x ∈ l, x.1 = z.1) ∧ ids z = some j ∧ ids (opp z) = some k
  | [], cs, _, hlen, hnb => ⟨cs, rfl, hlen, hnb, fun j c hc => ⟨c, hc, rfl, fun k => by simp⟩⟩
  | (seg, e) :: l, cs, hl, hlen, hnb => by
    have hseg : seg ∈ G.S := hl (seg, e) (by simp)
    obtain ⟨s, hs, hs', is, hd⟩ := h.get (x := (seg, e)) hseg
    dsimp only at hs hd
    have hskip : (∀ r l', ids (seg, .right) = some r → ids (seg, .left) = some l' → False) → ∀ z : EndId, z.1 = seg → ∀ j k, ids z = some j → ids (opp z) = some k → False := by
      rintro hno ⟨i, e'⟩ rfl j k h1 h2
      cases e'
      · exact hno _ _ h2 h1
      · exact hno _ _ h1 h2
    rw [assignNeighbors, hs]
    simp only [Res.bind_ok]
    rw [hd, h.rid seg hseg, h.lid seg hseg]
    rcases hr : ids (seg, .right) with _ | r
    · obtain ⟨cs', c1, c2, c3, c4⟩ := neighbors_plan h hids l cs (fun x hx => hl x (by simp [hx])) hlen hnb
      refine ⟨cs', c1, c2, c3, fun j c' hc' => ?_⟩
      obtain ⟨c, d1, d2, d3⟩ := c4 j c' hc'
      refine ⟨c, d1, d2, fun k => ?_⟩
      rw [d3]
      refine or_congr_right ⟨?_, ?_⟩
      · rintro ⟨z, ⟨x, hx, hxz⟩, h1, h2⟩
        exact ⟨z, ⟨x, by simp [hx], hxz⟩, h1, h2⟩
      · rintro ⟨z, ⟨x, hx, hxz⟩, h1, h2⟩
        rcases List.mem_cons.1 hx with rfl | hx
        · exact absurd h2 (fun h2 => hskip (fun a b ha hb => by rw [hr] at ha; cases ha) z hxz.symm j k h1 h2)
        · exact ⟨z, ⟨x, hx, hxz⟩, h1, h2⟩
    · rcases hll : ids (seg, .left) with _ | l'
      · obtain ⟨cs', c1, c2, c3, c4⟩ := neighbors_plan h hids l cs (fun x hx => hl x (by simp [hx])) hlen hnb
        refine ⟨cs', c1, c2, c3, fun j c' hc' => ?_⟩
        obtain ⟨c, d1, d2, d3⟩ := c4 j c' hc'
        refine ⟨c, d1, d2, fun k => ?_⟩
        rw [d3]
        refine or_congr_right ⟨?_, ?_⟩
        · rintro ⟨z, ⟨x, hx, hxz⟩, h1, h2⟩
          exact ⟨z, ⟨x, by simp [hx], hxz⟩, h1, h2⟩
        · rintro ⟨z, ⟨x, hx, hxz⟩, h1, h2⟩
          rcases List.mem_cons.1 hx with rfl | hx
          · exact absurd h2 (fun h2 => hskip (fun a b ha hb => by rw [hll] at hb; cases hb) z hxz.symm j k h1 h2)
          · exact ⟨z, ⟨x, hx, hxz⟩, h1, h2⟩
      · dsimp only
        have hrn := hids _ _ hr
        have hln := hids _ _ hll
        obtain ⟨cs1, a1, a2, a3, a4⟩ := setNeighbor_net hlen hnb hln hrn
        obtain ⟨cs2, b1, b2, b3, b4⟩ := setNeighbor_net a2 a3 hrn hln
        obtain ⟨cs', c1, c2, c3, c4⟩ := neighbors_plan h hids l cs2 (fun x hx => hl x (by simp [hx])) b2 b3
        rw [a1]
        simp only [Res.bind_ok]
        rw [b1]
        simp only [Res.bind_ok]
        refine ⟨cs', c1, c2, c3, fun j c' hc' => ?_⟩
        obtain ⟨x2, d1, d2, d3⟩ := c4 j c' hc'
        obtain ⟨x1, e1, e2, e3⟩ := b4 j x2 d1
        obtain ⟨x0, f1, f2, f3⟩ := a4 j x1 e1
        refine ⟨x0, f1, ?_, fun k => ?_⟩
        · rw [d2, e2, f2]
        · rw [d3, e3, f3, or_assoc, or_assoc]
          refine or_congr_right ⟨?_, ?_⟩
          · rintro (⟨rfl, rfl⟩ | ⟨rfl, rfl⟩ | ⟨z, ⟨x, hx, hxz⟩, h1, h2⟩)
            · exact ⟨(seg, .left), ⟨(seg, e), by simp, rfl⟩, hll, hr⟩
            · exact ⟨(seg, .right), ⟨(seg, e), by simp, rfl⟩, hr, hll⟩
            · exact ⟨z, ⟨x, by simp [hx], hxz⟩, h1, h2⟩
          · rintro ⟨z, ⟨x, hx, hxz⟩, h1, h2⟩
            rcases List.mem_cons.1 hx with rfl | hx
            · obtain ⟨i, e'⟩ := z
              dsimp only at hxz
              subst hxz
              cases e'
              · left
                rw [hll] at h1
                have h2 : ids (seg, .right) = some k := h2
                rw [hr] at h2
                exact ⟨(Option.some.inj h1).symm, (Option.some.inj h2).symm⟩
              · right; left
                rw [hr] at h1
                have h2 : ids (seg, .left) = some k := h2
                rw [hll] at h2
                exact ⟨(Option.some.inj h1).symm, (Option.some.inj h2).symm⟩
            · right; right
              exact ⟨z, ⟨x, hx, hxz⟩, h1, h2⟩

/-! ### All of it -/

/-- The walks that are to be outlines. -/
structure Leaders (G : Plan) (A : Arena ℝ) (modes : List PolygonMode) (ls : List EndId) : Prop where
  leaders : ∀ x, x ∈ ls ↔ G.keep.Start x ∧ Wanted modes (sideFlags A x)
  order : ls.Pairwise fun x y => G.key x < G.key y

/-- What the result is, in terms of the plan. -/
structure PlanResult (G : Plan) (A : Arena ℝ) (modes : List PolygonMode) (ls : List EndId) (cs : List (Contour ℝ)) : Prop extends Leaders G A modes ls where
  len : cs.length = ls.length
  safe : ∀ x ∈ ls, Safe G A x
  points : ∀ (j : Nat) c x, cs[j]? = some c → ls[j]? = some x → c.points = (G.keep.arc x).map G.pt
  flags : ∀ (j : Nat) c x, cs[j]? = some c → ls[j]? = some x → c.from_polygons.length = G.n ∧
    ∀ m : ℕ, c.from_polygons[m]? = some true ↔ ∃ z ∈ G.keep.arc x, (sideFlags A z)[m]? = some true
  external : ∀ (j : Nat) c x, cs[j]? = some c → ls[j]? = some x → c.external = (parentOf G.keep A x).isNone
  holes : ∀ (j : Nat) c x, cs[j]? = some c → ls[j]? = some x → ∀ h, h ∈ c.holes ↔ ∃ y w, ls[h]? = some y ∧ parentOf G.keep A y = some w ∧ w ∈ G.keep.arc x
  neighbors : ∀ (j : Nat) c x, cs[j]? = some c → ls[j]? = some x → c.neighbors.length = cs.length ∧
    ∀ (k : Nat) y, ls[k]? = some y → (c.neighbors[k]? = some true ↔ ∃ z ∈ G.keep.arc x, opp z ∈ G.keep.arc y)

/-- The flags of an endpoint after the sweep. -/
theorem side_good {arena : Arena ℝ} (hgood : ∀ i ∈ G.S, G.Good (dat arena i) i) {x : EndId} (hx : x.1 ∈ G.S) : sideFlags arena x = G.flag (G.F x) := by
  obtain ⟨i, e⟩ := x
  cases e
  · exact (hgood i hx).left
  · exact (hgood i hx).right

/-- Along a walk, wanted stays wanted. -/
theorem arc_wanted (hC : G.Clear) {W : List Bool → Prop} (hB : G.Blind W) {x y : EndId} (hx : G.keep.Top x.1) (hy : y ∈ G.keep.arc x) :
    W (G.flag (G.F y)) ↔ W (G.flag (G.F x)) := by
  obtain ⟨k, _, rfl⟩ := mem_arc.1 hy
  clear hy
  induction k with
  | zero => rfl
  | succ k ih =>
    rw [Function.iterate_succ_apply', keep_next hC hB (iter_top hx k)]
    exact ih (by omega)

theorem finish_plan {lib : Lib} (hl : lib.Lawful) {Heap} {st : SweepState ℝ} (h : Inv G Heap st) (hq : st.queue = []) {modes : List PolygonMode}
    (hm : modes.length = G.n) (hC : G.Clear) (hB : G.Blind (Wanted modes)) :
    (∃ ls cs, PlanResult G st.arena modes ls cs ∧ ∀ fuel, 2 * G.S.card < fuel → finish lib fuel modes st = .ok ⟨cs⟩) ∨
      ∃ ls, Leaders G st.arena modes ls ∧ (∃ x ∈ ls, ¬ Safe G st.arena x) ∧ ∀ fuel, 2 * G.S.card < fuel → finish lib fuel modes st = .panic .unwrap := by
  have hgood : ∀ i ∈ G.S, G.Good (dat st.arena i) i := fun i hi => h.good i hi (by rw [hq]; simp)
  have hswept : ∀ i, i ∈ st.swept ↔ i ∈ G.S := fun i => by
    rw [h.swept, hq]
    simp
  have hres : ∀ i ∈ G.S, ((dat st.arena i).is_in_result = true ↔ G.keep.Top i) := by
    intro i hi
    rw [keep_top hC]
    by_cases ht : G.Top i
    · rw [(h.inn i hi (by rw [hq]; simp) fun j' hj' hs hp => absurd (ht.2 j' hj' hs) (not_le.2 hp)).2]
      exact ⟨fun hr => ⟨ht, hr⟩, fun hr => hr.2⟩
    · refine ⟨fun hh => ?_, fun hh => absurd hh.1 ht⟩
      have hex : ∃ j' ∈ G.S, G.Same i j' ∧ G.poly i < G.poly j' := by
        by_contra hn
        push Not at hn
        exact ht ⟨hi, fun j hj hs => hn j hj hs⟩
      obtain ⟨j', h1, h2, h3⟩ := hex
      have := (h.out i hi (by rw [hq]; simp) ⟨j', h1, h2, h3, by rw [hq]; simp⟩).2
      rw [hh] at this
      cases this
  obtain ⟨segs, hinc, hsegs⟩ := include_plan hm h.has hgood st.swept [] [] (fun i hi => (hswept i).1 hi)
  set ends := (st.swept.filter fun i => (dat st.arena i).is_in_result).flatMap (wantedEnds modes st.arena) with hends
  rw [List.nil_append] at hinc
  have hemem : ∀ x, x ∈ ends ↔ G.keep.Top x.1 ∧ Wanted modes (sideFlags st.arena x) := fun x => by
    rw [hends, mem_wanted, List.mem_filter, hswept]
    refine and_congr_left fun _ => ⟨fun hx => (hres _ hx.1).1 hx.2, fun hx => ⟨(mem_keep.1 hx.1).1, (hres _ (mem_keep.1 hx.1).1).2 hx⟩⟩
  have hendn : ends.Nodup := wanted_nodup (h.snodup.filter _)
  obtain ⟨segs', hsort1⟩ := hl.sort_returns st.arena.segCmp segs (fun a ha b hb => by
    have hN : ∀ i ∈ segs, i ∈ G.S := fun i hi => by
      rcases hsegs i hi with h | h
      · cases h
      · exact (hswept i).1 h
    obtain ⟨s, hs, is⟩ := h.has.seg a (hN a ha)
    obtain ⟨s', hs', is'⟩ := h.has.seg b (hN b hb)
    obtain ⟨o, ho, _⟩ := segCmp_plan is is'
    refine ⟨o, ?_⟩
    unfold Arena.segCmp index
    rw [hs, hs']
    exact ho)
  obtain ⟨included, hsort2, hperm, hsorted⟩ := hl.sort_sorts st.arena.endCmp ends (endCmp_total h.has fun x hx => (mem_keep.1 ((hemem x).1 hx).1.1).1)
  have himem : ∀ x, x ∈ included ↔ G.keep.Top x.1 ∧ Wanted modes (sideFlags st.arena x) := fun x => by rw [hperm.mem_iff, hemem]
  have hin : ∀ x ∈ included, x.1 ∈ G.S := fun x hx => (mem_keep.1 ((himem x).1 hx).1.1).1
  have hnd : included.Nodup := hperm.nodup_iff.2 hendn
  have hkey : included.Pairwise fun x y => G.key x < G.key y := by
    refine (hsorted.and hnd).imp_of_mem ?_
    rintro x y hx hy ⟨h1, h2⟩
    rw [endCmp_key h.has (hin x hx) (hin y hy)] at h1
    rcases lt_trichotomy (G.key x) (G.key y) with k | k | k
    · exact k
    · exact absurd (key_inj (hin x hx) (hin y hy) k) h2
    · exact absurd (by rw [compare_gt_iff_gt.2 k]) h1
  obtain ⟨A, hrec, hR⟩ := record_plan included 0 st.arena h.has hin hnd
  have hside : ∀ x : EndId, x.1 ∈ G.S → sideFlags st.arena x = G.flag (G.F x) := fun x hx => side_good hgood hx
  have hready : Ready G A included := by
    refine ⟨fun x hx => ((himem x).1 hx).1, ?_, ?_, ?_, hkey, ?_⟩
    · intro x y hx hy
      have hy' := arc_top hx hy
      rw [himem, himem, hside x (mem_keep.1 hx.1).1, hside y (mem_keep.1 hy'.1).1, arc_wanted hC hB hx hy]
      exact and_congr_left fun _ => ⟨fun _ => hx, fun _ => hy'⟩
    · intro x hx
      have hx := (mem_keep.1 hx.1).1
      rw [hR.faces x hx, hside x hx, flag_length]
    · intro i hi b hb
      obtain ⟨hT, hW⟩ := (himem _).1 hi
      have hiG := (mem_keep.1 hT.1).1
      rw [hR.below i hiG, (hgood i hiG).below] at hb
      have hU := B_some.1 hb
      refine ⟨hU.alive.1, hU.key hiG, fun hbK => ?_⟩
      rw [himem, keep_top hC]
      refine ⟨⟨hU.top, (mem_keep.1 hbK).2⟩, ?_⟩
      rw [hside _ hU.alive.1]
      rw [hside _ hiG] at hW
      have : G.flag (G.F (b, .left)) = G.flag (G.F (i, .right)) := by
        congr 1
        funext m
        exact (hU.lo_eq m).symm
      rw [this]
      exact hW
    · intro i hi
      obtain ⟨j, hj⟩ := List.mem_iff_getElem?.1 hi
      rw [hR.position i (hin _ hi) j hj, Nat.zero_add]
      exact hj
  have htr : Tr G A (fun _ => none) A := by
    refine ⟨hR.has, fun _ _ => rfl, fun _ _ => rfl, fun _ _ => rfl, ?_, ?_, ?_⟩
    · intro x hx
      rw [hR.processed x hx]
      have := h.kept x.1 hx
      obtain ⟨i, e⟩ := x
      cases e
      · exact this.lproc
      · exact this.rproc
    · intro i hi
      rw [hR.lid i hi]
      exact (h.kept i hi).lid
    · intro i hi
      rw [hR.rid i hi]
      exact (h.kept i hi).rid
  have h0 : Traced G A included [] (fun _ => none) [] A [] :=
    ⟨htr, ⟨rfl, by simp, by simp, by simp, by simp, by simp⟩, by simp, by simp, by simp, by simp, by simp, by simp, by simp⟩
  have hlen : included.length ≤ 2 * G.S.card := by
    classical
    have hsub : included.toFinset ⊆ G.S ×ˢ {SegmentEnd.left, SegmentEnd.right} := by
      intro x hx
      rw [List.mem_toFinset] at hx
      rw [Finset.mem_product]
      refine ⟨hin x hx, ?_⟩
      obtain ⟨i, e⟩ := x
      cases e <;> simp
    have := Finset.card_le_card hsub
    rw [List.toFinset_card_of_nodup hnd, Finset.card_product] at this
    have h2 : ({SegmentEnd.left, SegmentEnd.right} : Finset SegmentEnd).card = 2 := by decide
    rw [h2] at this
    omega
  have hparent : ∀ x : EndId, G.keep.Top x.1 → parentOf G.keep A x = parentOf G.keep st.arena x := by
    intro x hx
    unfold parentOf
    rw [hR.below _ (mem_keep.1 (arc_top hx (last_mem hx)).1).1]
  have hsafe : ∀ x : EndId, G.keep.Top x.1 → (Safe G A x ↔ Safe G st.arena x) := by
    intro x hx
    unfold Safe
    rw [hparent x hx]
  rcases traceAll_plan hready (fuel := included.length + 1) (by omega) included [] _ _ _ _ rfl h0 with ⟨ids, ls, arena, contours, hrun, hT⟩ | ⟨x, hxi, hx, hxs, hrun⟩
  swap
  · right
    classical
    refine ⟨included.filter fun x => G.keep.Start x, ⟨fun y => ?_, hkey.filter _⟩, ⟨x, ?_, fun hs => hxs ((hsafe x hx.1).2 hs)⟩, fun fuel hfuel => ?_⟩
    · rw [List.mem_filter, himem, decide_eq_true_iff]
      exact ⟨fun h => ⟨h.2, h.1.2⟩, fun h => ⟨⟨h.1.1, h.2⟩, h.1⟩⟩
    · rw [List.mem_filter, decide_eq_true_iff]
      exact ⟨hxi, hx⟩
    · have hrun' : traceAll fuel included included A [] = .panic .unwrap := by
        rw [traceAll_mono (fuel := included.length + 1) (by omega) (by rw [hrun]; simp), hrun]
      unfold finish
      rw [hinc]
      simp only [Res.bind_ok]
      rw [hsort1]
      simp only [Res.bind_ok]
      rw [hsort2]
      simp only [Res.bind_ok]
      rw [hrec]
      simp only [Res.bind_ok]
      rw [hrun']
      rfl
  left
  have hlenC := hT.desc.len
  have hidsN : ∀ z j, ids z = some j → j < contours.length := by
    intro z j hz
    obtain ⟨x, hx, _⟩ := (hT.ids_iff z j).1 hz
    have := (List.getElem?_eq_some_iff.1 hx).1
    omega
  set grown := contours.map fun c => { c with neighbors := bvGrow c.neighbors contours.length false } with hgrown
  have hnb0 : ∀ c ∈ contours, c.neighbors = [] := by
    intro c hc
    obtain ⟨j, hj⟩ := List.mem_iff_getElem?.1 hc
    have hjl := (List.getElem?_eq_some_iff.1 hj).1
    exact hT.desc.neighbors j c ls[j] hj (List.getElem?_eq_getElem (by omega))
  obtain ⟨cs, hnbr, hcl, hcn, hcs⟩ := neighbors_plan hT.tr hidsN included grown hin (by simp [hgrown]) (by
    intro c hc
    rw [hgrown, List.mem_map] at hc
    obtain ⟨c0, hc0, rfl⟩ := hc
    simp [bvGrow, hnb0 c0 hc0])
  refine ⟨ls, cs, ?_, ?_⟩
  · -- each contour
    have hback : ∀ (j : Nat) c', cs[j]? = some c' → ∃ c, contours[j]? = some c ∧ c'.points = c.points ∧ c'.from_polygons = c.from_polygons ∧
        c'.external = c.external ∧ c'.holes = c.holes ∧ ∀ k : Nat, c'.neighbors[k]? = some true ↔ ∃ z : EndId, ids z = some j ∧ ids (opp z) = some k := by
      intro j c' hc'
      obtain ⟨c1, d1, d2, d3⟩ := hcs j c' hc'
      rw [hgrown, List.getElem?_map, Option.map_eq_some_iff] at d1
      obtain ⟨c, hc, rfl⟩ := d1
      refine ⟨c, hc, by rw [d2], by rw [d2], by rw [d2], by rw [d2], fun k => ?_⟩
      rw [d3]
      constructor
      · rintro (hk | ⟨z, _, h1, h2⟩)
        · exfalso
          dsimp only at hk
          rw [hnb0 c (List.mem_of_getElem? hc)] at hk
          simp only [bvGrow, List.nil_append] at hk
          have := List.mem_of_getElem? hk
          rw [List.mem_replicate] at this
          cases this.2
        · exact ⟨z, h1, h2⟩
      · rintro ⟨z, h1, h2⟩
        right
        refine ⟨z, ⟨z, ?_, rfl⟩, h1, h2⟩
        obtain ⟨y, hy, hzy⟩ := (hT.ids_iff z j).1 h1
        exact (hready.arc_mem (hT.leaders y (List.mem_of_getElem? hy)).1.1 hzy).2 (hT.leaders y (List.mem_of_getElem? hy)).2
    -- below_in_result and the flags are those after the sweep
    have hlsN : ∀ (j : Nat) x, ls[j]? = some x → G.keep.Top x.1 := fun j x hx => (hT.leaders x (List.mem_of_getElem? hx)).1.1
    refine ⟨⟨?_, hT.order⟩, by omega, fun x hx => (hsafe x (hT.leaders x hx).1.1).1 (hT.safe x hx), ?_, ?_, ?_, ?_, ?_⟩
    · intro x
      constructor
      · intro hx
        obtain ⟨h1, h2⟩ := hT.leaders x hx
        exact ⟨h1, ((himem x).1 h2).2⟩
      · rintro ⟨h1, h2⟩
        have hxi := (himem x).2 ⟨h1.1, h2⟩
        obtain ⟨j, hj⟩ := Option.isSome_iff_exists.1 (hT.done x hxi)
        obtain ⟨y, hy, hxy⟩ := (hT.ids_iff x j).1 hj
        have hym := List.mem_of_getElem? hy
        rw [← arc_unique h1 (hT.leaders y hym).1 (self_mem_arc h1.1) hxy] at hym
        exact hym
    · intro j c' x hc' hx
      obtain ⟨c, hc, e1, e2, e3, e4, e5⟩ := hback j c' hc'
      rw [e1]; exact hT.desc.points j c x hc hx
    · intro j c' x hc' hx
      obtain ⟨c, hc, e1, e2, e3, e4, e5⟩ := hback j c' hc'
      rw [e2]
      obtain ⟨f1, f2⟩ := hT.desc.flags j c x hc hx
      refine ⟨f1, fun m => ?_⟩
      rw [f2]
      have harc : ∀ z ∈ G.keep.arc x, sideFlags A z = sideFlags st.arena z := fun z hz => hR.faces z (mem_keep.1 (arc_top (hlsN j x hx) hz).1).1
      exact ⟨fun ⟨z, hz, h⟩ => ⟨z, hz, by rw [← harc z hz]; exact h⟩, fun ⟨z, hz, h⟩ => ⟨z, hz, by rw [harc z hz]; exact h⟩⟩
    · intro j c' x hc' hx
      obtain ⟨c, hc, e1, e2, e3, e4, e5⟩ := hback j c' hc'
      rw [e3, hT.desc.external j c x hc hx, hparent x (hlsN j x hx)]
    · intro j c' x hc' hx k
      obtain ⟨c, hc, e1, e2, e3, e4, e5⟩ := hback j c' hc'
      rw [e4, hT.desc.holes j c x hc hx k]
      constructor
      · rintro ⟨y, w, h1, h2, h3⟩
        exact ⟨y, w, h1, by rw [← hparent y (hlsN k y h1)]; exact h2, h3⟩
      · rintro ⟨y, w, h1, h2, h3⟩
        exact ⟨y, w, h1, by rw [hparent y (hlsN k y h1)]; exact h2, h3⟩
    · intro j c' x hc' hx
      obtain ⟨c, hc, e1, e2, e3, e4, e5⟩ := hback j c' hc'
      refine ⟨by rw [hcn c' (List.mem_of_getElem? hc'), hcl], ?_⟩
      intro k y hy
      rw [e5]
      constructor
      · rintro ⟨z, h1, h2⟩
        obtain ⟨x', hx', hz⟩ := (hT.ids_iff z j).1 h1
        obtain ⟨y', hy', hz'⟩ := (hT.ids_iff (opp z) k).1 h2
        rw [hx] at hx'
        rw [hy] at hy'
        cases hx'
        cases hy'
        exact ⟨z, hz, hz'⟩
      · rintro ⟨z, hz, hz'⟩
        exact ⟨z, (hT.ids_iff z j).2 ⟨x, hx, hz⟩, (hT.ids_iff _ k).2 ⟨y, hy, hz'⟩⟩
  · intro fuel hfuel
    have hrun' : traceAll fuel included included A [] = .ok (arena, contours) := by
      rw [traceAll_mono (fuel := included.length + 1) (by omega) (by rw [hrun]; simp), hrun]
    unfold finish
    rw [hinc]
    simp only [Res.bind_ok]
    rw [hsort1]
    simp only [Res.bind_ok]
    rw [hsort2]
    simp only [Res.bind_ok]
    rw [hrec]
    simp only [Res.bind_ok]
    rw [hrun']
    simp only [Res.bind_ok]
    rw [hnbr]
    rfl

end Plan

end Idc
