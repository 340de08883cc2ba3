import Verif.Props.TidyStep
/-!
# The loop of the sweep over a net, for C76
-/

namespace Idc

open Net

variable {G : Net}

theorem loop_two {lib : Lib} {np : Nat} {st st1 st2 : SweepState ℝ} {x y : EndId} {q1 q2 : List EndId}
    (p1 : lib.heapPop st.arena.endCmp st.queue = .ok (some (x, q1))) (s1 : sweepEnd lib np { st with queue := q1 } x.1 x.2 = .ok st1)
    (p2 : lib.heapPop st1.arena.endCmp st1.queue = .ok (some (y, q2))) (s2 : sweepEnd lib np { st1 with queue := q2 } y.1 y.2 = .ok st2) (fuel : Nat) :
    sweepLoop lib np (fuel + 2) st = sweepLoop lib np fuel st2 := by
  obtain ⟨i, e⟩ := x
  obtain ⟨j, e'⟩ := y
  rw [sweepLoop, p1]
  simp only [Res.bind_ok]
  rw [s1]
  simp only [Res.bind_ok]
  rw [sweepLoop, p2]
  simp only [Res.bind_ok]
  rw [s2]
  rfl

theorem vertical_false {k : Nat} {s : BoolSegment ℝ} (hs : G.Is k s) (h : (G.lp k).x ≠ (G.rp k).x) : s.vertical = false := by
  unfold SweepSegment.vertical
  rw [hs.left, hs.right, ← Bool.not_eq_true]
  simpa [FloatOps.eq] using h

/-- One corner. -/
theorem corner_step {lib : Lib} (hl : lib.Lawful) {Heap} (hh : HeapOk lib Heap) {t : ℝ} {st : SweepState ℝ} (h : Inv G Heap t st) (hne : st.queue ≠ []) (np : Nat) :
    ∃ t' st', Inv G Heap t' st' ∧ st.queue.length = st'.queue.length + 2 ∧ ∀ fuel, sweepLoop lib np (fuel + 2) st = sweepLoop lib np fuel st' := by
  have hqN : ∀ z ∈ st.queue, z.1 < G.N := fun z hz => ((h.queue_mem z).1 hz).1
  obtain ⟨x, q1, p1, perm1, heap1, le1⟩ := hh.pop_net h.has hqN hne h.heap
  have hxq : x ∈ st.queue := perm1.mem_iff.2 (by simp)
  obtain ⟨hx, htT⟩ := (h.queue_mem x).1 hxq
  have hmin : ∀ z : EndId, z.1 < G.N → t < G.time (G.pt z) → G.time (G.pt x) ≤ G.time (G.pt z) := by
    intro z hz hzt
    have hzq := (h.queue_mem z).2 ⟨hz, hzt⟩
    rcases List.mem_cons.1 (perm1.mem_iff.1 hzq) with e | e
    · rw [e]
    · by_contra hn
      rw [not_le] at hn
      exact absurd (key_lt_of_time hz hx hn) (not_lt.2 (le1 z e))
  have hmx := G.mate_lt hx
  have hmq1 : G.mate x ∈ q1 := by
    have : G.mate x ∈ st.queue := (h.queue_mem _).2 ⟨hmx, by rw [G.mate_pt hx]; exact htT⟩
    rcases List.mem_cons.1 (perm1.mem_iff.1 this) with e | e
    · exact absurd (congrArg Prod.fst e) (G.mate_ne hx)
    · exact e
  have hkey : G.key x < G.key (G.mate x) := by
    refine lt_of_le_of_ne (le1 _ hmq1) ?_
    intro e
    exact G.mate_ne hx (congrArg Prod.fst (key_inj hx hmx e)).symm
  have hq1N : ∀ z ∈ q1, z.1 < G.N := fun z hz => hqN z (perm1.mem_iff.2 (by simp [hz]))
  have hnd1 := perm1.nodup_iff.1 h.queue_nodup
  rw [List.nodup_cons] at hnd1
  have pop2 : ∀ arena' : Arena ℝ, G.Has arena' → ∃ q2, lib.heapPop arena'.endCmp q1 = .ok (some (G.mate x, q2)) ∧ q1.Perm (G.mate x :: q2) ∧
      Heap arena'.endCmp q2 := by
    intro arena' ha'
    obtain ⟨z, q2, p2, perm2, heap2, le2⟩ := hh.pop_net ha' hq1N (List.ne_nil_of_mem hmq1) (hh.transfer h.has ha' hq1N heap1)
    have hzq : z ∈ q1 := perm2.mem_iff.2 (by simp)
    have hzN := hq1N z hzq
    have hzt := ((h.queue_mem z).1 (perm1.mem_iff.2 (by simp [hzq]))).2
    have hzT : G.time (G.pt z) = G.time (G.pt x) := by
      refine le_antisymm ?_ (hmin z hzN hzt)
      by_contra hn
      rw [not_le] at hn
      have hk : G.key (G.mate x) < G.key z := key_lt_of_time hmx hzN (by rw [G.mate_pt hx]; exact hn)
      rcases List.mem_cons.1 (perm2.mem_iff.1 hmq1) with e | e
      · rw [e] at hk; exact lt_irrefl _ hk
      · exact absurd hk (not_lt.2 (le2 _ e))
    rcases G.at_corner hx hzN (G.time_inj hzN hx hzT) with e | e
    · rw [e] at hzq; exact absurd hzq hnd1.1
    · subst e
      exact ⟨q2, p2, perm2, heap2⟩
  have permQ : ∀ q2, q1.Perm (G.mate x :: q2) → st.queue.Perm (x :: G.mate x :: q2) := fun q2 hq => perm1.trans (hq.cons x)
  have hlen : ∀ q2, q1.Perm (G.mate x :: q2) → st.queue.length = q2.length + 2 := fun q2 hq => by
    rw [(permQ q2 hq).length_eq]; rfl
  have hq2N : ∀ q2, q1.Perm (G.mate x :: q2) → ∀ z ∈ q2, z.1 < G.N := fun q2 hq z hz => hq1N z (hq.mem_iff.2 (by simp [hz]))
  -- the next time
  obtain ⟨t', hTt, hgap0⟩ := exists_gap (fun z : EndId => G.time (G.pt z)) (G.time (G.pt x)) ((List.range G.N).flatMap fun i => [(i, .left), (i, .right)])
  have hgap : ∀ z : EndId, z.1 < G.N → G.time (G.pt x) < G.time (G.pt z) → t' < G.time (G.pt z) := by
    intro z hz
    refine hgap0 z ?_
    rw [List.mem_flatMap]
    refine ⟨z.1, List.mem_range.2 hz, ?_⟩
    obtain ⟨i, e⟩ := z
    cases e <;> simp
  obtain ⟨l₁, m, l₂, hact, hc⟩ := h.atCorner hx htT hmin hgap
  generalize hT : G.time (G.pt x) = T at *
  -- who starts here
  have starts : ∀ k < G.N, (G.a k = T ↔ (k, SegmentEnd.left) = x ∨ (k, SegmentEnd.left) = G.mate x) := by
    intro k hk
    constructor
    · intro e
      exact G.at_corner hx (y := (k, .left)) hk (G.time_inj (x := (k, .left)) hk hx (by rw [hT]; exact e))
    · rintro (e | e)
      · rw [← hT, ← e]; rfl
      · rw [← hT, ← G.mate_pt hx, ← e]; rfl
  have ends : ∀ k < G.N, (G.b k = T ↔ (k, SegmentEnd.right) = x ∨ (k, SegmentEnd.right) = G.mate x) := by
    intro k hk
    constructor
    · intro e
      exact G.at_corner hx (y := (k, .right)) hk (G.time_inj (x := (k, .right)) hk hx (by rw [hT]; exact e))
    · rintro (e | e)
      · rw [← hT, ← e]; rfl
      · rw [← hT, ← G.mate_pt hx, ← e]; rfl
  have startsAlive : ∀ k < G.N, G.a k = T → (G.lp k).y = (G.pt x).y ∧ t' < G.b k := by
    intro k hk e
    constructor
    · have : G.lp k = G.pt x := G.time_inj (x := (k, .left)) hk hx (by rw [hT]; exact e)
      rw [this]
    · exact hgap (k, .right) hk (by have := G.a_lt_b hk; show T < G.b k; linarith)
  have split : ∀ k < G.N, G.a k < t' → t' < G.b k → G.a k = T ∨ (k ∈ l₁ ∨ k ∈ l₂) := by
    intro k hk h1 h2
    by_cases e : G.a k = T
    · exact Or.inl e
    right
    have h3 : G.a k < t := by
      by_contra hn
      rw [not_lt] at hn
      rcases lt_or_eq_of_le hn with hn | hn
      · have : T ≤ G.a k := hmin (k, .left) hk hn
        have : t' < G.a k := hgap (k, .left) hk (lt_of_le_of_ne this (Ne.symm e))
        linarith
      · exact h.notime (k, .left) hk hn.symm
    have := h.active_mem k hk h3 (by linarith)
    rw [hact, List.mem_append, List.mem_append] at this
    rcases this with (h4 | h4) | h4
    · exact Or.inl h4
    · have := ((hc.mid k).1 h4).2; linarith
    · exact Or.inr h4
  have hl1N : ∀ k ∈ l₁, k < G.N ∧ G.a k < t := fun k hk => ⟨(hc.stack.alive k (by simp [hk])).1, (hc.stack.alive k (by simp [hk])).2.1⟩
  have hl2N : ∀ k ∈ l₂, k < G.N ∧ G.a k < t := fun k hk => ⟨(hc.stack.alive k (by simp [hk])).1, (hc.stack.alive k (by simp [hk])).2.1⟩
  have hstd1 : ∀ k ∈ l₁, Started G (dat st.arena k) k := fun k hk => h.packets.started k (hl1N k hk).1 (hl1N k hk).2
  have hfac := h.faces
  rw [hact, FacesOk.append, FacesOk.append] at hfac
  obtain ⟨⟨hf1, hfm⟩, hf2⟩ := hfac
  have hvert : ∀ (arena : Arena ℝ) (j : Nat), G.Has arena → j < G.N → G.a j = T → Stack G t' (l₁ ++ [j] ++ l₂) → ∀ k s, l₁.getLast? = some k → arena[k]? = some s →
      s.vertical = false := by
    intro arena j ha hj haj hst k s hk hs
    have hkl : k ∈ l₁ := List.mem_of_getLast? hk
    obtain ⟨k0, k1⟩ := hl1N k hkl
    obtain ⟨s', hs', is'⟩ := ha.seg k k0
    rw [hs] at hs'
    cases hs'
    refine vertical_false is' ?_
    have hkb := (hc.low k hkl).2
    have hjb := (startsAlive j hj haj).2
    refine not_vertical k0 hj ?_ (u := t') (by linarith) (by linarith) (by linarith) hkb hjb ?_
    · rintro rfl; linarith
    · exact (List.pairwise_append.1 (List.pairwise_append.1 hst.sorted).1).2.2 k hkl j (by simp)
  obtain ⟨i, e⟩ := x
  rcases hmate : G.mate (i, e) with ⟨j, e'⟩
  rw [hmate] at hkey hmx hmq1 pop2 permQ hlen hq2N starts ends
  have hij : j ≠ i := by have := G.mate_ne hx; rw [hmate] at this; exact this
  have hpoly : G.poly j = G.poly i := by have := G.mate_poly hx; rw [hmate] at this; exact this
  have hmm : G.mate (j, e') = (i, e) := by rw [← hmate]; exact G.mate_mate hx
  have hptj : G.pt (j, e') = G.pt (i, e) := by rw [← hmate]; exact G.mate_pt hx
  have hi : i < G.N := hx
  have hj : j < G.N := hmx
  cases e <;> cases e'
  · -- both start
    have hai : G.a i = T := hT
    have haj : G.a j = T := by rw [← hT, ← hptj]; rfl
    obtain ⟨hyi, hbi⟩ := startsAlive i hi hai
    obtain ⟨hyj, hbj⟩ := startsAlive j hj haj
    have hm : m = [] := by
      rcases m with _ | ⟨k, m⟩
      · rfl
      · have := (hc.mid k).1 (by simp)
        rcases (ends k this.1).1 this.2 with e | e <;> exact absurd (congrArg Prod.snd e) (by simp)
    subst hm
    rw [List.append_nil] at hact hf2
    have hhij : G.h i t' < G.h j t' := (key_left_left hi hj hij.symm (by have := hptj; exact this.symm) (by rw [hai]; exact hTt)).2.1 hkey
    have hst1 : Stack G t' (l₁ ++ [i] ++ l₂) := hc.after htT hTt (r := [i]) (by intro k hk; rw [List.mem_singleton] at hk; subst hk; exact ⟨hi, hai, hyi, hbi⟩) (by simp)
    have hst2 : Stack G t' (l₁ ++ [i, j] ++ l₂) := hc.after htT hTt (r := [i, j]) (by
      intro k hk
      simp only [List.mem_cons, List.not_mem_nil, or_false] at hk
      rcases hk with rfl | rfl
      · exact ⟨hi, hai, hyi, hbi⟩
      · exact ⟨hj, haj, hyj, hbj⟩) (by simpa using hhij)
    have hnotin : ∀ z, G.a z = T → z ∉ l₁ := fun z hz hzl => by have := (hl1N z hzl).2; linarith
    have hnotin2 : ∀ z, G.a z = T → z ∉ l₂ := fun z hz hzl => by have := (hl2N z hzl).2; linarith
    obtain ⟨p, sp, hp1, hp2, hp3, hp4⟩ := sweepLeft_net hl (st := { st with queue := q1 }) (i := i) (l₁ := l₁) (l₂ := l₂) (t := t') h.has hact
      (by simpa using hst1) h.packets.kept (h.packets.fresh i hi (by linarith)) hstd1 hf1 (fun k s hk hs => hvert st.arena i h.has hi hai hst1 k s hk hs) np
    have hiL : i < st.arena.length := by rw [h.has.length]; exact hi
    have has1 := h.has.put i p
    have hd1 : ∀ k, dat (putPacket st.arena i p) k = if k = i then p else dat st.arena k := dat_put hiL p
    obtain ⟨q2, p2, perm2, heap2⟩ := pop2 _ has1
    obtain ⟨r, sr, hr1, hr2, hr3, hr4⟩ := sweepLeft_net hl (st := { arena := putPacket st.arena i p, queue := q2, active := l₁ ++ i :: l₂, swept := st.swept })
      (i := j) (l₁ := l₁ ++ [i]) (l₂ := l₂) (t := t') has1 (by simp) (by simpa using hst2)
      (fun k hk => by
        show Kept G (dat (putPacket st.arena i p) k) k
        rw [hd1]; split
        · rename_i e; subst e; exact hp2
        · exact h.packets.kept k hk)
      (by
        show Fresh' G (dat (putPacket st.arena i p) j)
        rw [hd1, if_neg hij]; exact h.packets.fresh j hj (by linarith))
      (fun k hk => by
        show Started G (dat (putPacket st.arena i p) k) k
        rw [hd1]
        rw [List.mem_append, List.mem_singleton] at hk
        split
        · rename_i e; subst e; exact hp1
        · rename_i e
          exact hstd1 k (hk.resolve_right e))
      (by
        show FacesOk G (putPacket st.arena i p) (noFlags G) (l₁ ++ [i])
        rw [FacesOk.append]
        refine ⟨hf1.congr fun k hk => ?_, ?_, trivial⟩
        · rw [hd1, if_neg]
          rintro rfl
          exact hnotin k hai hk
        · rw [hd1, if_pos rfl]; exact hp3)
      (fun k s hk hs => by
        rw [List.getLast?_append] at hk
        cases hk
        obtain ⟨s', hs', is'⟩ := has1.seg i hi
        have hs : (putPacket st.arena i p)[i]? = some s := hs
        rw [hs] at hs'
        cases hs'
        exact vertical_false is' (not_vertical hi hj hij.symm (u := t') (by rw [hai, haj]) (by linarith) (by linarith) hbi hbj hhij)) np
    have hjL : j < (putPacket st.arena i p).length := by rw [put_length, h.has.length]; exact hj
    have has2 := has1.put j r
    have hd2 : ∀ k, dat (putPacket (putPacket st.arena i p) j r) k = if k = j then r else if k = i then p else dat st.arena k := fun k => by
      rw [dat_put hjL, hd1]
    have hdi : dat (putPacket (putPacket st.arena i p) j r) i = p := by rw [hd2, if_neg hij.symm, if_pos rfl]
    have hdj : dat (putPacket (putPacket st.arena i p) j r) j = r := by rw [hd2, if_pos rfl]
    have only2 : ∀ k < G.N, G.a k = T → k = i ∨ k = j := by
      intro k hk e
      rcases (starts k hk).1 e with e | e
      · exact Or.inl (congrArg Prod.fst e)
      · exact Or.inr (congrArg Prod.fst e)
    have hold : ∀ k, G.a k ≠ T → dat (putPacket (putPacket st.arena i p) j r) k = dat st.arena k := by
      intro k hk
      rw [hd2, if_neg (by rintro rfl; exact hk haj), if_neg (by rintro rfl; exact hk hai)]
    have hrfl : r.right_faces_polygons = toggle p.right_faces_polygons (G.poly i) := by
      rw [hr3, above_append, hp3]; rfl
    have htog : toggle (toggle p.right_faces_polygons (G.poly i)) (G.poly i) = p.right_faces_polygons :=
      toggle_toggle (by rw [hp1.len]; exact G.poly_lt i hi)
    refine ⟨t', { arena := putPacket (putPacket st.arena i p) j r, queue := q2, active := l₁ ++ [i] ++ j :: l₂, swept := st.swept }, ?_, hlen q2 perm2,
      loop_two p1 sp p2 sr⟩
    refine h.next (T := T) hx hT.symm htT hTt hmin hgap has2 ?_ ?_ ?_ ?_ ?_ ?_ ?_ ?_ ?_ ?_ ?_ ?_
    · rw [hmate]; exact permQ q2 perm2
    · exact hh.transfer has1 has2 (hq2N q2 perm2) heap2
    · simpa using hst2
    · intro k hk k1 k2
      show k ∈ l₁ ++ [i] ++ j :: l₂
      rcases split k hk k1 k2 with e | e | e
      · rcases only2 k hk e with rfl | rfl <;> simp
      · simp [e]
      · simp [e]
    · refine ⟨[], by simp, by simp, fun k => ?_⟩
      simp only [List.not_mem_nil, false_iff, not_and]
      intro hk e
      rcases (ends k hk).1 e with e | e <;> exact absurd (congrArg Prod.snd e) (by simp)
    · show FacesOk G _ (noFlags G) (l₁ ++ [i] ++ j :: l₂)
      rw [FacesOk.append, FacesOk.append]
      refine ⟨⟨hf1.congr fun k hk => hold k fun e => hnotin k e hk, ?_, trivial⟩, ?_, ?_⟩
      · rw [hdi]; exact hp3
      · rw [hdj]; exact hr3
      · refine FacesOk.congr (fun k hk => hold k fun e => hnotin2 k e hk) ?_
        rw [above_append, ← hp3]
        show FacesOk G _ (toggle (toggle p.right_faces_polygons (G.poly i)) (G.poly j)) l₂
        rw [hpoly, htog, hp3]
        exact hf2
    · exact fun k hk e => hold k e
    · intro k hk
      show Kept G (dat (putPacket (putPacket st.arena i p) j r) k) k
      rw [hd2]
      split
      · rename_i e; subst e; exact hr2
      · split
        · rename_i e; subst e; exact hp2
        · exact h.packets.kept k hk
    · intro k hk e
      show Started G (dat (putPacket (putPacket st.arena i p) j r) k) k
      rcases only2 k hk e with rfl | rfl
      · rw [hdi]; exact hp1
      · rw [hdj]; exact hr1
    · rw [hmate]
      unfold sideFlags opp
      simp only [SegmentEnd.other, SegmentPacket.faces]
      rw [hdi, hdj, hr1.left, hrfl, hpoly, htog, hp1.left]
      exact ⟨rfl, rfl⟩
    · intro k hk e k' hk'
      rcases only2 k hk e with rfl | rfl
      · rw [hdi, hp4] at hk'
        have hkl : k' ∈ l₁ := List.mem_of_getLast? hk'
        obtain ⟨k0, k1⟩ := hl1N k' hkl
        refine ⟨k0, ?_, key_lt_of_time (x := (k', .left)) (y := (k, .left)) k0 hk (by show G.a k' < G.a k; linarith)⟩
        rw [hdi, hold k' (by linarith), hp3]
        exact last_left hf1 hstd1 k' hk'
      · rw [hdj, hr4, List.getLast?_append] at hk'
        cases hk'
        refine ⟨hi, ?_, hkey⟩
        show (dat (putPacket (putPacket st.arena i p) k r) i).left_faces_polygons = (dat (putPacket (putPacket st.arena i p) k r) k).right_faces_polygons
        rw [hdi, hdj, hp1.left, hrfl]
    · intro k hk e hms hkk
      rcases only2 k hk e with rfl | rfl
      · refine ⟨l₁, ?_, ?_, ?_, ?_, ?_⟩
        · exact (List.pairwise_append.1 (List.pairwise_append.1 hc.stack.sorted).1).1.imp fun {a b} h e => by rw [e] at h; exact lt_irrefl _ h
        · intro z
          rw [hai, hyi]
          constructor
          · intro hz
            obtain ⟨z0, z1⟩ := hl1N z hz
            have := hc.low z hz
            exact ⟨z0, by linarith, by linarith, this.1⟩
          · rintro ⟨z0, z1, z2, z3⟩
            rcases split z z0 (by linarith) (hgap (z, .right) z0 z2) with e | e | e
            · linarith
            · exact e
            · have := (hc.high z e).1; linarith
        · rw [hdi]; exact hp3
        · rw [hdi]; exact hp4
        · rw [hai]
          refine (List.pairwise_append.1 (List.pairwise_append.1 hc.stack.sorted).1).1.imp_of_mem ?_
          intro z w hz hw hlt
          obtain ⟨z0, z1, z2⟩ := hc.stack.alive z (by simp [hz])
          obtain ⟨w0, w1, w2⟩ := hc.stack.alive w (by simp [hw])
          have z3 := hc.low z hz
          have w3 := hc.low w hw
          exact order_lift z0 w0 (by rintro rfl; exact lt_irrefl _ hlt) z1.le z2.le w1.le w2.le (by linarith) (by linarith) (by linarith) (by linarith) hlt
      · rw [hmm] at hkk
        exact absurd hkk (lt_asymm hkey)
  · -- start before end: not in this order
    exact absurd hkey (lt_asymm (key_right_left hptj))
  · -- one ends, one starts
    have hbi : G.b i = T := hT
    have haj : G.a j = T := by rw [← hT, ← hptj]; rfl
    obtain ⟨hyj, hbj⟩ := startsAlive j hj haj
    have only1 : ∀ k < G.N, G.a k = T → k = j := by
      intro k hk e
      rcases (starts k hk).1 e with e | e
      · exact absurd (congrArg Prod.snd e) (by simp)
      · exact congrArg Prod.fst e
    have only1' : ∀ k < G.N, G.b k = T → k = i := by
      intro k hk e
      rcases (ends k hk).1 e with e | e
      · exact congrArg Prod.fst e
      · exact absurd (congrArg Prod.snd e) (by simp)
    have hm : m = [i] := by
      have hnd : m.Pairwise fun a b => G.h a t < G.h b t := (List.pairwise_append.1 (List.pairwise_append.1 hc.stack.sorted).1).2.1
      refine sorted_unique (fun k => G.h k t) m [i] hnd (by simp) fun k => ?_
      rw [hc.mid k, List.mem_singleton]
      constructor
      · rintro ⟨h1, h2⟩; exact only1' k h1 h2
      · rintro rfl; exact ⟨hi, hbi⟩
    subst hm
    have hact' : st.active = l₁ ++ i :: l₂ := by rw [hact]; simp
    have hstt : Stack G t (l₁ ++ i :: l₂) := by have := hc.stack; simpa using this
    have hai : G.a i < t := (hstt.alive i (by simp)).2.1
    have hst1 : Stack G t' (l₁ ++ [j] ++ l₂) := hc.after htT hTt (r := [j]) (by intro k hk; rw [List.mem_singleton] at hk; subst hk; exact ⟨hj, haj, hyj, hbj⟩) (by simp)
    have hnotin : ∀ z, G.a z = T → z ∉ l₁ := fun z hz hzl => by have := (hl1N z hzl).2; linarith
    have hnotin2 : ∀ z, G.a z = T → z ∉ l₂ := fun z hz hzl => by have := (hl2N z hzl).2; linarith
    have sp := sweepRight_net hl (st := { st with queue := q1 }) (i := i) (l₁ := l₁) (l₂ := l₂) (t := t) h.has hact' hstt np
    obtain ⟨q2, p2, perm2, heap2⟩ := pop2 _ h.has
    obtain ⟨r, sr, hr1, hr2, hr3, hr4⟩ := sweepLeft_net hl (st := { arena := st.arena, queue := q2, active := l₁ ++ l₂, swept := st.swept ++ [i] })
      (i := j) (l₁ := l₁) (l₂ := l₂) (t := t') h.has rfl (by simpa using hst1) h.packets.kept (h.packets.fresh j hj (by linarith)) hstd1 hf1
      (fun k s hk hs => hvert st.arena j h.has hj haj hst1 k s hk hs) np
    have hjL : j < st.arena.length := by rw [h.has.length]; exact hj
    have has2 := h.has.put j r
    have hd2 : ∀ k, dat (putPacket st.arena j r) k = if k = j then r else dat st.arena k := dat_put hjL r
    have hdj : dat (putPacket st.arena j r) j = r := by rw [hd2, if_pos rfl]
    have hold : ∀ k, G.a k ≠ T → dat (putPacket st.arena j r) k = dat st.arena k := by
      intro k hk
      rw [hd2, if_neg (by rintro rfl; exact hk haj)]
    have hdi : dat (putPacket st.arena j r) i = dat st.arena i := hold i (by linarith)
    have hri : (dat st.arena i).right_faces_polygons = r.right_faces_polygons := by rw [hfm.1, hr3]
    have hli : (dat st.arena i).left_faces_polygons = r.left_faces_polygons := by
      rw [(h.packets.started i hi hai).left, hr1.left, hri, hpoly]
    refine ⟨t', { arena := putPacket st.arena j r, queue := q2, active := l₁ ++ j :: l₂, swept := st.swept ++ [i] }, ?_, hlen q2 perm2,
      loop_two p1 sp p2 sr⟩
    refine h.next (T := T) hx hT.symm htT hTt hmin hgap has2 ?_ ?_ ?_ ?_ ?_ ?_ ?_ ?_ ?_ ?_ ?_ ?_
    · rw [hmate]; exact permQ q2 perm2
    · exact hh.transfer h.has has2 (hq2N q2 perm2) heap2
    · simpa using hst1
    · intro k hk k1 k2
      show k ∈ l₁ ++ j :: l₂
      rcases split k hk k1 k2 with e | e | e
      · rw [only1 k hk e]; simp
      · simp [e]
      · simp [e]
    · refine ⟨[i], rfl, by simp, fun k => ?_⟩
      rw [List.mem_singleton]
      constructor
      · rintro rfl; exact ⟨hi, hbi⟩
      · rintro ⟨h1, h2⟩; exact only1' k h1 h2
    · show FacesOk G _ (noFlags G) (l₁ ++ j :: l₂)
      rw [FacesOk.append]
      refine ⟨hf1.congr fun k hk => hold k fun e => hnotin k e hk, ?_, ?_⟩
      · rw [hdj]; exact hr3
      · refine FacesOk.congr (fun k hk => hold k fun e => hnotin2 k e hk) ?_
        rw [hpoly]
        rw [above_append] at hf2
        exact hf2
    · exact fun k hk e => hold k e
    · intro k hk
      show Kept G (dat (putPacket st.arena j r) k) k
      rw [hd2]
      split
      · rename_i e; subst e; exact hr2
      · exact h.packets.kept k hk
    · intro k hk e
      show Started G (dat (putPacket st.arena j r) k) k
      rw [only1 k hk e, hdj]; exact hr1
    · rw [hmate]
      unfold sideFlags opp
      simp only [SegmentEnd.other, SegmentPacket.faces]
      rw [hdi, hdj, hri, hli]
      exact ⟨rfl, rfl⟩
    · intro k hk e k' hk'
      have hkj := only1 k hk e
      subst hkj
      rw [hdj, hr4] at hk'
      have hkl : k' ∈ l₁ := List.mem_of_getLast? hk'
      obtain ⟨k0, k1⟩ := hl1N k' hkl
      refine ⟨k0, ?_, key_lt_of_time (x := (k', .left)) (y := (k, .left)) k0 hk (by show G.a k' < G.a k; linarith)⟩
      rw [hdj, hold k' (by linarith), hr3]
      exact last_left hf1 hstd1 k' hk'
    · intro k hk e hms hkk
      rw [only1 k hk e, hmm] at hms
      exact absurd hms (by simp)
  · -- both end
    have hbi : G.b i = T := hT
    have hbj : G.b j = T := by rw [← hT, ← hptj]; rfl
    have only2 : ∀ k < G.N, G.b k = T → k = i ∨ k = j := by
      intro k hk e
      rcases (ends k hk).1 e with e | e
      · exact Or.inl (congrArg Prod.fst e)
      · exact Or.inr (congrArg Prod.fst e)
    have none : ∀ k < G.N, G.a k ≠ T := by
      intro k hk e
      rcases (starts k hk).1 e with e | e <;> exact absurd (congrArg Prod.snd e) (by simp)
    have hhij : G.h j t < G.h i t := (key_right_right hi hj hij.symm (by have := hptj; exact this.symm) (by rw [hbi]; exact htT)).2.1 hkey
    have hm : m = [j, i] := by
      have hnd : m.Pairwise fun a b => G.h a t < G.h b t := (List.pairwise_append.1 (List.pairwise_append.1 hc.stack.sorted).1).2.1
      refine sorted_unique (fun k => G.h k t) m [j, i] hnd (by simpa using hhij) fun k => ?_
      rw [hc.mid k]
      simp only [List.mem_cons, List.not_mem_nil, or_false]
      constructor
      · rintro ⟨h1, h2⟩; exact (only2 k h1 h2).symm
      · rintro (rfl | rfl)
        · exact ⟨hj, hbj⟩
        · exact ⟨hi, hbi⟩
    subst hm
    have hact' : st.active = (l₁ ++ [j]) ++ i :: l₂ := by rw [hact]; simp
    have hstt : Stack G t ((l₁ ++ [j]) ++ i :: l₂) := by have := hc.stack; simpa using this
    have hstt2 : Stack G t (l₁ ++ j :: l₂) := by
      have hsub : (l₁ ++ j :: l₂).Sublist ((l₁ ++ [j]) ++ i :: l₂) := by
        rw [List.append_assoc]
        exact List.Sublist.append (List.Sublist.refl _) (List.Sublist.cons_cons j (List.sublist_cons_self i l₂))
      exact ⟨fun k hk => hstt.alive k (hsub.subset hk), hstt.sorted.sublist hsub⟩
    have hai : G.a i < t := (hstt.alive i (by simp)).2.1
    have haj : G.a j < t := (hstt.alive j (by simp)).2.1
    have sp := sweepRight_net hl (st := { st with queue := q1 }) (i := i) (l₁ := l₁ ++ [j]) (l₂ := l₂) (t := t) h.has hact' hstt np
    obtain ⟨q2, p2, perm2, heap2⟩ := pop2 _ h.has
    have sr := sweepRight_net hl (st := { arena := st.arena, queue := q2, active := (l₁ ++ [j]) ++ l₂, swept := st.swept ++ [i] })
      (i := j) (l₁ := l₁) (l₂ := l₂) (t := t) h.has (by simp) hstt2 np
    have hrj : (dat st.arena j).right_faces_polygons = above G l₁ (noFlags G) := hfm.1
    have hri : (dat st.arena i).right_faces_polygons = toggle (above G l₁ (noFlags G)) (G.poly i) := by rw [hfm.2.1, hpoly]
    have htog : toggle (toggle (above G l₁ (noFlags G)) (G.poly i)) (G.poly i) = above G l₁ (noFlags G) :=
      toggle_toggle (by rw [above_length]; simp [noFlags]; exact G.poly_lt i hi)
    refine ⟨t', { arena := st.arena, queue := q2, active := l₁ ++ l₂, swept := st.swept ++ [i] ++ [j] }, ?_, hlen q2 perm2,
      loop_two p1 sp p2 sr⟩
    refine h.next (T := T) hx hT.symm htT hTt hmin hgap h.has ?_ ?_ ?_ ?_ ?_ ?_ ?_ ?_ ?_ ?_ ?_ ?_
    · rw [hmate]; exact permQ q2 perm2
    · exact heap2
    · have := hc.after htT hTt (r := []) (by simp) (by simp)
      simpa using this
    · intro k hk k1 k2
      show k ∈ l₁ ++ l₂
      rcases split k hk k1 k2 with e | e
      · exact absurd e (none k hk)
      · rwa [List.mem_append]
    · refine ⟨[i, j], by simp, by simpa using hij.symm, fun k => ?_⟩
      simp only [List.mem_cons, List.not_mem_nil, or_false]
      constructor
      · rintro (rfl | rfl)
        · exact ⟨hi, hbi⟩
        · exact ⟨hj, hbj⟩
      · rintro ⟨h1, h2⟩; exact only2 k h1 h2
    · show FacesOk G st.arena (noFlags G) (l₁ ++ l₂)
      rw [FacesOk.append]
      refine ⟨hf1, ?_⟩
      rw [above_append] at hf2
      have hf2 : FacesOk G st.arena (toggle (toggle (above G l₁ (noFlags G)) (G.poly j)) (G.poly i)) l₂ := hf2
      rw [hpoly, htog] at hf2
      exact hf2
    · exact fun k hk e => rfl
    · exact h.packets.kept
    · exact fun k hk e => absurd e (none k hk)
    · rw [hmate]
      unfold sideFlags opp
      simp only [SegmentEnd.other, SegmentPacket.faces]
      rw [(h.packets.started i hi hai).left, (h.packets.started j hj haj).left, hri, hrj, hpoly, htog]
      exact ⟨rfl, rfl⟩
    · exact fun k hk e => absurd e (none k hk)
    · exact fun k hk e => absurd e (none k hk)

/-- The whole sweep. -/
theorem sweep_net {lib : Lib} (hl : lib.Lawful) {Heap} (hh : HeapOk lib Heap) (np : Nat) : ∀ (n : Nat) {t : ℝ} {st : SweepState ℝ}, Inv G Heap t st → st.queue.length ≤ n →
    ∃ t' st', Inv G Heap t' st' ∧ st'.queue = [] ∧ ∀ fuel, st.queue.length < fuel → sweepLoop lib np fuel st = .ok st' := by
  intro n
  induction n using Nat.strong_induction_on with
  | _ n ih =>
    intro t st h hn
    by_cases hq : st.queue = []
    · refine ⟨t, st, h, hq, fun fuel hf => ?_⟩
      obtain ⟨f, rfl⟩ : ∃ f, fuel = f + 1 := ⟨fuel - 1, by omega⟩
      rw [sweepLoop, hq, hh.pop_nil]
      rfl
    · obtain ⟨t', st', h', hlen, hstep⟩ := corner_step hl hh h hq np
      obtain ⟨t'', st'', h'', hq'', hrun⟩ := ih (n - 2) (by omega) h' (by omega)
      refine ⟨t'', st'', h'', hq'', fun fuel hf => ?_⟩
      obtain ⟨f, rfl⟩ : ∃ f, fuel = f + 2 := ⟨fuel - 2, by omega⟩
      rw [hstep, hrun f (by omega)]

end Idc
