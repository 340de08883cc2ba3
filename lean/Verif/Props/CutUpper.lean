import Verif.Props.CutBehind
/-!
# An edge that runs along the rest of another, for C84: the pieces
-/

namespace Idc

namespace Cut

open Plan

variable {G : Plan} {C : Cut G} {Heap : (EndId → EndId → Res Ordering) → List EndId → Prop} {g : Ghost} {st st' : SweepState ℝ}

/-- Where up is, next to an edge of another polygon. -/
theorem update_up {A B : Arena ℝ} {i k : ℕ} (hA : G.Has A) (hi : i ∈ G.S) (hk : k ∈ G.S) {f : ℕ → ZMod 2} (hp : (dat A i).polygon_index = G.poly i) (hpk : (dat A k).polygon_index = G.poly k)
    (hne : G.poly i ≠ G.poly k) (hf : (dat A k).left_faces_polygons = G.flag f) (hu : updatePolygonFacing A i (some k) = .ok B) :
    (dat B i).up_faces_outwards = decide (f (G.poly i) = 1) := by
  have hil := hA.lt hi
  unfold updatePolygonFacing at hu
  obtain ⟨s, hs, hu⟩ := Res.bind_eq_ok hu
  obtain ⟨b, hb, hu⟩ := Res.bind_eq_ok hu
  obtain ⟨p, hpp, hu⟩ := Res.bind_eq_ok hu
  have hs' := index_eq_ok hs
  rw [setPacket_put hil] at hu
  cases hu
  rw [dat_put hil, if_pos rfl]
  unfold borrowBelow at hb
  dsimp only at hb
  split at hb
  · cases hb
  obtain ⟨s₂, hs₂, hb⟩ := Res.bind_eq_ok hb
  cases hb
  have hs₂' := index_eq_ok hs₂
  rw [dat_of hs'] at hp
  rw [dat_of hs₂'] at hpk hf
  unfold facingPacket at hpp
  dsimp only at hpp
  obtain ⟨u, hup, hpp⟩ := Res.bind_eq_ok hpp
  obtain ⟨l, _, hpp⟩ := Res.bind_eq_ok hpp
  obtain ⟨r, _, hpp⟩ := Res.bind_eq_ok hpp
  obtain ⟨l', _, hpp⟩ := Res.bind_eq_ok hpp
  cases hpp
  dsimp only
  unfold facingUp at hup
  dsimp only at hup
  rw [if_neg (by rw [hp, hpk]; exact hne)] at hup
  obtain ⟨v, hv, hup⟩ := Res.bind_eq_ok hup
  cases hup
  have hv' := index_eq_ok hv
  rw [hf, hp, flag_get, if_pos (G.poly_lt i hi)] at hv'
  exact (Option.some.inj hv').symm

/-- Both starts, in the run on the pieces. -/
theorem Sim.late_both {lib : Lib} (hl : lib.Lawful) (hh : HeapOk lib Heap) (h : Sim C Heap g st st') {n k m : ℕ} (hL : Late C g st'.queue k m) (he : G.lp n = G.rp k)
    (hn : (n, SegmentEnd.left) ∈ st'.queue) (hmin : ∀ y ∈ st'.queue, y ≠ (k, .right) → y ≠ (m, .left) → G.key (n, .left) ≤ G.key y) (hsame : G.Same m n)
    (hlt : G.key (m, .left) < G.key (n, .left)) :
    ∃ l₁ l₂ q A X, st'.queue.Perm ((n, .left) :: (k, .right) :: (m, .left) :: q) ∧ st'.active = l₁ ++ k :: l₂ ∧ (l₁ ++ k :: l₂).Pairwise (Lower G) ∧
      Reaches lib G.n st' ⟨A, q, l₁ ++ m :: n :: l₂, st'.swept ++ [k]⟩ ∧ updatePolygonFacing st'.arena n (some k) = .ok X ∧
      Behind G Heap ⟨A, q, l₁ ++ m :: n :: l₂, st'.swept ++ [k]⟩ m n X l₁ l₂ ∧ (∀ a, l₂.head? = some a → Meanwhile G n a ∧ ¬ G.Same n a) ∧
      ∀ b, l₁.getLast? = some b → Meanwhile G b n ∧ ¬ G.Same b n := by
  have hR := h.rel
  have hkS := hL.joint.left
  have hmS := hL.joint.right
  have hnS : n ∈ G.S := hR.inv.qmem _ hn
  have hmn : m ≠ n := by rintro rfl; exact lt_irrefl _ hlt
  have hpoly : G.poly m ≠ G.poly n := G.poly_ne hmS hnS hmn hsame
  have hpk : G.poly k = G.poly m := C.poly k hkS m hmS hL.joint.own
  obtain ⟨q1, l₁, l₂, p1, ha, hlow1, hsd, hI1, r1⟩ := h.late_right hl hh hL
  have mt1 := mem_tail hR.inv.qnodup p1
  -- who starts there
  have hqueue : ∀ v ∈ G.S, G.lp v = G.lp m → (v, SegmentEnd.left) ∈ st'.queue := by
    intro v hv e
    by_contra hnq
    have h1 := h.inv.qup (v, .left) hv hnq _ hL.mem
    have h2 : G.key (k, .right) < G.key (v, .left) := key_right_left (by show G.rp k = G.lp v; rw [e]; exact hL.joint.meet)
    exact lt_asymm h1 h2
  have hfirst : ∀ v ∈ G.S, G.lp v = G.lp m → G.key (m, .left) ≤ G.key (v, .left) := by
    intro v hv e
    by_cases hvm : v = m
    · rw [hvm]
    · exact hlt.le.trans (hmin _ (hqueue v hv e) (fun e => nomatch e) (fun e => hvm (Prod.mk.inj e).1))
  have hm1 : (m, SegmentEnd.left) ∈ q1 := (mt1 _).2 ⟨hqueue m hmS rfl, fun e => nomatch e⟩
  obtain ⟨q2, A1, p2, hmin2, hB1, hns1, hu1, hI2, r2, hpl1⟩ := late_started hl hh hI1 hsd hm1 (by
    intro y hy
    obtain ⟨h1, h2⟩ := (mt1 y).1 hy
    by_cases e : y = (m, .left)
    · rw [e]
    · exact hlt.le.trans (hmin y h1 h2 e)) hL.joint.meet.symm
  have mt2 := mem_tail (st := ⟨st'.arena, q1, l₁ ++ l₂, st'.swept ++ [k]⟩) hI1.qnodup p2
  have hn2 : (n, SegmentEnd.left) ∈ q2 := (mt2 _).2 ⟨(mt1 _).2 ⟨hn, fun e => nomatch e⟩, fun e => hmn (Prod.mk.inj e).1.symm⟩
  obtain ⟨q3, o1, o2, o3, o4⟩ := pop_first hh hI2 (z := (n, .left)) hn2 (by
    intro y hy
    obtain ⟨h1, h2⟩ := (mt2 y).1 hy
    obtain ⟨h3, h4⟩ := (mt1 y).1 h1
    exact hmin y h3 h4 h2)
  obtain ⟨k₁, k₂, A5, hak, hB, _, hSt, hrun, hI3, hpl3⟩ := step_left' hl hh hI2 o2 o3 o4 G.n
  have hal : ∀ v ∈ (l₁ ++ [m]) ++ l₂, G.Alive (G.tau n) v := by
    intro v hv
    rw [show (l₁ ++ [m]) ++ l₂ = k₁ ++ k₂ by rw [← hak]; simp] at hv
    refine hB.stack.alive v ?_
    simp only [List.mem_append, List.mem_cons] at hv ⊢
    tauto
  have ht : G.a n = G.b k := congrArg G.time he
  obtain ⟨ek₁, ek₂⟩ := placed (l₁ := l₁ ++ [m]) (l₂ := l₂) hB (by rw [← hak]; simp) (by
    intro v hv
    rcases List.mem_append.1 hv with hv | hv
    · exact low_of_lt (hal v (by simp [hv])) hnS (by rw [ht, he]; exact hsd.below v hv)
    · rw [List.mem_singleton] at hv
      subst hv
      exact Or.inr ⟨hsame.h _, (key_same .left hmS hnS hsame).1 hlt⟩)
    (fun v hv => low_of_gt (hal v (by simp [hv])) hnS (by rw [ht, he]; exact hsd.above v hv))
  rw [ek₁, ek₂] at hB hI3 hrun
  rw [ek₁] at hSt
  rcases hSt with ⟨hns, _⟩ | ⟨k', l', A2, A3, A4, e, hs, u2, hH, u4, u5, hnc, hpn, hhas2, hhas3, hhas4⟩
  · exact absurd hsame (hns m (by simp))
  obtain ⟨rfl, e'⟩ := List.append_inj' e rfl
  simp only [List.cons.injEq, and_true] at e'
  subst e'
  have hlastn : l₁.getLast? ≠ some n := by
    intro e
    have : n ∈ st'.active := by rw [ha]; simp [List.mem_of_getLast? e]
    exact ((h.inv.active n).1 this).2.1 hn
  have hka : k ∈ st'.active := by rw [ha]; simp
  obtain ⟨_, hkl, hkr⟩ := (h.inv.active k).1 hka
  have hkn : k ≠ n := by rintro rfl; exact hkl hn
  -- the other first update
  obtain ⟨pk, hPk, hX⟩ := updateFacing hR.inv.has hnS (some k) (fun j hj => by cases hj; exact ⟨hkS, hkn⟩) (fun _ => True) (by
    intro below hbl
    cases below with
    | none => cases hbl
    | some s =>
      obtain ⟨k', e, hs', is⟩ := hbl
      cases e
      have hfr := h.inv.fresh n hnS hn
      have hsk := hR.inv.solid k hkS
      rw [dat_of hs'] at hsk
      obtain ⟨p', f1, _⟩ := facing_weak hnS (h.inv.kept n hnS) hfr.left hfr.right s hsk.left hsk.right
      exact ⟨p', f1, trivial⟩)
  generalize hXe : putPacket st'.arena n { pk with is_in_result := pk.isInResult } = X at hX
  have near0 : Near n st'.arena X := near_update hX
  obtain ⟨Y1, v1, near1⟩ := near0.update hmn hlastn hu1
  have near2 : Near n A2 Y1 := (near_update u2).symm.trans near1
  obtain ⟨solA1, hasA1⟩ := solid_update hR.inv.solid hR.inv.has hmS hu1
  obtain ⟨solA2, _⟩ := solid_update solA1 hasA1 hnS u2
  obtain ⟨solX, hasX⟩ := solid_update hR.inv.solid hR.inv.has hnS hX
  obtain ⟨solY, hasY⟩ := solid_update solX hasX hmS v1
  obtain ⟨sm, em, im⟩ := hhas2.seg m hmS
  obtain ⟨sn, en, in_⟩ := hhas2.seg n hnS
  obtain ⟨sm', em', im'⟩ := hasY.seg m hmS
  obtain ⟨sn', en', in'⟩ := hasY.seg n hnS
  have hYm : dat Y1 m = dat A2 m := (near2.dat hmn).symm
  have hcore : core (dat A2 n) = core (dat Y1 n) := by
    obtain ⟨s, p, f1, f2, f3⟩ := near2.self
    rw [dat_of f1, dat_of f2]
    exact f3
  have hncY : (dat Y1 n).edge_type ≠ .nonContributing := by
    have := congrArg SegmentPacket.edge_type hcore
    have : (dat A2 n).edge_type = (dat Y1 n).edge_type := this
    rw [← this]
    exact hnc
  have hup : (dat Y1 n).up_faces_outwards = (dat A2 n).up_faces_outwards := by
    have e1 : (dat A2 n).up_faces_outwards = decide (G.hi m (G.poly n) = 1) :=
      update_up hasA1 hnS hmS (solA1 n hnS).polyi (solA1 m hmS).polyi hpoly.symm (hI2.good m hmS (fun hq => ((mt2 _).1 hq).2 rfl)).left u2
    have e2 : (dat X n).up_faces_outwards = decide (G.hi k (G.poly n) = 1) :=
      update_up hR.inv.has hnS hkS (hR.inv.solid n hnS).polyi (hR.inv.solid k hkS).polyi (by rw [hpk]; exact hpoly.symm) (h.inv.good k hkS hkl).left hX
    rw [dat_update (hasX.lt hmS) v1 hmn.symm, e1, e2, hL.joint.hi_eq hL.only hfirst]
  have hHA := handle_coincide (C := C) (Run.refl hmS) (Run.refl hnS) hmn em en (seg_of_is im) (seg_of_is in_) hmn hsame (solA2 m hmS).polyi (solA2 n hnS).polyi hnc
  have hHY := handle_coincide (C := C) (Run.refl hmS) (Run.refl hnS) hmn em' en' (seg_of_is im') (seg_of_is in') hmn hsame (solY m hmS).polyi (solY n hnS).polyi hncY
  rw [hH] at hHA
  simp only [Res.ok.injEq, Prod.mk.injEq] at hHA
  have near3 : Near n A3 (putPacket (putPacket Y1 m { dat Y1 m with edge_type := .nonContributing }) n { dat Y1 n with edge_type :=
        if (dat Y1 m).up_faces_outwards = (dat Y1 n).up_faces_outwards then .sameTransition else .differentTransition }) := by
    rw [hHA.1, hYm, hup]
    refine (near2.put hmn _).put_self ?_
    have : ∀ (p p' : SegmentPacket) (t : EdgeType), core p = core p' → core { p with edge_type := t } = core { p' with edge_type := t } := by
      intro p p' t hc
      have : { core p with edge_type := t } = { core p' with edge_type := t } := by rw [hc]
      exact this
    exact this _ _ _ hcore
  obtain ⟨Y3, v4, near4⟩ := near3.update hmn hlastn u4
  have v5 := near4.merge hmn u5
  have hnsn : ∀ b, l₁.getLast? = some b → ¬ G.Same b n := fun b hb hs => hns1 b hb (hs.trans hsame.symm)
  rw [show l₁ ++ [m] ++ n :: l₂ = l₁ ++ m :: n :: l₂ by simp] at hI3 hrun
  have hstk : Plan.Stack G (G.tau n) (l₁ ++ m :: n :: l₂) := by
    have := hB.stack
    rwa [show l₁ ++ [m] ++ n :: l₂ = l₁ ++ m :: n :: l₂ by simp] at this
  refine ⟨l₁, l₂, q3, A5, X, ?_, ha, hlow1, r1.trans (r2.trans (.step o1 o2 hrun rfl)), hX, ?_, ?_, ?_⟩
  · exact p1.trans (((p2.trans (o2.cons _)).cons _).trans ((List.Perm.swap _ _ _).cons _ |>.trans (List.Perm.swap _ _ _)))
  · refine { inv := hI3, active := rfl, same := hsame, min := ?_, below := ?_, arena := ⟨Y1, _, Y3, _, _, _, v1, hncY, hHY, v4, v5⟩ }
    · intro y hy
      have hy2 : y ∈ q2 := o2.mem_iff.2 (List.mem_cons_of_mem _ hy)
      exact hmin2 y hy2
    · intro b hb
      exact ⟨hstk.meanwhile (by simp [List.mem_of_getLast? hb]) (by simp), hns1 b hb⟩
  · intro a hah
    exact ⟨hstk.meanwhile (by simp) (by simp [List.mem_of_head? hah]), hB.up a hah⟩
  · intro b hb
    exact ⟨hstk.meanwhile (by simp [List.mem_of_getLast? hb]) (by simp), hnsn b hb⟩

end Cut

end Idc
