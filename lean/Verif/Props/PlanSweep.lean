import Verif.Props.PlanParity
/-!
# One event of the sweep, for C81
-/

namespace Idc

namespace Plan

variable {G : Plan}

/-- What the sweep writes into a packet. -/
structure Good (G : Plan) (p : SegmentPacket) (i : ℕ) : Prop where
  right : p.right_faces_polygons = G.flag (G.lo i)
  left : p.left_faces_polygons = G.flag (G.hi i)
  up : p.up_faces_outwards = decide (G.lo i (G.poly i) = 1)
  below : p.below_in_result = G.B i

/-- What the sweep leaves alone. -/
structure Kept (G : Plan) (p : SegmentPacket) (i : ℕ) : Prop where
  polyi : p.polygon_index = G.poly i
  mode : p.mode = .removeEdges ↔ G.rem (G.poly i)
  lproc : p.left_processed = false
  rproc : p.right_processed = false
  lid : p.left_contour_id = none
  rid : p.right_contour_id = none

/-- The packet of a segment that has not been reached. -/
structure Fresh (G : Plan) (p : SegmentPacket) : Prop where
  left : p.left_faces_polygons.length = G.n
  right : p.right_faces_polygons.length = G.n
  type : p.edge_type = .normal
  below : p.below_in_result = none

/-- The segment counts: no other that coincides with it does. -/
def In (G : Plan) (p : SegmentPacket) (i : ℕ) : Prop := p.edge_type ≠ .nonContributing ∧ (p.is_in_result = true ↔ ¬ G.rem (G.poly i))
/-- The segment does not count: another coincides with it. -/
def Out (p : SegmentPacket) : Prop := p.edge_type = .nonContributing ∧ p.is_in_result = false

theorem grp_self {k : ℕ} (hk : k ∈ G.S) : G.grp k (G.poly k) = 1 := by
  classical
  unfold grp
  have key : ∀ j ∈ G.S.filter (fun j => G.poly j = G.poly k), ind (G.Same j k ∧ G.poly j ≤ G.poly k) = if j = k then 1 else 0 := by
    intro j hj
    obtain ⟨hj, hp⟩ := Finset.mem_filter.1 hj
    split
    · rename_i e; subst e; exact ind_true ⟨Same.refl G j, le_rfl⟩
    · rename_i e
      exact ind_false fun h => G.poly_ne hj hk e h.1 hp
  rw [Finset.sum_congr rfl key, Finset.sum_ite_eq']
  simp [hk]

theorem grp_zero {k m : ℕ} (h : G.poly k < m) : G.grp k m = 0 := by
  unfold grp
  refine Finset.sum_eq_zero fun j hj => ind_false ?_
  rintro ⟨_, h2⟩
  have := (Finset.mem_filter.1 hj).2
  omega

theorem Under.ne {i k : ℕ} (h : G.Under i k) : k ≠ i := by
  rintro rfl
  exact Low.irrefl h.low

theorem Under.poly_lt {i k : ℕ} (h : G.Under i k) (hs : G.Same k i) : G.poly k < G.poly i := by
  rcases h.low with h1 | h1
  · rw [hs.h] at h1; exact absurd h1 (lt_irrefl _)
  · exact h1.2

/-- What is just above the segment below is what is just below. -/
theorem Under.hi_poly {i k : ℕ} (hi : i ∈ G.S) (h : G.Under i k) : G.hi k (G.poly i) = G.lo i (G.poly i) := by
  by_cases hs : G.Same k i
  · unfold Plan.hi
    rw [grp_zero (h.poly_lt hs), add_zero, hs.lo]
  · exact (h.lo_eq hi hs _).symm

theorem Under.hi_eq {i k : ℕ} (hi : i ∈ G.S) (h : G.Under i k) (m : ℕ) : G.hi i m = G.hi k m + if m = G.poly i then 1 else 0 := by
  by_cases hs : G.Same k i
  · unfold Plan.hi
    rw [h.grp_same hi hs, hs.lo, add_assoc]
  · rw [← h.lo_eq hi hs]
    unfold Plan.hi
    rw [grp_alone hi]
    intro j hj hji
    by_contra hn
    rw [not_le] at hn
    refine h.max j ((alive_self hi).same hj hji) (Or.inr ⟨hji.h _, hn⟩) (Or.inl ?_)
    rw [hji.h]; exact h.lt hi hs

theorem hi_none {i : ℕ} (hi : i ∈ G.S) (h : ∀ j, G.Alive (G.tau i) j → ¬ G.Low (G.tau i) j i) (m : ℕ) : G.hi i m = if m = G.poly i then 1 else 0 := by
  unfold Plan.hi
  rw [lo_none h, zero_add, grp_alone hi]
  intro j hj hji
  by_contra hn
  rw [not_le] at hn
  exact h j ((alive_self hi).same hj hji) (Or.inr ⟨hji.h _, hn⟩)

/-- A segment below another where that one starts is not vertical. -/
theorem not_vertical {i k : ℕ} (hi : i ∈ G.S) (hk : G.Alive (G.tau i) k) (hl : G.h k (G.tau i) < G.h i (G.tau i)) {s : BoolSegment ℝ} (hs : G.Is k s) :
    s.vertical = false := by
  by_contra hv
  rw [Bool.not_eq_false] at hv
  have hx : (G.lp k).x = (G.rp k).x := by
    unfold SweepSegment.vertical at hv
    rw [hs.left, hs.right] at hv
    simpa [FloatOps.eq] using hv
  have hy : (G.lp k).y < (G.rp k).y := by
    rcases G.wf k hk.1 with h | h
    · linarith
    · exact h.2
  obtain ⟨h1, h2⟩ := (G.alive_tau hk.1).1 hk.2
  rcases lt_or_eq_of_le h1 with h1 | h1
  · have l1 : LeftOf (G.lp k) (G.lp i) := (G.leftOf_iff (x := (k, .left)) (y := (i, .left)) hk.1 hi).2 h1
    have l2 : LeftOf (G.lp i) (G.rp k) := (G.leftOf_iff (x := (i, .left)) (y := (k, .right)) hi hk.1).2 h2
    have ex : (G.lp i).x = (G.lp k).x ∧ (G.lp k).y < (G.lp i).y ∧ (G.lp i).y < (G.rp k).y := by
      rcases l1 with l1 | l1 <;> rcases l2 with l2 | l2
      · linarith
      · linarith [l2.1]
      · linarith [l1.1]
      · exact ⟨l1.1.symm, l1.2, l2.2⟩
    refine G.h_ne hk.1 (x := (i, .left)) hi h1 h2 ?_
    have ha := G.area_h hk.1 (G.lp i)
    have h0 : triangleSignedArea (G.lp k) (G.rp k) (G.lp i) = 0 := by
      simp only [triangleSignedArea, FloatOps.sub, FloatOps.mul]
      rw [← hx, ex.1]; ring
    rw [h0] at ha
    have := G.a_lt_b hk.1
    rcases mul_eq_zero.1 ha.symm with h | h
    · linarith
    · show G.h k (G.time (G.lp i)) = (G.lp i).y
      linarith
  · have hp : G.lp k = G.lp i := G.time_inj (x := (k, .left)) (y := (i, .left)) hk.1 hi h1
    have hc := (crs_left hk.1 hi hp (u := G.tau i) hk.2.1).2 hl
    unfold crs at hc
    simp only [opp, SegmentEnd.other, pt] at hc
    rw [← hx, sub_self, zero_mul, zero_sub] at hc
    have : (G.lp i).x ≤ (G.rp i).x := by
      rcases G.wf i hi with h | h
      · exact h.le
      · exact h.1.le
    have := mul_nonneg (a := (G.rp k).y - (G.lp k).y) (b := (G.rp i).x - (G.lp i).x) (by linarith) (by linarith)
    linarith

/-- What must be known of the segment below. -/
structure BelowOk (G : Plan) (i : ℕ) (s : BoolSegment ℝ) (k : ℕ) : Prop where
  is : G.Is k s
  under : G.Under i k
  good : Good G s.data k
  polyi : s.data.polygon_index = G.poly k
  same : G.Same k i → s.data.edge_type = .nonContributing
  other : ¬ G.Same k i → s.data.edge_type ≠ .nonContributing

/-- The packet written for a segment, given the one below. -/
theorem facing_good {p : SegmentPacket} {i : ℕ} (hi : i ∈ G.S) (hk : Kept G p i) (hl : p.left_faces_polygons.length = G.n)
    (hr : p.right_faces_polygons.length = G.n) (below : Option (BoolSegment ℝ))
    (hb : match below with
      | none => (∀ j, G.Alive (G.tau i) j → ¬ G.Low (G.tau i) j i) ∧ p.below_in_result = none
      | some s => ∃ k, BelowOk G i s k) :
    ∃ p', facingPacket p below = .ok p' ∧ Good G p' i ∧ Kept G p' i ∧ p'.edge_type = p.edge_type := by
  have hpn : G.poly i < G.n := G.poly_lt i hi
  cases below with
  | none =>
    obtain ⟨hb, hbn⟩ := hb
    have e1 : bvClear p.left_faces_polygons = G.flag fun _ => 0 := by
      unfold bvClear; rw [List.map_const', hl, flag_zero]
    have e2 : bvClear p.right_faces_polygons = G.flag fun _ => 0 := by
      unfold bvClear; rw [List.map_const', hr, flag_zero]
    unfold facingPacket
    dsimp only
    unfold bvSet
    rw [hk.polyi, e1, e2, if_pos (by rw [flag_length]; exact hpn)]
    simp only [Res.bind_ok, Res.pure_eq]
    refine ⟨_, rfl, ⟨?_, ?_, ?_, ?_⟩, ⟨rfl, hk.mode, hk.lproc, hk.rproc, hk.lid, hk.rid⟩, rfl⟩
    · exact flag_inj.2 fun m _ => (lo_none hb m).symm
    · have := flag_toggle (G := G) (fun _ => 0) hpn
      unfold toggle at this
      rw [flag_getD _ hpn] at this
      have d : decide ((0 : ZMod 2) = 1) = false := by decide
      rw [d] at this
      show (G.flag fun _ => 0).set (G.poly i) (!false) = _
      rw [this]
      exact flag_inj.2 fun m _ => by rw [hi_none hi hb, zero_add]
    · rw [lo_none hb]; show false = decide ((0 : ZMod 2) = 1); decide
    · show p.below_in_result = _
      rw [hbn, B_none]
      intro j a l
      exact hb j a (Or.inl l)
  | some s =>
    obtain ⟨k, hb⟩ := hb
    have hkS := hb.under.alive.1
    have hv : ¬ G.Same k i → s.vertical = false := fun hs => not_vertical hi hb.under.alive (hb.under.lt hi hs) hb.is
    have hup : ∃ out, facingUp p s = .ok (decide (G.hi k (G.poly i) = 1), out) := by
      unfold facingUp
      dsimp only
      rw [hk.polyi, hb.polyi]
      split
      · rename_i he
        refine ⟨s.data.is_outside_other_poly, ?_⟩
        rw [hb.good.up, he]
        congr 2
        unfold Plan.hi
        rw [grp_self hkS]
        generalize G.lo k (G.poly k) = a
        revert a
        decide
      · refine ⟨if s.vertical then !s.data.up_faces_outwards else s.data.up_faces_outwards, ?_⟩
        unfold bvGet index
        rw [hb.good.left, flag_get, if_pos hpn]
        rfl
    obtain ⟨out, hup⟩ := hup
    unfold facingPacket
    dsimp only
    rw [hup]
    simp only [Res.bind_ok]
    have er : (if s.data.edge_type = .nonContributing then s.data.right_faces_polygons else s.data.left_faces_polygons) = G.flag (G.lo i) := by
      by_cases hs : G.Same k i
      · rw [if_pos (hb.same hs), hb.good.right]
        exact flag_inj.2 fun m _ => hs.lo m
      · rw [if_neg (hb.other hs), hb.good.left]
        exact flag_inj.2 fun m _ => (hb.under.lo_eq hi hs m).symm
    rw [er, hb.good.left, bvUnion_clear (by rw [hl, flag_length])]
    simp only [Res.bind_ok]
    rw [bvUnion_clear (by rw [hr, flag_length])]
    simp only [Res.bind_ok]
    unfold bvSet
    rw [hk.polyi, if_pos (by rw [flag_length]; exact hpn)]
    simp only [Res.bind_ok, Res.pure_eq]
    refine ⟨_, rfl, ⟨rfl, ?_, ?_, ?_⟩, ⟨rfl, hk.mode, hk.lproc, hk.rproc, hk.lid, hk.rid⟩, rfl⟩
    · have := flag_toggle (G := G) (G.hi k) hpn
      unfold toggle at this
      rw [flag_getD _ hpn] at this
      show (G.flag (G.hi k)).set (G.poly i) (!decide (G.hi k (G.poly i) = 1)) = _
      rw [this]
      exact flag_inj.2 fun m _ => (hb.under.hi_eq hi m).symm
    · show decide (G.hi k (G.poly i) = 1) = _
      rw [hb.under.hi_poly hi]
    · dsimp only
      by_cases hs : G.Same k i
      · rw [if_pos (by simp [hb.same hs]), hb.good.below]
        exact hs.B
      · rw [if_neg (by rw [hv hs]; simp [hb.other hs]), hb.is.index]
        exact (hb.under.B hi hs).symm

/-- A packet that will be overwritten. -/
theorem facing_weak {p : SegmentPacket} {i : ℕ} (hi : i ∈ G.S) (hk : Kept G p i) (hl : p.left_faces_polygons.length = G.n)
    (hr : p.right_faces_polygons.length = G.n) (s : BoolSegment ℝ) (h1 : s.data.left_faces_polygons.length = G.n) (h2 : s.data.right_faces_polygons.length = G.n) :
    ∃ p', facingPacket p (some s) = .ok p' ∧ Kept G p' i ∧ p'.edge_type = p.edge_type ∧ p'.left_faces_polygons.length = G.n ∧ p'.right_faces_polygons.length = G.n := by
  have hpn : G.poly i < G.n := G.poly_lt i hi
  have hup : ∃ up out, facingUp p s = .ok (up, out) := by
    unfold facingUp
    dsimp only
    split
    · exact ⟨_, _, rfl⟩
    · unfold bvGet index
      rw [hk.polyi, List.getElem?_eq_getElem (by rw [h1]; exact hpn)]
      exact ⟨_, _, rfl⟩
  obtain ⟨up, out, hup⟩ := hup
  unfold facingPacket
  dsimp only
  rw [hup]
  simp only [Res.bind_ok]
  have hlen : (if s.data.edge_type = .nonContributing then s.data.right_faces_polygons else s.data.left_faces_polygons).length = G.n := by
    split
    · exact h2
    · exact h1
  rw [bvUnion_clear (by rw [hl, h1])]
  simp only [Res.bind_ok]
  rw [bvUnion_clear (by rw [hr, hlen])]
  simp only [Res.bind_ok]
  unfold bvSet
  rw [hk.polyi, if_pos (by rw [h1]; exact hpn)]
  simp only [Res.bind_ok, Res.pure_eq]
  exact ⟨_, rfl, ⟨rfl, hk.mode, hk.lproc, hk.rproc, hk.lid, hk.rid⟩, rfl, by simpa using h1, hlen⟩

/-! ### The stack -/

/-- The segments are on the sweep line at `t`, bottom to top. -/
structure Stack (G : Plan) (t : ℝ) (l : List ℕ) : Prop where
  alive : ∀ i ∈ l, G.Alive t i
  sorted : l.Pairwise (G.Low t)

theorem Stack.nodup {t : ℝ} {l : List ℕ} (h : Stack G t l) : l.Nodup :=
  h.sorted.imp fun {a b} h e => by subst e; exact Low.irrefl h

theorem Stack.search {t : ℝ} {l₁ l₂ : List ℕ} {i : ℕ} (h : Stack G t (l₁ ++ i :: l₂)) {arena : Arena ℝ} (ha : G.Has arena) :
    (∀ y ∈ l₁, arena.segCmp y i = .ok .lt) ∧ (∀ y ∈ l₂, arena.segCmp y i = .ok .gt) := by
  have hi := h.alive i (by simp)
  have hs := List.pairwise_append.1 h.sorted
  constructor
  · intro y hy
    exact (segCmp_low ha (h.alive y (by simp [hy])) hi (hs.2.2 y hy i (by simp))).1
  · intro y hy
    exact (segCmp_low ha hi (h.alive y (by simp [hy])) ((List.pairwise_cons.1 hs.2.1).1 y hy)).2

theorem Stack.sub {t : ℝ} {l l' : List ℕ} (h : Stack G t l) (hs : l'.Sublist l) : Stack G t l' :=
  ⟨fun i hi => h.alive i (hs.subset hi), h.sorted.sublist hs⟩

/-- The order does not depend on the time. -/
theorem Stack.transfer {t u : ℝ} {l : List ℕ} (h : Stack G t l) (hu : ∀ i ∈ l, G.Alive u i) : Stack G u l := by
  refine ⟨hu, ?_⟩
  refine h.sorted.imp_of_mem ?_
  intro i j hi hj hl
  obtain ⟨i0, i1, i2⟩ := h.alive i hi
  obtain ⟨j0, j1, j2⟩ := h.alive j hj
  obtain ⟨_, i3, i4⟩ := hu i hi
  obtain ⟨_, j3, j4⟩ := hu j hj
  rcases hl with hl | ⟨hl, hp⟩
  · exact Or.inl (G.order_lift i0 j0 i1.le i2.le j1.le j2.le i3 i4 j3 j4 hl)
  · exact Or.inr ⟨(G.same_of_h i0 j0 i1 i2 j1.le j2.le hl).h u, hp⟩

theorem handle_pair {arena : Arena ℝ} (ha : G.Has arena) {x y : Option ℕ} (hx : ∀ i, x = some i → i ∈ G.S) (hy : ∀ i, y = some i → i ∈ G.S)
    (hne : ∀ i j, x = some i → y = some j → ¬ G.Same i j) : ∃ m, m < 2 ∧ handleIntersections arena x y = .ok (arena, m, none, none) := by
  cases x with
  | none => exact ⟨0, by norm_num, by unfold handleIntersections; cases y <;> rfl⟩
  | some i =>
    cases y with
    | none => exact ⟨0, by norm_num, rfl⟩
    | some j =>
      obtain ⟨s, hs, is⟩ := ha.seg i (hx i rfl)
      obtain ⟨s', hs', is'⟩ := ha.seg j (hy j rfl)
      exact handle_plan (hx i rfl) (hy j rfl) (hne i j rfl rfl) hs hs' is is'

/-- The last of the segments below is the highest. -/
theorem Stack.under {i : ℕ} {l₁ l₂ : List ℕ} {k : ℕ} (h : Stack G (G.tau i) (l₁ ++ k :: l₂)) (hi : i ∈ l₂)
    (hc : ∀ j, G.Alive (G.tau i) j → G.Low (G.tau i) j i → j ∈ l₁ ++ [k]) : G.Under i k := by
  have hs := List.pairwise_append.1 h.sorted
  refine ⟨h.alive k (by simp), (List.pairwise_cons.1 hs.2.1).1 i hi, fun j a l hkj => ?_⟩
  rcases List.mem_append.1 (hc j a l) with hj | hj
  · exact Low.irrefl (hkj.trans (hs.2.2 j hj k (by simp)))
  · simp only [List.mem_singleton] at hj
    subst hj
    exact Low.irrefl hkj

theorem updateFacing {arena : Arena ℝ} (ha : G.Has arena) {i : ℕ} (hi : i ∈ G.S) (x : Option ℕ) (hx : ∀ k, x = some k → k ∈ G.S ∧ k ≠ i)
    (P : SegmentPacket → Prop) (hP : ∀ (below : Option (BoolSegment ℝ)), (match below with
      | none => x = none
      | some s => ∃ k, x = some k ∧ arena[k]? = some s ∧ G.Is k s) → ∃ p', facingPacket (dat arena i) below = .ok p' ∧ P p') :
    ∃ p, P p ∧ updatePolygonFacing arena i x = .ok (putPacket arena i { p with is_in_result := p.isInResult }) := by
  obtain ⟨s, hs, is⟩ := ha.seg i hi
  have hb : ∃ below, borrowBelow arena i x = .ok below ∧ (match below with
      | none => x = none
      | some s => ∃ k, x = some k ∧ arena[k]? = some s ∧ G.Is k s) := by
    cases x with
    | none => exact ⟨none, rfl, rfl⟩
    | some k =>
      obtain ⟨hk, hki⟩ := hx k rfl
      obtain ⟨s', hs', is'⟩ := ha.seg k hk
      refine ⟨some s', ?_, k, rfl, hs', is'⟩
      unfold borrowBelow
      dsimp only
      rw [if_neg hki]
      unfold index
      rw [hs']
      rfl
  obtain ⟨below, hb1, hb2⟩ := hb
  obtain ⟨p', h1, h2⟩ := hP below hb2
  refine ⟨p', h2, ?_⟩
  rw [dat_of hs] at h1
  unfold updatePolygonFacing
  have e : index arena i = .ok s := by unfold index; rw [hs]
  rw [e]
  simp only [Res.bind_ok]
  rw [hb1]
  simp only [Res.bind_ok]
  rw [h1]
  simp only [Res.bind_ok]
  exact setPacket_put (ha.lt hi) _

theorem inserted {lib : Lib} (hl : lib.Lawful) {arena : Arena ℝ} {l₁ l₂ : List ℕ} {i : ℕ} {t : ℝ} (ha : G.Has arena) (hst : Stack G t (l₁ ++ i :: l₂)) :
    SweepLine2.insertAndGetNeighbors lib (Arena.segCmp arena) i (l₁ ++ l₂) = .ok ((l₁.getLast?, l₂.head?), l₁ ++ i :: l₂) := by
  obtain ⟨c1, c2⟩ := hst.search ha
  unfold SweepLine2.insertAndGetNeighbors
  rw [hl.search_missing _ _ _ _ c1 c2]
  simp only [Res.bind_ok]
  rw [if_neg (by decide), insertIdx_len, prevAt_len]
  simp only [Res.bind_ok, Res.pure_eq]
  congr 3
  rw [List.getElem?_append_right (by omega)]
  simp [List.head?_eq_getElem?]

theorem previous {lib : Lib} (hl : lib.Lawful) {arena : Arena ℝ} {l₁ l₂ : List ℕ} {i : ℕ} {t : ℝ} (ha : G.Has arena) (hst : Stack G t (l₁ ++ i :: l₂)) :
    SweepLine2.getPrevious lib (Arena.segCmp arena) i (l₁ ++ i :: l₂) = .ok l₁.getLast? := by
  obtain ⟨c1, c2⟩ := hst.search ha
  unfold SweepLine2.getPrevious
  rw [hl.search_found _ _ _ _ _ c1 (segCmp_self ha (hst.alive i (by simp)).1) c2]
  simp only [Res.bind_ok]
  rw [if_pos trivial, prevAt_len]

/-- A right endpoint: the segment is taken out. -/
theorem sweepRight_plan {lib : Lib} (hl : lib.Lawful) {st : SweepState ℝ} {i : ℕ} {l₁ l₂ : List ℕ} {t : ℝ} (ha : G.Has st.arena)
    (hact : st.active = l₁ ++ i :: l₂) (hst : Stack G t (l₁ ++ i :: l₂)) (hns : ∀ j k, l₁.getLast? = some j → l₂.head? = some k → ¬ G.Same j k) (np : ℕ) :
    sweepRight lib np st i = .ok { st with active := l₁ ++ l₂, swept := st.swept ++ [i] } := by
  have hi := hst.alive i (by simp)
  obtain ⟨c1, c2⟩ := hst.search ha
  have hrem : SweepLine2.removeAndGetNeighbors lib (Arena.segCmp st.arena) i st.active = .ok ((true, l₁.getLast?, l₂.head?), l₁ ++ l₂) := by
    unfold SweepLine2.removeAndGetNeighbors
    rw [hact, hl.search_found _ _ _ _ _ c1 (segCmp_self ha hi.1) c2]
    simp only [Res.bind_ok]
    rw [if_pos trivial, eraseIdx_len, prevAt_len]
    simp only [Res.bind_ok, Res.pure_eq]
    congr 4
    rw [List.getElem?_append_right (le_refl _)]
    simp [List.head?_eq_getElem?]
  unfold sweepRight
  rw [hrem]
  simp only [Res.bind_ok]
  rw [if_pos trivial]
  rcases h1 : l₂.head? with _ | a
  · rfl
  · rcases h2 : l₁.getLast? with _ | b
    · rfl
    · have hal : a ∈ l₂ := List.mem_of_head? h1
      have hbl : b ∈ l₁ := List.mem_of_getLast? h2
      obtain ⟨m, hm, e⟩ := handle_pair ha (x := some b) (y := some a) (fun k h => by cases h; exact (hst.alive b (by simp [hbl])).1)
        (fun k h => by cases h; exact (hst.alive a (by simp [hal])).1) (fun x y hx hy => by
          cases hx; cases hy
          exact hns b a h2 h1)
      dsimp only
      rw [e]
      simp only [Res.bind_ok, splitIf]
      rfl

end Plan

end Idc
