import Verif.Props.CutRel
/-!
# The two runs side by side, and splitting a segment, for C84
-/

namespace Idc

namespace Cut

open Plan

variable {G : Plan} {C : Cut G}

/-- What the packet of a piece has in any state. -/
structure Solid (G : Plan) (p : SegmentPacket) (i : ℕ) : Prop where
  polyi : p.polygon_index = G.poly i
  mode : p.mode = .removeEdges ↔ G.rem (G.poly i)
  left : p.left_faces_polygons.length = G.n
  right : p.right_faces_polygons.length = G.n

theorem Solid.facing {p r : SegmentPacket} {i : ℕ} (h : Solid G p i) {b : Option (BoolSegment ℝ)} (hr : facingPacket p b = .ok r) : Solid G r i := by
  cases b with
  | none =>
    unfold facingPacket at hr
    dsimp only at hr
    obtain ⟨l, hl, hr⟩ := Res.bind_eq_ok hr
    cases hr
    exact ⟨h.polyi, h.mode, by rw [← h.left]; exact (bvSet_length hl).1.trans (bvClear_length _), by rw [← h.right]; exact bvClear_length _⟩
  | some s =>
    unfold facingPacket at hr
    dsimp only at hr
    obtain ⟨⟨up, out⟩, _, hr⟩ := Res.bind_eq_ok hr
    obtain ⟨l, hl, hr⟩ := Res.bind_eq_ok hr
    obtain ⟨r', hr', hr⟩ := Res.bind_eq_ok hr
    obtain ⟨l2, hl2, hr⟩ := Res.bind_eq_ok hr
    cases hr
    refine ⟨h.polyi, h.mode, ?_, ?_⟩
    · rw [← h.left]; exact (bvSet_length hl2).1.trans ((bvUnion_length hl).1.trans (bvClear_length _))
    · rw [← h.right]; exact (bvUnion_length hr').1.trans (bvClear_length _)

theorem solid_put {A : Arena ℝ} (h : ∀ j ∈ G.S, Solid G (dat A j) j) {i : ℕ} (hi : i < A.length) {p : SegmentPacket} (hp : Solid G p i) :
    ∀ j ∈ G.S, Solid G (dat (putPacket A i p) j) j := by
  intro j hj
  rw [dat_put hi]
  split
  · rename_i e
    rw [e]; exact hp
  · exact h j hj

/-- Computing flags keeps that. -/
theorem solid_update {A B : Arena ℝ} (h : ∀ j ∈ G.S, Solid G (dat A j) j) (hA : G.Has A) {i : ℕ} (hi : i ∈ G.S) {x : Option ℕ}
    (hB : updatePolygonFacing A i x = .ok B) : (∀ j ∈ G.S, Solid G (dat B j) j) ∧ G.Has B := by
  have hil := hA.lt hi
  unfold updatePolygonFacing at hB
  obtain ⟨s, hs, hB⟩ := Res.bind_eq_ok hB
  obtain ⟨b, _, hB⟩ := Res.bind_eq_ok hB
  obtain ⟨p, hp, hB⟩ := Res.bind_eq_ok hB
  rw [setPacket_put hil] at hB
  cases hB
  refine ⟨solid_put h hil ?_, hA.put _ _⟩
  have hd := h i hi
  have e : dat A i = s.data := dat_of (index_eq_ok hs)
  rw [e] at hd
  have := hd.facing hp
  exact ⟨this.polyi, this.mode, this.left, this.right⟩

/-- Both runs find that two segments start with pieces that coincide. -/
theorem Arenas.coincide {g : Ghost} {started : ℕ → Prop} {A A' : Arena ℝ} (h : Arenas C g started A A') {i j : ℕ} (hi : i < A.length) (hli : Live g i)
    (si : started i) (hj : j < A.length) (hlj : Live g j) (sj : started j) (hij : i ≠ j) (hs : G.Same (g.fst i) (g.fst j))
    (hsol : ∀ j ∈ G.S, Solid G (dat A' j) j)
    (hn : (dat A' (g.fst j)).edge_type ≠ .nonContributing) {B' : Arena ℝ} {m : ℕ} {q q' : Option (Pt ℝ)}
    (hB : handleIntersections A' (some (g.fst i)) (some (g.fst j)) = .ok (B', m, q, q')) :
    ∃ B, handleIntersections A (some i) (some j) = .ok (B, 2, if g.fst i = g.lst i then none else some (G.rp (g.fst i)),
        if g.fst j = g.lst j then none else some (G.rp (g.fst j))) ∧ B.length = A.length ∧ Arenas C g started B B' ∧
      (∀ j ∈ G.S, Solid G (dat B' j) j) ∧ ∀ k, k ≠ g.fst i → k ≠ g.fst j → dat B' k = dat A' k := by
  have ri := h.covers.run i hi
  have rj := h.covers.run j hj
  have hne : g.fst i ≠ g.fst j := fun e => hij (hli.inj hlj e)
  have pi := (hsol _ ri.left).polyi
  have pj := (hsol _ rj.left).polyi
  obtain ⟨s, hs1, is⟩ := h.seg i hi
  obtain ⟨t, ht1, it⟩ := h.seg j hj
  obtain ⟨s', hs', is'⟩ := h.has.seg _ ri.left
  obtain ⟨t', ht', it'⟩ := h.has.seg _ rj.left
  rw [handle_coincide (Run.refl (C := C) ri.left) (Run.refl (C := C) rj.left) hne hs' ht' (seg_of_is is') (seg_of_is it') hne hs pi pj hn] at hB
  have di := h.sim i hi hli si
  have dj := h.sim j hj hlj sj
  have f1 : (dat A i).polygon_index = (dat A' (g.fst i)).polygon_index := (congrArg SegmentPacket.polygon_index di.eq :)
  have f2 : (dat A j).polygon_index = (dat A' (g.fst j)).polygon_index := (congrArg SegmentPacket.polygon_index dj.eq :)
  have f3 : (dat A j).edge_type = (dat A' (g.fst j)).edge_type := (congrArg SegmentPacket.edge_type dj.eq :)
  have f4 : (dat A i).up_faces_outwards = (dat A' (g.fst i)).up_faces_outwards := (congrArg SegmentPacket.up_faces_outwards di.eq :)
  have f5 : (dat A j).up_faces_outwards = (dat A' (g.fst j)).up_faces_outwards := (congrArg SegmentPacket.up_faces_outwards dj.eq :)
  rw [handle_coincide ri rj hij hs1 ht1 is it hne hs (f1.trans pi) (f2.trans pj) (by rw [f3]; exact hn)]
  simp only [Res.ok.injEq, Prod.mk.injEq] at hB
  obtain ⟨rfl, _⟩ := hB
  have li' := h.has.lt ri.left
  have lj' := h.has.lt rj.left
  refine ⟨_, rfl, by rw [put_length, put_length], ?_, ?_, ?_⟩
  · have h1 := h.put hi hli (di.typ .nonContributing) (fun b hb => h.below i hi hli b hb)
    have h2 := h1.put (i := j) (by rw [put_length]; exact hj) hlj (dj.typ (if (dat A i).up_faces_outwards = (dat A j).up_faces_outwards then .sameTransition else .differentTransition))
      (fun b hb => by rw [put_length]; exact h.below j hj hlj b hb)
    have e : (if (dat A i).up_faces_outwards = (dat A j).up_faces_outwards then EdgeType.sameTransition else .differentTransition) =
        (if (dat A' (g.fst i)).up_faces_outwards = (dat A' (g.fst j)).up_faces_outwards then EdgeType.sameTransition else .differentTransition) := by
      simp only [f4, f5]
    have h3 := h2
    rw [e] at h3 ⊢
    exact h3.mono fun k _ _ hk => Or.inl (Or.inl hk)
  · have a1 := hsol _ ri.left
    have a2 := hsol _ rj.left
    refine solid_put (solid_put hsol li' ?_) (by rw [put_length]; exact lj') ?_
    · exact ⟨a1.polyi, a1.mode, a1.left, a1.right⟩
    · exact ⟨a2.polyi, a2.mode, a2.left, a2.right⟩
  · intro k k1 k2
    rw [dat_put (by rw [put_length]; exact lj'), if_neg k2, dat_put li', if_neg k1]

/-! ### Endpoints -/

/-- The end of a piece an endpoint stands for. -/
def img (g : Ghost) (x : EndId) : EndId := match x with
  | (i, .left) => (g.fst i, .left)
  | (i, .right) => (g.lst i, .right)

/-- The segments of the arena are runs of pieces. -/
structure Runs (C : Cut G) (g : Ghost) (A : Arena ℝ) : Prop where
  run : ∀ i < A.length, C.Run (g.fst i) (g.lst i)
  seg : ∀ i < A.length, ∃ s, A[i]? = some s ∧ Seg G (g.fst i) (g.lst i) i s

theorem Arenas.runs {g : Ghost} {started : ℕ → Prop} {A A' : Arena ℝ} (h : Arenas C g started A A') : Runs C g A := ⟨h.covers.run, h.seg⟩

theorem Runs.img_mem {g : Ghost} {A : Arena ℝ} (h : Runs C g A) {x : EndId} (hx : x.1 < A.length) : (img g x).1 ∈ G.S := by
  obtain ⟨i, e⟩ := x
  cases e
  · exact (h.run i hx).left
  · exact (h.run i hx).right

theorem Runs.endKey {g : Ghost} {A : Arena ℝ} (h : Runs C g A) {x : EndId} (hx : x.1 < A.length) {s : BoolSegment ℝ} (is : Seg G (g.fst x.1) (g.lst x.1) x.1 s) :
    endKey (s, x.2) = G.key (img g x) := by
  obtain ⟨i, e⟩ := x
  cases e
  · exact is.key_left (h.run i hx)
  · exact is.key_right (h.run i hx)

theorem Runs.endCmp {g : Ghost} {A : Arena ℝ} (h : Runs C g A) {x y : EndId} (hx : x.1 < A.length) (hy : y.1 < A.length) :
    A.endCmp x y = .ok (compare (G.key (img g x)) (G.key (img g y))) := by
  obtain ⟨s, hs, is⟩ := h.seg x.1 hx
  obtain ⟨s', hs', is'⟩ := h.seg y.1 hy
  unfold Arena.endCmp index
  rw [hs, hs']
  simp only [Res.bind_ok]
  rw [endpointCmp_eq (a := (s, x.2)) (b := (s', y.2)) (is.wf (h.run _ hx)) (is'.wf (h.run _ hy)), h.endKey hx is, h.endKey hy is']

theorem Runs.total {g : Ghost} {A : Arena ℝ} (h : Runs C g A) {P : EndId → Prop} (hP : ∀ x, P x → x.1 < A.length) : TotalPreorderOn P A.endCmp where
  total x y hx hy := by
    refine ⟨_, h.endCmp (hP x hx) (hP y hy), ?_⟩
    rw [h.endCmp (hP y hy) (hP x hx)]
    congr 1
    rcases lt_trichotomy (G.key (img g x)) (G.key (img g y)) with h | h | h
    · rw [compare_lt_iff_lt.mpr h, compare_gt_iff_gt.mpr h]; rfl
    · rw [compare_eq_iff_eq.mpr h, compare_eq_iff_eq.mpr h.symm]; rfl
    · rw [compare_lt_iff_lt.mpr h, compare_gt_iff_gt.mpr h]; rfl
  trans x y z o₁ o₂ o₃ hx hy hz h1 h2 h3 n1 n2 := by
    rw [h.endCmp (hP x hx) (hP y hy)] at h1
    rw [h.endCmp (hP y hy) (hP z hz)] at h2
    rw [h.endCmp (hP x hx) (hP z hz)] at h3
    cases h1; cases h2; cases h3
    have l1 : G.key (img g x) ≤ G.key (img g y) := le_of_not_gt fun h => n1 (compare_gt_iff_gt.mpr h)
    have l2 : G.key (img g y) ≤ G.key (img g z) := le_of_not_gt fun h => n2 (compare_gt_iff_gt.mpr h)
    refine ⟨fun h => absurd (le_trans l1 l2) (not_le_of_gt (compare_gt_iff_gt.mp h)), fun h => ?_⟩
    have h := compare_eq_iff_eq.mp h
    rw [compare_eq_iff_eq, compare_eq_iff_eq]
    exact ⟨le_antisymm l1 (h ▸ l2), le_antisymm l2 (h ▸ l1)⟩

theorem Runs.heap {lib : Lib} {Heap} (hh : HeapOk lib Heap) {g g' : Ghost} {A A' : Arena ℝ} (h : Runs C g A) (h' : Runs C g' A') {q : List EndId}
    (hq : ∀ x ∈ q, x.1 < A.length) (hq' : ∀ x ∈ q, x.1 < A'.length) (hg : ∀ x ∈ q, img g x = img g' x) (hheap : Heap A.endCmp q) : Heap A'.endCmp q :=
  hh.congr _ _ q (fun a ha b hb => by rw [h.endCmp (hq a ha) (hq b hb), h'.endCmp (hq' a ha) (hq' b hb), hg a ha, hg b hb]) hheap

theorem Runs.segCmp {g : Ghost} {A : Arena ℝ} (h : Runs C g A) {i j : ℕ} (hi : i < A.length) (hj : j < A.length) (hij : i ≠ j)
    (hu : Lower G (g.fst i) (g.fst j)) : A.segCmp i j = .ok .lt ∧ A.segCmp j i = .ok .gt := by
  obtain ⟨s, hs, is⟩ := h.seg i hi
  obtain ⟨s', hs', is'⟩ := h.seg j hj
  unfold Arena.segCmp index
  rw [hs, hs']
  simp only [Res.bind_ok]
  exact Seg.cmp_under (h.run i hi) (h.run j hj) is is' hij hu

theorem Runs.segCmp_self {g : Ghost} {A : Arena ℝ} (h : Runs C g A) {i : ℕ} (hi : i < A.length) : A.segCmp i i = .ok .eq := by
  obtain ⟨s, hs, is⟩ := h.seg i hi
  unfold Arena.segCmp index
  rw [hs]
  simp only [Res.bind_ok]
  unfold SweepSegment.cmp
  rw [if_pos rfl]

/-- Searching the sweep line. -/
theorem Runs.search {g : Ghost} {A : Arena ℝ} (h : Runs C g A) {l₁ l₂ : List ℕ} {i : ℕ} (hlt : ∀ j ∈ l₁ ++ i :: l₂, j < A.length)
    (hst : ((l₁ ++ i :: l₂).map g.fst).Pairwise (Lower G)) : (∀ y ∈ l₁, A.segCmp y i = .ok .lt) ∧ (∀ y ∈ l₂, A.segCmp y i = .ok .gt) := by
  have hi := hlt i (by simp)
  have hs := List.pairwise_map.1 hst
  rw [List.pairwise_append] at hs
  have ne : ∀ {x y : ℕ}, Lower G (g.fst x) (g.fst y) → x ≠ y := fun hl e => by subst e; exact hl.ne rfl
  constructor
  · intro y hy
    have hl := hs.2.2 y hy i (by simp)
    exact (h.segCmp (hlt y (by simp [hy])) hi (ne hl) hl).1
  · intro y hy
    have hl := (List.pairwise_cons.1 hs.2.1).1 y hy
    exact (h.segCmp hi (hlt y (by simp [hy])) (ne hl) hl).2

theorem _root_.Idc.Plan.Stack.lower {t : ℝ} {l : List ℕ} (h : Plan.Stack G t l) : l.Pairwise (Lower G) :=
  h.sorted.imp_of_mem fun {_ _} ha hb hl => ⟨(h.alive _ ha).1, (h.alive _ hb).1, Or.inl ⟨t, h.alive _ ha, h.alive _ hb, hl⟩⟩

/-! ### The relation between the runs -/

/-- What is known of the run on the pieces; also of states in which the end of a piece is overdue. -/
structure Loose (C : Cut G) (st : SweepState ℝ) : Prop where
  has : G.Has st.arena
  qmem : ∀ x ∈ st.queue, x.1 ∈ G.S
  qnodup : st.queue.Nodup
  active : ∀ i, i ∈ st.active ↔ i ∈ G.S ∧ (i, SegmentEnd.left) ∉ st.queue ∧ (i, SegmentEnd.right) ∈ st.queue
  swept : ∀ i, i ∈ st.swept ↔ i ∈ G.S ∧ (i, SegmentEnd.right) ∉ st.queue
  lower : st.active.Pairwise (Lower G)
  solid : ∀ j ∈ G.S, Solid G (dat st.arena j) j
  ahead : ∀ k l, C.Run k l → (k, SegmentEnd.right) ∈ st.queue → (l, SegmentEnd.right) ∈ st.queue

theorem Loose.put {st : SweepState ℝ} (h : Loose C st) {A : Arena ℝ} (hA : G.Has A) (hs : ∀ j ∈ G.S, Solid G (dat A j) j) : Loose C { st with arena := A } :=
  ⟨hA, h.qmem, h.qnodup, h.active, h.swept, h.lower, hs, h.ahead⟩

theorem _root_.Idc.Plan.Inv.loose {Heap : (EndId → EndId → Res Ordering) → List EndId → Prop} {st : SweepState ℝ} (h : Plan.Inv G Heap st) : Loose C st := by
  refine ⟨h.has, h.qmem, h.qnodup, h.active, h.swept, ?_, ?_, ?_⟩
  · obtain ⟨t, hst⟩ := h.stack
    exact hst.lower
  · intro j hj
    have hk := h.kept j hj
    by_cases hq : (j, SegmentEnd.left) ∈ st.queue
    · have := h.fresh j hj hq
      exact ⟨hk.polyi, hk.mode, this.left, this.right⟩
    · have := h.good j hj hq
      exact ⟨hk.polyi, hk.mode, by rw [this.left, flag_length], by rw [this.right, flag_length]⟩
  · intro k l hr h2
    by_contra hn
    have hk := h.qup (l, .right) hr.right hn _ h2
    have := time_le_of_key (x := (l, .right)) (y := (k, .right)) hr.right hr.left hk.le
    have this : G.b l ≤ G.b k := this
    have e := eq_of_b hr.left hr.right hr.own (le_antisymm hr.b_le this)
    rw [← e] at hn
    exact hn h2

/-- The run on the edges and the run on the pieces, at the same time. -/
structure Rel (C : Cut G) (Heap : (EndId → EndId → Res Ordering) → List EndId → Prop) (g : Ghost) (st st' : SweepState ℝ) : Prop where
  inv : Loose C st'
  arenas : Arenas C g (fun i => (g.fst i, SegmentEnd.left) ∉ st'.queue) st.arena st'.arena
  plain : ∀ k ∈ G.S, (k, SegmentEnd.left) ∈ st'.queue → ∃ mode, dat st'.arena k = SegmentPacket.new (G.poly k) mode G.n
  heap : Heap st.arena.endCmp st.queue
  qlt : ∀ x ∈ st.queue, x.1 < st.arena.length
  qnodup : st.queue.Nodup
  qleft : ∀ i < st.arena.length, (i, SegmentEnd.left) ∈ st.queue ↔ Live g i ∧ (g.fst i, SegmentEnd.left) ∈ st'.queue
  qright : ∀ i < st.arena.length, Live g i → ((i, SegmentEnd.right) ∈ st.queue ↔ (g.lst i, SegmentEnd.right) ∈ st'.queue)
  active : st.active.map g.fst = st'.active
  alive : ∀ i ∈ st.active, i < st.arena.length ∧ Live g i
  swept : st.swept.map g.fst = st'.swept
  slive : ∀ i ∈ st.swept, i < st.arena.length ∧ Live g i ∧ g.lst i = g.fst i
  first : ∀ k ∈ G.S, (k, SegmentEnd.left) ∉ st'.queue → g.fst (g.cov k) = k
  last : ∀ k ∈ G.S, (k, SegmentEnd.right) ∉ st'.queue → g.lst (g.cov k) = k

variable {Heap : (EndId → EndId → Res Ordering) → List EndId → Prop} {g : Ghost} {st st' : SweepState ℝ}

/-- An active segment has started and its last piece has not ended. -/
theorem Rel.of_active (h : Rel C Heap g st st') {i : ℕ} (hi : i ∈ st.active) :
    (g.fst i, SegmentEnd.left) ∉ st'.queue ∧ (g.fst i, SegmentEnd.right) ∈ st'.queue ∧ (g.lst i, SegmentEnd.right) ∈ st'.queue := by
  have hm : g.fst i ∈ st'.active := by rw [← h.active]; exact List.mem_map_of_mem hi
  obtain ⟨hS, h1, h2⟩ := (h.inv.active _).1 hm
  exact ⟨h1, h2, h.inv.ahead _ _ (h.arenas.covers.run i (h.alive i hi).1) h2⟩

/-! ### Splitting -/

/-- The pieces after a split at the end of the piece `k`; `n` is the number of segments. -/
noncomputable def cut (G : Plan) (g : Ghost) (n i k m : ℕ) : Ghost where
  cov j := if g.cov j = i then (if G.a j ≤ G.a k then n else n + 1) else g.cov j
  fst j := if j = n then g.fst i else if j = n + 1 then m else g.fst j
  lst j := if j = n then k else if j = n + 1 then g.lst i else g.lst j

theorem Run.trans {k l m : ℕ} (h : C.Run k l) (h' : C.Run l m) : C.Run k m := ⟨h.left, h'.right, h.own.trans h'.own, h.le.trans h'.le⟩

section cut

variable {n i k m : ℕ}

theorem cut_fst {j : ℕ} (hj : j < n) : (cut G g n i k m).fst j = g.fst j := by
  unfold cut; dsimp only; rw [if_neg (by omega), if_neg (by omega)]

theorem cut_lst {j : ℕ} (hj : j < n) : (cut G g n i k m).lst j = g.lst j := by
  unfold cut; dsimp only; rw [if_neg (by omega), if_neg (by omega)]

theorem cut_fst_n : (cut G g n i k m).fst n = g.fst i := by unfold cut; dsimp only; rw [if_pos rfl]
theorem cut_fst_n1 : (cut G g n i k m).fst (n + 1) = m := by unfold cut; dsimp only; rw [if_neg (by omega), if_pos rfl]
theorem cut_lst_n : (cut G g n i k m).lst n = k := by unfold cut; dsimp only; rw [if_pos rfl]
theorem cut_lst_n1 : (cut G g n i k m).lst (n + 1) = g.lst i := by unfold cut; dsimp only; rw [if_neg (by omega), if_pos rfl]
theorem cut_cov_other {j : ℕ} (h : g.cov j ≠ i) : (cut G g n i k m).cov j = g.cov j := by unfold cut; dsimp only; rw [if_neg h]
theorem cut_cov_left {j : ℕ} (h : g.cov j = i) (h' : G.a j ≤ G.a k) : (cut G g n i k m).cov j = n := by unfold cut; dsimp only; rw [if_pos h, if_pos h']
theorem cut_cov_right {j : ℕ} (h : g.cov j = i) (h' : G.a k < G.a j) : (cut G g n i k m).cov j = n + 1 := by
  unfold cut; dsimp only; rw [if_pos h, if_neg (not_le.2 h')]

theorem cut_live (hi : i < n) {j : ℕ} (hj : j < n) : Live (cut G g n i k m) j ↔ Live g j ∧ j ≠ i := by
  unfold Live
  rw [cut_fst hj]
  by_cases h : g.cov (g.fst j) = i
  · rcases le_or_gt (G.a (g.fst j)) (G.a k) with h' | h'
    · rw [cut_cov_left h h']
      constructor
      · intro e; omega
      · rintro ⟨e, e'⟩; exact absurd (e.symm.trans h) e'
    · rw [cut_cov_right h h']
      constructor
      · intro e; omega
      · rintro ⟨e, e'⟩; exact absurd (e.symm.trans h) e'
  · rw [cut_cov_other h]
    constructor
    · intro e; exact ⟨e, fun e' => h (e.trans e')⟩
    · exact fun e => e.1

variable (hc : Covers C g n) (hi : i < n) (hl : Live g i) (hj : C.Joint k m) (ck : g.cov k = i) (cm : g.cov m = i)

include hc ck cm hj

theorem cut_within : C.Run (g.fst i) k ∧ C.Run m (g.lst i) := by
  have h1 := hc.within k hj.left
  have h2 := hc.within m hj.right
  rw [ck] at h1
  rw [cm] at h2
  exact ⟨h1.1, h2.2⟩

include hl

theorem cut_live_n : Live (cut G g n i k m) n := by
  unfold Live
  rw [cut_fst_n, cut_cov_left hl (cut_within hc hj ck cm).1.le]

theorem cut_live_n1 : Live (cut G g n i k m) (n + 1) := by
  unfold Live
  rw [cut_fst_n1, cut_cov_right cm hj.lt]

include hi

theorem cut_covers : Covers C (cut G g n i k m) (n + 2) := by
  obtain ⟨r1, r2⟩ := cut_within hc hj ck cm
  have rkm : C.Run k m := ⟨hj.left, hj.right, hj.own, hj.lt.le⟩
  have three : ∀ j ∈ G.S, (g.cov j = i ∧ G.a j ≤ G.a k ∧ (cut G g n i k m).cov j = n) ∨ (g.cov j = i ∧ G.a m ≤ G.a j ∧ (cut G g n i k m).cov j = n + 1) ∨
      (g.cov j ≠ i ∧ (cut G g n i k m).cov j = g.cov j) := by
    intro j hjS
    by_cases h : g.cov j = i
    · have hw := hc.within j hjS
      rw [h] at hw
      rcases hj.le_or hjS (hw.own.symm.trans r1.own) with h' | h'
      · exact Or.inl ⟨h, h', cut_cov_left h h'⟩
      · exact Or.inr (Or.inl ⟨h, h', cut_cov_right h (lt_of_lt_of_le hj.lt h')⟩)
    · exact Or.inr (Or.inr ⟨h, cut_cov_other h⟩)
  refine ⟨?_, ?_, ?_, ?_, ?_⟩
  · intro j hjn
    rcases (by omega : j < n ∨ j = n ∨ j = n + 1) with h | rfl | rfl
    · rw [cut_fst h, cut_lst h]; exact hc.run j h
    · rw [cut_fst_n, cut_lst_n]; exact r1
    · rw [cut_fst_n1, cut_lst_n1]; exact r2
  · intro j hjS
    have := hc.lt j hjS
    rcases three j hjS with ⟨_, _, h⟩ | ⟨_, _, h⟩ | ⟨_, h⟩ <;> rw [h] <;> omega
  · intro j hjS
    rcases three j hjS with ⟨_, _, h⟩ | ⟨_, _, h⟩ | ⟨h', h⟩ <;> rw [h]
    · exact cut_live_n hc hl hj ck cm
    · exact cut_live_n1 hc hl hj ck cm
    · exact (cut_live hi (hc.lt j hjS)).2 ⟨hc.live j hjS, h'⟩
  · intro j hjS
    have hw := hc.within j hjS
    rcases three j hjS with ⟨h', ha, h⟩ | ⟨h', ha, h⟩ | ⟨h', h⟩ <;> rw [h]
    · rw [h'] at hw
      rw [cut_fst_n, cut_lst_n]
      exact ⟨hw.1, hjS, hj.left, hw.1.own.symm.trans r1.own, ha⟩
    · rw [h'] at hw
      rw [cut_fst_n1, cut_lst_n1]
      exact ⟨⟨hj.right, hjS, r2.own.trans hw.2.own.symm, ha⟩, hw.2⟩
    · rw [cut_fst (hc.lt j hjS), cut_lst (hc.lt j hjS)]; exact hw
  · intro j hjn hlj x hx
    rcases (by omega : j < n ∨ j = n ∨ j = n + 1) with h | rfl | rfl
    · rw [cut_fst h, cut_lst h] at hx
      obtain ⟨h1, h2⟩ := (cut_live hi h).1 hlj
      have := hc.cov j h h1 x hx
      rw [cut_cov_other (by rw [this]; exact h2), this]
    · rw [cut_fst_n, cut_lst_n] at hx
      refine cut_cov_left (hc.cov i hi hl x ⟨hx.1, (hx.2.trans rkm).trans r2⟩) hx.2.le
    · rw [cut_fst_n1, cut_lst_n1] at hx
      refine cut_cov_right (hc.cov i hi hl x ⟨(r1.trans rkm).trans hx.1, hx.2⟩) (lt_of_lt_of_le hj.lt hx.1.le)

end cut

/-- Pointers to a segment that was split. -/
def turn (i n : ℕ) (p : SegmentPacket) : SegmentPacket := if p.below_in_result = some i then { p with below_in_result := some n } else p

theorem redirect_get {A : Arena ℝ} {i n j : ℕ} {s : BoolSegment ℝ} (h : A[j]? = some s) : (A.redirect i n)[j]? = some { s with data := turn i n s.data } := by
  unfold Arena.redirect turn
  rw [List.getElem?_map, h]
  dsimp only [Option.map]
  split <;> rfl

theorem Runs.redirect {A : Arena ℝ} (h : Runs C g A) (i n : ℕ) : Runs C g (A.redirect i n) := by
  have hlen : (A.redirect i n).length = A.length := by unfold Arena.redirect; rw [List.length_map]
  refine ⟨fun j hj => h.run j (by omega), fun j hj => ?_⟩
  obtain ⟨s, hs, is⟩ := h.seg j (by omega)
  exact ⟨_, redirect_get hs, is.left, is.right, is.index, is.order⟩

/-- Renaming of the pointers. -/
theorem Psim.turn {n i k m : ℕ} {p p' : SegmentPacket} (h : Psim g.fst p p') (hb : ∀ b, p.below_in_result = some b → b < n) :
    Psim (cut G g n i k m).fst (turn i n p) p' := by
  refine h.congr ?_ ?_
  · unfold view Cut.turn
    split
    · rename_i e
      simp only [SegmentPacket.mk.injEq, Option.map, true_and, and_true, e, cut_fst_n]
    · simp only [SegmentPacket.mk.injEq, true_and, and_true]
      rcases e : p.below_in_result with _ | b
      · rfl
      · simp only [Option.map, cut_fst (hb b e)]
  · unfold Cut.turn; split <;> rfl

theorem Csim.turn {n i k m : ℕ} {p p' : SegmentPacket} (h : Csim g.fst p p') (hb : ∀ b, p.below_in_result = some b → b < n) :
    Csim (cut G g n i k m).fst (turn i n p) p' := by
  have hv : view (cut G g n i k m).fst (Cut.turn i n p) = view g.fst p := by
    unfold view Cut.turn
    split
    · rename_i e
      simp only [SegmentPacket.mk.injEq, Option.map, true_and, and_true, e, cut_fst_n]
    · simp only [SegmentPacket.mk.injEq, true_and, and_true]
      rcases e : p.below_in_result with _ | b
      · rfl
      · simp only [Option.map, cut_fst (hb b e)]
  refine ⟨by rw [hv]; exact h.eq, ?_⟩
  unfold Cut.turn
  split <;> exact h.mode

theorem new_run {k l i : ℕ} (h : C.Run k l) (o : ℕ) (d : SegmentPacket) (ho : o = G.poly k) :
    ∃ s : BoolSegment ℝ, SweepSegment.new (G.lp k) (G.rp l) i o d = .ok s ∧ Seg G k l i s ∧ s.data = d := by
  have hlt := h.leftOf
  unfold SweepSegment.new
  have hne : ¬ (G.lp k).beq (G.rp l) = true := by
    rw [beq_iff]; exact hlt.ne
  rw [if_neg hne, if_pos (by
    unfold LeftOf at hlt
    simpa [real_lt, real_eq] using hlt)]
  exact ⟨_, rfl, ⟨rfl, rfl, rfl, ho⟩, rfl⟩

end Cut

end Idc
