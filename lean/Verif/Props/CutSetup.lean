import Verif.Props.CutBlocks
import Verif.Props.CutFinish
/-!
# Filling the arena and the queue, and the whole of `compute`, for C84
-/

namespace Idc

open FloatOps Plan

namespace Cut

open Net

/-! ### Loading -/

variable {G : Plan} {C : Cut G}

/-- The first `m` segments are in the arena and in the queue; the segment `i` consists of the pieces from `fst i` to `lst i`. -/
structure Loaded (C : Cut G) (g : Ghost) (Heap : (EndId → EndId → Res Ordering) → List EndId → Prop) (m : Nat) (st : SweepState ℝ) : Prop where
  run : ∀ i < m, C.Run (g.fst i) (g.lst i)
  length : st.arena.length = m
  seg : ∀ i < m, ∃ s mode, st.arena[i]? = some s ∧ Seg G (g.fst i) (g.lst i) i s ∧ (mode = PolygonMode.removeEdges ↔ G.rem (G.poly (g.fst i))) ∧ s.data = SegmentPacket.new (G.poly (g.fst i)) mode G.n
  queue_mem : ∀ x : EndId, x ∈ st.queue ↔ x.1 < m
  queue_nodup : st.queue.Nodup
  queue_length : st.queue.length = 2 * m
  heap : Heap st.arena.endCmp st.queue
  active : st.active = []
  swept : st.swept = []

theorem loaded_nil {lib : Lib} {Heap} (hh : HeapOk lib Heap) {g : Ghost} : Loaded C g Heap 0 ⟨[], [], [], []⟩ :=
  ⟨fun i hi => absurd hi (Nat.not_lt_zero i), rfl, fun i hi => absurd hi (Nat.not_lt_zero i), fun x => by simp, List.nodup_nil, rfl, hh.nil _, rfl, rfl⟩

theorem Loaded.runs {Heap} {g : Ghost} {m : ℕ} {st : SweepState ℝ} (h : Loaded C g Heap m st) : Runs C g st.arena :=
  ⟨fun i hi => h.run i (by rw [← h.length]; exact hi), fun i hi => by
    obtain ⟨s, _, e, is, _⟩ := h.seg i (by rw [← h.length]; exact hi)
    exact ⟨s, e, is⟩⟩

/-- One more segment. -/
theorem Loaded.push {lib : Lib} {Heap} (hh : HeapOk lib Heap) {g : Ghost} {m : Nat} {st : SweepState ℝ} (h : Loaded C g Heap m st) {s : BoolSegment ℝ} {mode : PolygonMode}
    (hm : C.Run (g.fst m) (g.lst m)) (is : Seg G (g.fst m) (g.lst m) m s) (hmode : mode = .removeEdges ↔ G.rem (G.poly (g.fst m))) (hdat : s.data = SegmentPacket.new (G.poly (g.fst m)) mode G.n) :
    ∃ q q', lib.heapPush (Arena.endCmp (st.arena ++ [s])) (m, .left) st.queue = .ok q ∧
      lib.heapPush (Arena.endCmp (st.arena ++ [s])) (m, .right) q = .ok q' ∧
      Loaded C g Heap (m + 1) { st with arena := st.arena ++ [s], queue := q' } := by
  have hlen := h.length
  have hrun : ∀ i < m + 1, C.Run (g.fst i) (g.lst i) := by
    intro i hi
    by_cases him : i = m
    · subst him; exact hm
    · exact h.run i (by omega)
  have hold : ∀ i < m, (st.arena ++ [s])[i]? = st.arena[i]? := fun i hi => List.getElem?_append_left (by omega)
  have hnew : (st.arena ++ [s])[m]? = some s := by
    rw [List.getElem?_append_right (by omega), hlen, Nat.sub_self]; rfl
  have hruns : Runs C g (st.arena ++ [s]) := by
    refine ⟨fun i hi => hrun i (by rw [List.length_append, hlen] at hi; exact hi), fun i hi => ?_⟩
    rw [List.length_append, hlen, List.length_singleton] at hi
    by_cases him : i = m
    · subst him; exact ⟨s, hnew, is⟩
    · obtain ⟨s', mode', e, is', _⟩ := h.seg i (by omega)
      exact ⟨s', by rw [hold i (by omega), e], is'⟩
  have hlen' : (st.arena ++ [s]).length = m + 1 := by rw [List.length_append, hlen]; rfl
  have htot : ∀ l : List EndId, (∀ x ∈ l, x.1 < m + 1) → TotalPreorderOn (· ∈ l) (Arena.endCmp (st.arena ++ [s])) :=
    fun l hl => hruns.total fun x hx => by rw [hlen']; exact hl x hx
  have h0 : Heap (Arena.endCmp (st.arena ++ [s])) st.queue :=
    h.runs.heap hh hruns (fun x hx => by rw [hlen]; exact (h.queue_mem x).1 hx) (fun x hx => by have := (h.queue_mem x).1 hx; omega) (fun _ _ => rfl) h.heap
  obtain ⟨q, e1, p1, h1⟩ := hh.push _ (m, .left) st.queue (htot _ (by
    intro x hx
    rcases List.mem_cons.1 hx with rfl | hx
    · exact Nat.lt_succ_self m
    · have := (h.queue_mem x).1 hx; omega)) h0
  have hq : ∀ x ∈ q, x.1 < m + 1 := by
    intro x hx
    rcases List.mem_cons.1 (p1.mem_iff.1 hx) with rfl | hx
    · exact Nat.lt_succ_self m
    · have := (h.queue_mem x).1 hx; omega
  obtain ⟨q', e2, p2, h2⟩ := hh.push _ (m, .right) q (htot _ (by
    intro x hx
    rcases List.mem_cons.1 hx with rfl | hx
    · exact Nat.lt_succ_self m
    · exact hq x hx)) h1
  have p : q'.Perm ((m, .right) :: (m, .left) :: st.queue) := p2.trans (p1.cons _)
  refine ⟨q, q', e1, e2, ?_⟩
  refine ⟨hrun, hlen', ?_, ?_, ?_, ?_, h2, h.active, h.swept⟩
  · intro i hi
    by_cases him : i = m
    · subst him; exact ⟨s, mode, hnew, is, hmode, hdat⟩
    · obtain ⟨s', mode', e, r⟩ := h.seg i (by omega)
      exact ⟨s', mode', by rw [← e]; exact hold i (by omega), r⟩
  · intro x
    show x ∈ q' ↔ _
    rw [p.mem_iff, List.mem_cons, List.mem_cons, h.queue_mem]
    obtain ⟨i, e⟩ := x
    cases e <;> simp <;> omega
  · show q'.Nodup
    rw [p.nodup_iff, List.nodup_cons, List.nodup_cons, List.mem_cons, h.queue_mem, h.queue_mem]
    exact ⟨by simp, by simp, h.queue_nodup⟩
  · show q'.length = _
    rw [p.length_eq, List.length_cons, List.length_cons, h.queue_length]
    omega

/-- The segments of the polygons are runs of pieces. -/
structure Fits (C : Cut G) (g : Ghost) (polys : List (Polygon ℝ × PolygonMode)) : Prop where
  n : G.n = polys.length
  run : ∀ o < (listed 0 polys).length, C.Run (g.fst o) (g.lst o)
  left : ∀ o < (listed 0 polys).length, G.lp (g.fst o) = (toRight (nth polys o).2).1
  right : ∀ o < (listed 0 polys).length, G.rp (g.lst o) = (toRight (nth polys o).2).2
  poly : ∀ o < (listed 0 polys).length, G.poly (g.fst o) = (nth polys o).1
  rem : ∀ (i : ℕ) (p : Polygon ℝ × PolygonMode), polys[i]? = some p → (p.2 = .removeEdges ↔ G.rem i)

section
variable {g : Ghost} {polys : List (Polygon ℝ × PolygonMode)} (hF : Fits C g polys)

include hF

theorem new_seg {m : Nat} {i : ℕ} {e : Pt ℝ × Pt ℝ} (hm : (listed 0 polys)[m]? = some (i, e)) (data : SegmentPacket) :
    ∃ s, SweepSegment.new e.1 e.2 m i data = .ok s ∧ Seg G (g.fst m) (g.lst m) m s ∧ s.data = data ∧ G.poly (g.fst m) = i ∧ C.Run (g.fst m) (g.lst m) := by
  have hlt := (List.getElem?_eq_some_iff.1 hm).1
  have hn : nth polys m = (i, e) := by rw [nth_get hlt] at hm; exact Option.some.inj hm
  have hne : ¬ e.1.beq e.2 = true := by
    rw [beq_iff]
    have := (listed_drawn (List.mem_of_getElem? hm)).1
    exact this
  have hpoly : G.poly (g.fst m) = i := by rw [hF.poly m hlt, hn]
  have hl1 := hF.left m hlt
  have hr1 := hF.right m hlt
  rw [hn] at hl1 hr1
  unfold SweepSegment.new
  rw [if_neg hne]
  by_cases hl : LeftOf e.1 e.2
  · rw [if_pos (by simpa [LeftOf, FloatOps.lt, FloatOps.eq] using hl)]
    have ht : toRight e = e := by unfold toRight; rw [if_pos hl]
    rw [ht] at hl1 hr1
    exact ⟨_, rfl, ⟨hl1.symm, hr1.symm, rfl, hpoly.symm⟩, rfl, hpoly, hF.run m hlt⟩
  · rw [if_neg (by simpa [LeftOf, FloatOps.lt, FloatOps.eq] using hl)]
    have ht : toRight e = e.swap := by unfold toRight; rw [if_neg hl]
    rw [ht] at hl1 hr1
    exact ⟨_, rfl, ⟨hl1.symm, hr1.symm, rfl, hpoly.symm⟩, rfl, hpoly, hF.run m hlt⟩

open Classical in
theorem addSegments_cut {lib : Lib} {Heap} (hh : HeapOk lib Heap) {i : Nat} {mode : PolygonMode} (hmode : mode = .removeEdges ↔ G.rem i) :
    ∀ (segs : List (Pt ℝ × Pt ℝ)) (L₁ L₂ : List (ℕ × (Pt ℝ × Pt ℝ))) (st : SweepState ℝ), Loaded C g Heap L₁.length st →
      listed 0 polys = L₁ ++ ((segs.filter fun e => e.1 ≠ e.2).map fun e => (i, e)) ++ L₂ →
      ∃ st', addSegments lib polys.length i mode segs st = .ok st' ∧
        Loaded C g Heap (L₁ ++ ((segs.filter fun e => e.1 ≠ e.2).map fun e => (i, e))).length st'
  | [], L₁, L₂, st, hst, _ => ⟨st, rfl, by simpa using hst⟩
  | (p0, p1) :: segs, L₁, L₂, st, hst, hl => by
    by_cases hne : p0 = p1
    · rw [List.filter_cons_of_neg (by simpa using hne)] at hl ⊢
      obtain ⟨st', e, hst'⟩ := addSegments_cut hh hmode segs L₁ L₂ st hst hl
      refine ⟨st', ?_, hst'⟩
      rw [addSegments, if_pos (by rw [beq_iff]; exact hne)]
      exact e
    · rw [List.filter_cons_of_pos (by simpa using hne), List.map_cons] at hl ⊢
      have hl' : listed 0 polys = (L₁ ++ [(i, (p0, p1))]) ++ ((segs.filter fun e => e.1 ≠ e.2).map fun e => (i, e)) ++ L₂ := by rw [hl]; simp
      have hget : (listed 0 polys)[L₁.length]? = some (i, (p0, p1)) := by
        rw [hl, List.append_assoc, List.getElem?_append_right (le_refl _), Nat.sub_self]; rfl
      obtain ⟨s, es, is, hd, hp, hmS⟩ := new_seg hF hget (SegmentPacket.new i mode polys.length)
      obtain ⟨q, q', e1, e2, hst'⟩ := hst.push hh (mode := mode) hmS is (by rw [hp]; exact hmode) (by rw [hd, hp, hF.n])
      obtain ⟨st', e3, h3⟩ := addSegments_cut hh hmode segs (L₁ ++ [(i, (p0, p1))]) L₂ _ (by rw [List.length_append]; exact hst') hl'
      refine ⟨st', ?_, ?_⟩
      · rw [addSegments, if_neg (by rw [beq_iff]; exact hne)]
        dsimp only
        rw [hst.length]
        rw [es]
        simp only [Res.bind_ok]
        rw [e1]
        simp only [Res.bind_ok]
        rw [e2]
        simp only [Res.bind_ok]
        exact e3
      · simpa using h3

open Classical in
theorem addContours_cut {lib : Lib} {Heap} (hh : HeapOk lib Heap) {i : Nat} {mode : PolygonMode} (hmode : mode = .removeEdges ↔ G.rem i) :
    ∀ (cs : List (Contour ℝ)) (L₁ L₂ : List (ℕ × (Pt ℝ × Pt ℝ))) (st : SweepState ℝ), Loaded C g Heap L₁.length st →
      listed 0 polys = L₁ ++ (((cs.flatMap fun c => closedEdges c.points).filter fun e => e.1 ≠ e.2).map fun e => (i, e)) ++ L₂ →
      ∃ st', addContours lib polys.length i mode cs st = .ok st' ∧
        Loaded C g Heap (L₁ ++ (((cs.flatMap fun c => closedEdges c.points).filter fun e => e.1 ≠ e.2).map fun e => (i, e))).length st'
  | [], L₁, L₂, st, hst, _ => ⟨st, rfl, by simpa using hst⟩
  | c :: cs, L₁, L₂, st, hst, hl => by
    rw [List.flatMap_cons, List.filter_append, List.map_append] at hl ⊢
    obtain ⟨st1, e1, h1⟩ := addSegments_cut hF hh hmode (closedEdges c.points) L₁ _ st hst (by rw [hl, ← List.append_assoc, List.append_assoc])
    obtain ⟨st2, e2, h2⟩ := addContours_cut hh hmode cs _ L₂ st1 h1 (by rw [hl, ← List.append_assoc])
    refine ⟨st2, ?_, by rw [← List.append_assoc]; exact h2⟩
    rw [addContours, Rings.segments_closed]
    simp only [Res.bind_ok]
    rw [e1]
    simp only [Res.bind_ok]
    exact e2

theorem addPolygons_cut {lib : Lib} {Heap} (hh : HeapOk lib Heap) :
    ∀ (rest : List (Polygon ℝ × PolygonMode)) (i : Nat) (L₁ : List (ℕ × (Pt ℝ × Pt ℝ))) (st : SweepState ℝ), (∀ k : ℕ, rest[k]? = polys[i + k]?) →
      listed 0 polys = L₁ ++ listed i rest → Loaded C g Heap L₁.length st →
      ∃ st', addPolygons lib polys.length i rest st = .ok st' ∧ Loaded C g Heap (listed 0 polys).length st'
  | [], i, L₁, st, _, e, hst => ⟨st, rfl, by rw [e, listed, List.append_nil]; exact hst⟩
  | (p, mode) :: rest, i, L₁, st, hm, e, hst => by
    classical
    rw [listed, ← List.append_assoc] at e
    obtain ⟨st1, e1, h1⟩ := addContours_cut hF hh (i := i) (hF.rem i (p, mode) (by rw [← Nat.add_zero i, ← hm 0]; rfl)) p.contours L₁ (listed (i + 1) rest) st hst e
    obtain ⟨st2, e2, h2⟩ := addPolygons_cut hh rest (i + 1) _ st1 (fun k => by rw [← List.getElem?_cons_succ (a := (p, mode)) (l := rest), hm (k + 1)]; congr 1; omega) e h1
    refine ⟨st2, ?_, h2⟩
    rw [addPolygons, e1]
    simp only [Res.bind_ok]
    exact e2

end

/-! ### The start of the sweep -/

theorem loaded_sim {g : Ghost} {Heap} {E P : ℕ} {st st' : SweepState ℝ} (h : Loaded C g Heap E st) (h' : Plan.Loaded G Heap P st') (hS : G.S = Finset.range P)
    (hcov : ∀ k ∈ G.S, g.cov k = C.own k) (hlt : ∀ k ∈ G.S, g.cov k < E) (hfst : ∀ o < E, g.cov (g.fst o) = o)
    (hwithin : ∀ k ∈ G.S, C.Within (g.fst (g.cov k)) (g.lst (g.cov k)) k) : Sim C Heap g st st' := by
  have hinv := h'.inv hS
  have hPS : ∀ {k : ℕ}, k ∈ G.S → k < P := fun hk => by rw [hS] at hk; exact Finset.mem_range.1 hk
  have hq' : ∀ x : EndId, x.1 ∈ G.S → x ∈ st'.queue := fun x hx => (h'.queue_mem x).2 (hPS hx)
  have hlen := h.length
  have hcovers : Covers C g st.arena.length := by
    rw [hlen]
    refine ⟨h.run, hlt, fun k hk => hfst _ (hlt k hk), hwithin, ?_⟩
    intro i hi hl k hw
    have hk : k ∈ G.S := hw.1.right
    rw [hcov k hk, ← hw.1.own, ← hcov _ hw.1.left, hfst i hi]
  have hcsim : ∀ i < E, Csim g.fst (dat st.arena i) (dat st'.arena (g.fst i)) := by
    intro i hi
    obtain ⟨s, mode, e, is, hm, hd⟩ := h.seg i hi
    obtain ⟨s', mode', e', is', hm', hd'⟩ := h'.seg (g.fst i) (hPS (h.run i hi).left)
    rw [dat_of e, dat_of e', hd, hd']
    exact ⟨rfl, hm.trans hm'.symm⟩
  refine ⟨⟨hinv.loose, ⟨hcovers, h.runs.seg, hinv.has, ?_, ?_, ?_⟩, ?_, h.heap, ?_, h.queue_nodup, ?_, ?_, ?_, ?_, ?_, ?_, ?_, ?_⟩, hinv, ?_, ?_⟩
  · intro i hi hl hn
    exact absurd (hq' (g.fst i, .left) (h.run i (by omega)).left) hn
  · intro i hi _
    exact hcsim i (by omega)
  · intro i hi _ b hb
    obtain ⟨s, mode, e, is, hm, hd⟩ := h.seg i (by omega)
    rw [dat_of e, hd] at hb
    cases hb
  · intro k hk _
    obtain ⟨s', mode', e', is', hm', hd'⟩ := h'.seg k (hPS hk)
    exact ⟨mode', by rw [dat_of e', hd']⟩
  · intro x hx
    rw [hlen]
    exact (h.queue_mem x).1 hx
  · intro i hi
    rw [hlen] at hi
    exact ⟨fun _ => ⟨hfst i hi, hq' (g.fst i, .left) (h.run i hi).left⟩, fun _ => (h.queue_mem _).2 hi⟩
  · intro i hi _
    rw [hlen] at hi
    exact ⟨fun _ => hq' (g.lst i, .right) (h.run i hi).right, fun _ => (h.queue_mem _).2 hi⟩
  · rw [h.active, h'.active]; rfl
  · intro i hi
    rw [h.active] at hi
    cases hi
  · rw [h.swept, h'.swept]; rfl
  · intro i hi
    rw [h.swept] at hi
    cases hi
  · intro k hk hn
    exact absurd (hq' (k, .left) hk) hn
  · intro k hk hn
    exact absurd (hq' (k, .right) hk) hn
  · intro k m _ _ j hj _
    exact hq' (j, .right) hj
  · rw [h.active]
    exact List.IsChain.nil

end Cut

/-! ### All of it -/

theorem listed_length (i : ℕ) : ∀ (polys : List (Polygon ℝ × PolygonMode)), (listed i polys).length ≤ (allCorners polys).length := by
  intro polys
  induction polys generalizing i with
  | nil => simp [listed]
  | cons p rest ih =>
    classical
    rw [listed, List.length_append, List.length_map]
    unfold allCorners at ih ⊢
    rw [List.flatMap_cons, List.length_append]
    refine Nat.add_le_add ((List.length_filter_le _ _).trans ?_) (ih (i + 1))
    unfold Polygon.edges
    rw [List.length_flatMap, List.length_flatMap]
    simp only [Rings.closedEdges_length]
    exact le_refl _

/-- The result on polygons that cross is that on the polygons with the crossings made corners. -/
theorem compute_crossed {lib : Lib} (hl : lib.Lawful) (hs : lib.SearchHonest) {polys polys' : List (Polygon ℝ × PolygonMode)} (hC : Crossed polys polys')
    (op : BooleanOpType) {fuel : ℕ} (hfuel : 5 * (allCorners polys').length < fuel) : compute lib fuel polys op = compute lib fuel polys' op := by
  have hP := hC.planar
  have hmodes : polys'.map (fun p => p.2) = polys.map fun p => p.2 := by
    have := hC.refined
    clear hP hC hfuel
    induction this with
    | nil => rfl
    | cons h _ ih => rw [List.map_cons, List.map_cons, ih, h.1]
  have hn : polys'.length = polys.length := hC.refined.length_eq.symm
  obtain ⟨Heap, hh⟩ := hl.heapOk
  obtain ⟨bs, hb1, hb2⟩ := listed_blocks 0 hC.refined
  have hB : Blocks polys polys' bs := ⟨hb1, hb2⟩
  set G := ofPolys polys' hP with hG
  have hS : ∀ {k : ℕ}, k ∈ G.S ↔ k < (listed 0 polys').length := Finset.mem_range
  have hM := hB.made hC hP
  let C : Cut G := hM.cut
  have hown : ∀ k, C.own k = (blockOf bs k).1 := fun _ => rfl
  have hex1 : ∀ o, o < (listed 0 polys).length → ∃ m, m ∈ G.S ∧ (blockOf bs m).1 = o ∧ G.lp m = (toRight (nth polys o).2).1 := by
    intro o ho
    obtain ⟨k, hk, e⟩ := hB.nonempty ho
    obtain ⟨m, h1, h2, h3⟩ := hM.first k (hS.2 hk)
    rw [e] at h2 h3
    exact ⟨m, h1, h2, h3⟩
  have hex2 : ∀ o, o < (listed 0 polys).length → ∃ m, m ∈ G.S ∧ (blockOf bs m).1 = o ∧ G.rp m = (toRight (nth polys o).2).2 := by
    intro o ho
    obtain ⟨k, hk, e⟩ := hB.nonempty ho
    obtain ⟨m, h1, h2, h3⟩ := hM.last k (hS.2 hk)
    rw [e] at h2 h3
    exact ⟨m, h1, h2, h3⟩
  classical
  let g : Cut.Ghost := ⟨fun k => (blockOf bs k).1, fun o => if h : o < (listed 0 polys).length then Classical.choose (hex1 o h) else 0,
    fun o => if h : o < (listed 0 polys).length then Classical.choose (hex2 o h) else 0⟩
  have hfst : ∀ o < (listed 0 polys).length, g.fst o ∈ G.S ∧ (blockOf bs (g.fst o)).1 = o ∧ G.lp (g.fst o) = (toRight (nth polys o).2).1 := by
    intro o ho
    have : g.fst o = Classical.choose (hex1 o ho) := dif_pos ho
    rw [this]
    exact Classical.choose_spec (hex1 o ho)
  have hlst : ∀ o < (listed 0 polys).length, g.lst o ∈ G.S ∧ (blockOf bs (g.lst o)).1 = o ∧ G.rp (g.lst o) = (toRight (nth polys o).2).2 := by
    intro o ho
    have : g.lst o = Classical.choose (hex2 o ho) := dif_pos ho
    rw [this]
    exact Classical.choose_spec (hex2 o ho)
  have hlt : ∀ k ∈ G.S, (blockOf bs k).1 < (listed 0 polys).length := by
    intro k hk
    obtain ⟨b, h1, _⟩ := hB.get (hS.1 hk)
    exact h1
  have ha : ∀ k ∈ G.S, G.a (g.fst (blockOf bs k).1) ≤ G.a k := by
    intro k hk
    have h1 := (hM.time_mem hk (hM.on k hk).1).1
    have h2 := (hfst _ (hlt k hk)).2.2
    show G.time _ ≤ G.time _
    rw [h2]
    exact h1
  have hbl : ∀ k ∈ G.S, G.b k ≤ G.b (g.lst (blockOf bs k).1) := by
    intro k hk
    have h1 := (hM.time_mem hk (hM.on k hk).2).2
    have h2 := (hlst _ (hlt k hk)).2.2
    show G.time _ ≤ G.time _
    rw [h2]
    exact h1
  have hrun1 : ∀ k ∈ G.S, C.Run (g.fst (blockOf bs k).1) k := fun k hk => ⟨(hfst _ (hlt k hk)).1, hk, (hfst _ (hlt k hk)).2.1, ha k hk⟩
  have hrun2 : ∀ k ∈ G.S, C.Run k (g.lst (blockOf bs k).1) := by
    intro k hk
    have hkl := hlst _ (hlt k hk)
    refine ⟨hk, hkl.1, hkl.2.1.symm, ?_⟩
    by_contra hc
    rw [not_le] at hc
    have h1 := Cut.b_le_a (C := C) hkl.1 hk hkl.2.1 hc
    have h2 := hbl k hk
    have h3 := G.a_lt_b hk
    linarith
  have hF : Cut.Fits C g polys := by
    refine ⟨hn, ?_, fun o ho => (hfst o ho).2.2, fun o ho => (hlst o ho).2.2, ?_, ?_⟩
    · intro o ho
      have h1 := hrun2 _ (hfst o ho).1
      rw [(hfst o ho).2.1] at h1
      exact h1
    · intro o ho
      obtain ⟨b, _, _, h3, _, h4⟩ := hB.get (hS.1 (hfst o ho).1)
      show (nth polys' (g.fst o)).1 = _
      rw [h4 _ h3, (hfst o ho).2.1]
    · intro i p hp
      have h1 : (polys'.map fun p => p.2)[i]? = some p.2 := by rw [hmodes, List.getElem?_map, hp]; rfl
      rw [List.getElem?_map] at h1
      obtain ⟨p', hp', e⟩ := Option.map_eq_some_iff.1 h1
      rw [← e]
      constructor
      · intro e
        exact ⟨_, hp', e⟩
      · rintro ⟨q, h1, h2⟩
        rw [hp'] at h1
        cases h1
        exact h2
  obtain ⟨st, e1, l1⟩ := Cut.addPolygons_cut hF hh polys 0 [] ⟨[], [], [], []⟩ (fun k => by rw [Nat.zero_add]) rfl (Cut.loaded_nil hh)
  obtain ⟨st', e1', l1'⟩ := Plan.addPolygons_plan (hP := hP) hh polys' 0 [] ⟨[], [], [], []⟩ (fun k => by rw [Nat.zero_add]) rfl (Plan.loaded_nil hh)
  have hsim : Cut.Sim C Heap g st st' := Cut.loaded_sim l1 l1' rfl (fun _ _ => rfl) hlt (fun o ho => (hfst o ho).2.1) (fun k hk => ⟨hrun1 k hk, hrun2 k hk⟩)
  obtain ⟨st2, st2', g', hR, hq, hq', hsw, hsw'⟩ := Cut.sweep_cut hl hs hh _ hsim rfl
  have hN' := listed_length 0 polys'
  have hcard : G.S.card = (listed 0 polys').length := Finset.card_range _
  have hE : (listed 0 polys).length ≤ (listed 0 polys').length := by
    have hinj : Function.Injective fun o : Fin (listed 0 polys).length => (⟨g.fst o, hS.1 (hfst o o.2).1⟩ : Fin (listed 0 polys').length) := by
      intro o o' e
      have e : g.fst o = g.fst o' := Fin.mk.inj e
      have h1 := (hfst o o.2).2.1
      have h2 := (hfst o' o'.2).2.1
      rw [e, h2] at h1
      exact Fin.ext h1.symm
    have := Fintype.card_le_of_injective _ hinj
    simpa using this
  have hun : Cut.unsplit G g ≤ (listed 0 polys').length := by
    rw [← hcard]
    exact Finset.card_filter_le _ _
  rw [compute_finish, compute_finish, e1, e1']
  simp only [Res.bind_ok]
  have hsw1 := hsw fuel (by rw [l1.queue_length]; omega)
  have hGn : G.n = polys.length := hn
  rw [hGn] at hsw1
  rw [hsw1, show sweepLoop lib polys'.length fuel st' = .ok st2' from hsw' fuel (by rw [l1'.queue_length]; omega)]
  simp only [Res.bind_ok]
  rw [← hmodes]
  exact Cut.finish_cut hl hR hq' _ _

end Idc
