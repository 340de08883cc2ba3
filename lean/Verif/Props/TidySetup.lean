import Verif.Props.TidyNet
import Verif.Props.TidyLoop
import Verif.Props.Shape
/-!
# Filling the arena and the queue of `compute`, for C76
-/

namespace Idc

open FloatOps

namespace Net

variable {G : Net}

/-- The first `m` segments are in the arena and in the queue. -/
structure Loaded (G : Net) (Heap : (EndId → EndId → Res Ordering) → List EndId → Prop) (m : Nat) (st : SweepState ℝ) : Prop where
  le : m ≤ G.N
  length : st.arena.length = m
  seg : ∀ i < m, ∃ s mode, st.arena[i]? = some s ∧ G.Is i s ∧ mode ≠ PolygonMode.removeEdges ∧ s.data = SegmentPacket.new (G.poly i) mode G.n
  queue_mem : ∀ x : EndId, x ∈ st.queue ↔ x.1 < m
  queue_nodup : st.queue.Nodup
  heap : Heap st.arena.endCmp st.queue
  active : st.active = []
  swept : st.swept = []

theorem endCmp_key' {arena : Arena ℝ} {x y : EndId} (hx : x.1 < G.N) (hy : y.1 < G.N) (hsx : ∃ s, arena[x.1]? = some s ∧ G.Is x.1 s)
    (hsy : ∃ s, arena[y.1]? = some s ∧ G.Is y.1 s) : arena.endCmp x y = .ok (compare (G.key x) (G.key y)) := by
  obtain ⟨s, hs, is⟩ := hsx
  obtain ⟨s', hs', is'⟩ := hsy
  unfold Arena.endCmp index
  rw [hs, hs']
  simp only [Res.bind_ok]
  rw [endpointCmp_eq (a := (s, x.2)) (b := (s', y.2)) (is.wf hx) (is'.wf hy), endKey_is is, endKey_is is']

theorem total_of_key {α K : Type} [LinearOrder K] (f : α → K) {P : α → Prop} {cmp : α → α → Res Ordering}
    (h : ∀ x y, P x → P y → cmp x y = .ok (compare (f x) (f y))) : TotalPreorderOn P cmp where
  total x y hx hy := by
    refine ⟨_, h x y hx hy, ?_⟩
    rw [h y x hy hx]
    congr 1
    rcases lt_trichotomy (f x) (f y) with h | h | h
    · rw [compare_lt_iff_lt.mpr h, compare_gt_iff_gt.mpr h]; rfl
    · rw [compare_eq_iff_eq.mpr h, compare_eq_iff_eq.mpr h.symm]; rfl
    · rw [compare_lt_iff_lt.mpr h, compare_gt_iff_gt.mpr h]; rfl
  trans x y z o₁ o₂ o₃ hx hy hz h1 h2 h3 n1 n2 := by
    rw [h x y hx hy] at h1
    rw [h y z hy hz] at h2
    rw [h x z hx hz] at h3
    cases h1; cases h2; cases h3
    have l1 : f x ≤ f y := le_of_not_gt fun h => n1 (compare_gt_iff_gt.mpr h)
    have l2 : f y ≤ f z := le_of_not_gt fun h => n2 (compare_gt_iff_gt.mpr h)
    refine ⟨fun h => absurd (le_trans l1 l2) (not_le_of_gt (compare_gt_iff_gt.mp h)), fun h => ?_⟩
    have h := compare_eq_iff_eq.mp h
    rw [compare_eq_iff_eq, compare_eq_iff_eq]
    exact ⟨le_antisymm l1 (h ▸ l2), le_antisymm l2 (h ▸ l1)⟩

theorem loaded_nil {lib : Lib} {Heap} (hh : HeapOk lib Heap) : Loaded G Heap 0 ⟨[], [], [], []⟩ :=
  ⟨Nat.zero_le _, rfl, fun i hi => absurd hi (Nat.not_lt_zero i), fun x => by simp, List.nodup_nil, hh.nil _, rfl, rfl⟩

/-- One more segment. -/
theorem Loaded.push {lib : Lib} {Heap} (hh : HeapOk lib Heap) {m : Nat} {st : SweepState ℝ} (h : Loaded G Heap m st) {s : BoolSegment ℝ} {mode : PolygonMode}
    (hm : m < G.N) (is : G.Is m s) (hmode : mode ≠ .removeEdges) (hdat : s.data = SegmentPacket.new (G.poly m) mode G.n) :
    ∃ q q', lib.heapPush (Arena.endCmp (st.arena ++ [s])) (m, .left) st.queue = .ok q ∧
      lib.heapPush (Arena.endCmp (st.arena ++ [s])) (m, .right) q = .ok q' ∧
      Loaded G Heap (m + 1) { st with arena := st.arena ++ [s], queue := q' } := by
  have hlen := h.length
  have hold : ∀ i < m, (st.arena ++ [s])[i]? = st.arena[i]? := fun i hi => List.getElem?_append_left (by omega)
  have hnew : (st.arena ++ [s])[m]? = some s := by
    rw [List.getElem?_append_right (by omega), hlen, Nat.sub_self]; rfl
  have hsg : ∀ i < m + 1, ∃ s', (st.arena ++ [s])[i]? = some s' ∧ G.Is i s' := by
    intro i hi
    by_cases him : i = m
    · subst him; exact ⟨s, hnew, is⟩
    · obtain ⟨s', mode', e, is', _⟩ := h.seg i (by omega)
      exact ⟨s', by rw [hold i (by omega), e], is'⟩
  have hcmp : ∀ x y : EndId, x.1 < m + 1 → y.1 < m + 1 → Arena.endCmp (st.arena ++ [s]) x y = .ok (compare (G.key x) (G.key y)) :=
    fun x y hx hy => endCmp_key' (by omega) (by omega) (hsg _ hx) (hsg _ hy)
  have hcmp0 : ∀ x y : EndId, x.1 < m → y.1 < m → Arena.endCmp st.arena x y = .ok (compare (G.key x) (G.key y)) := by
    intro x y hx hy
    obtain ⟨s1, _, e1, is1, _⟩ := h.seg _ hx
    obtain ⟨s2, _, e2, is2, _⟩ := h.seg _ hy
    exact endCmp_key' (by omega) (by omega) ⟨s1, e1, is1⟩ ⟨s2, e2, is2⟩
  have htot : ∀ l : List EndId, (∀ x ∈ l, x.1 < m + 1) → TotalPreorderOn (· ∈ l) (Arena.endCmp (st.arena ++ [s])) :=
    fun l hl => total_of_key G.key fun x y hx hy => hcmp x y (hl x hx) (hl y hy)
  have h0 : Heap (Arena.endCmp (st.arena ++ [s])) st.queue := by
    refine hh.congr _ _ _ (fun a ha b hb => ?_) h.heap
    have ha := (h.queue_mem a).1 ha
    have hb := (h.queue_mem b).1 hb
    rw [hcmp a b (by omega) (by omega), hcmp0 a b ha hb]
  obtain ⟨q, e1, p1, h1⟩ := hh.push _ (m, .left) st.queue (htot _ (by
    intro x hx
    rcases List.mem_cons.1 hx with rfl | hx
    · exact Nat.lt_succ_self m
    · have := (h.queue_mem x).1 hx; omega)) h0
  have hq : ∀ x ∈ q, x.1 < m + 1 := by
    intro x hx
    rcases List.mem_cons.1 (p1.mem_iff.1 hx) with rfl | hx
    · exact Nat.lt_succ_self m
    · have := (h.queue_mem x).1 hx; omega
  obtain ⟨q', e2, p2, h2⟩ := hh.push _ (m, .right) q (htot _ (by
    intro x hx
    rcases List.mem_cons.1 hx with rfl | hx
    · exact Nat.lt_succ_self m
    · exact hq x hx)) h1
  have p : q'.Perm ((m, .right) :: (m, .left) :: st.queue) := p2.trans (p1.cons _)
  refine ⟨q, q', e1, e2, ?_⟩
  refine ⟨hm, by simp [hlen], ?_, ?_, ?_, h2, h.active, h.swept⟩
  · intro i hi
    by_cases him : i = m
    · subst him; exact ⟨s, mode, hnew, is, hmode, hdat⟩
    · obtain ⟨s', mode', e, r⟩ := h.seg i (by omega)
      exact ⟨s', mode', by rw [← e]; exact hold i (by omega), r⟩
  · intro x
    show x ∈ q' ↔ _
    rw [p.mem_iff, List.mem_cons, List.mem_cons, h.queue_mem]
    obtain ⟨i, e⟩ := x
    cases e <;> simp <;> omega
  · show q'.Nodup
    rw [p.nodup_iff, List.nodup_cons, List.nodup_cons, List.mem_cons, h.queue_mem, h.queue_mem]
    exact ⟨by simp, by simp, h.queue_nodup⟩

/-- A loaded state is where the sweep starts. -/
theorem Loaded.inv {lib : Lib} {Heap} (_ : HeapOk lib Heap) {st : SweepState ℝ} (h : Loaded G Heap G.N st) : ∃ t, Inv G Heap t st := by
  obtain ⟨t, ht⟩ : ∃ t, ∀ x : EndId, x.1 < G.N → t < G.time (G.pt x) := by
    have : ∀ m : Nat, ∃ t, ∀ x : EndId, x.1 < m → t < G.time (G.pt x) := by
      intro m
      induction m with
      | zero => exact ⟨0, fun x hx => absurd hx (Nat.not_lt_zero _)⟩
      | succ m ih =>
        obtain ⟨t, ht⟩ := ih
        refine ⟨Min.min t (Min.min (G.time (G.pt (m, .left))) (G.time (G.pt (m, .right))) - 1), fun x hx => ?_⟩
        by_cases hm : x.1 = m
        · obtain ⟨i, e⟩ := x
          subst hm
          have h1 := min_le_right t (Min.min (G.time (G.pt (i, .left))) (G.time (G.pt (i, .right))) - 1)
          have h2 := min_le_left (G.time (G.pt (i, .left))) (G.time (G.pt (i, .right)))
          have h3 := min_le_right (G.time (G.pt (i, .left))) (G.time (G.pt (i, .right)))
          cases e <;> linarith
        · exact lt_of_le_of_lt (min_le_left _ _) (ht x (by omega))
    exact this G.N
  have hdat : ∀ i < G.N, ∃ mode, mode ≠ PolygonMode.removeEdges ∧ dat st.arena i = SegmentPacket.new (G.poly i) mode G.n := by
    intro i hi
    obtain ⟨s, mode, e, _, hm, hd⟩ := h.seg i hi
    exact ⟨mode, hm, by rw [dat_of e, hd]⟩
  have ha : ∀ i < G.N, t < G.a i := fun i hi => ht (i, .left) hi
  have hb : ∀ i < G.N, t < G.b i := fun i hi => ht (i, .right) hi
  refine ⟨t, ?_⟩
  refine ⟨⟨h.length, fun i hi => ?_⟩, fun x => ?_, h.queue_nodup, h.heap, fun x hx => (ht x hx).ne', ?_, ?_, ?_, ?_, ?_, ?_⟩
  · obtain ⟨s, _, e, is, _⟩ := h.seg i hi
    exact ⟨s, e, is⟩
  · rw [h.queue_mem]
    exact ⟨fun hx => ⟨hx, ht x hx⟩, fun hx => hx.1⟩
  · rw [h.active]
    exact ⟨by simp, by simp⟩
  · intro i hi hlt
    exact absurd hlt (not_lt.2 (ha i hi).le)
  · rw [h.swept]; exact List.nodup_nil
  · intro i
    rw [h.swept]
    constructor
    · intro hi; cases hi
    · rintro ⟨hi, hlt⟩
      exact absurd hlt (not_lt.2 (hb i hi).le)
  · rw [h.active]; trivial
  · refine ⟨?_, ?_, ?_, ?_, ?_, ?_⟩
    · intro i hi
      obtain ⟨mode, hm, e⟩ := hdat i hi
      rw [e]
      exact ⟨rfl, hm, rfl, rfl, rfl, rfl⟩
    · intro i hi _
      obtain ⟨mode, hm, e⟩ := hdat i hi
      rw [e]
      exact ⟨rfl, rfl, rfl, rfl⟩
    · intro i hi hlt
      exact absurd hlt (not_lt.2 (ha i hi).le)
    · intro x hx hlt
      exact absurd hlt (not_lt.2 (ht x hx).le)
    · intro i hi hlt
      exact absurd hlt (not_lt.2 (ha i hi).le)
    · intro i hi hlt
      exact absurd hlt (not_lt.2 (ha i hi).le)

end Net

namespace Rings

/-- The outlines of a list of polygons, numbered from `i`. -/
def ofPolygons : Nat → List (Polygon ℝ × PolygonMode) → Rings
  | _, [] => []
  | i, p :: rest => (p.1.contours.map fun c => (i, c.points)) ++ ofPolygons (i + 1) rest

theorem ofPolygons_corners : ∀ (i : Nat) (polys : List (Polygon ℝ × PolygonMode)), corners (ofPolygons i polys) = allCorners polys
  | _, [] => rfl
  | i, p :: rest => by
    have := ofPolygons_corners (i + 1) rest
    unfold corners at this
    rw [ofPolygons, corners, List.flatMap_append, this, List.flatMap_map]
    rfl

theorem ofPolygons_edges : ∀ (i : Nat) (polys : List (Polygon ℝ × PolygonMode)), edges (ofPolygons i polys) = allEdges polys
  | _, [] => rfl
  | i, p :: rest => by
    have := ofPolygons_edges (i + 1) rest
    unfold edges at this
    rw [ofPolygons, edges, List.flatMap_append, this, List.flatMap_map]
    rfl

theorem mem_ofPolygons : ∀ (i : Nat) (polys : List (Polygon ℝ × PolygonMode)) (r : Nat × List (Pt ℝ)),
    r ∈ ofPolygons i polys ↔ ∃ k p c, r = (i + k, c.points) ∧ polys[k]? = some p ∧ c ∈ Polygon.contours p.1
  | i, [], r => by simp [ofPolygons]
  | i, p :: rest, r => by
    rw [ofPolygons, List.mem_append, mem_ofPolygons (i + 1) rest, List.mem_map]
    constructor
    · rintro (⟨c, hc, rfl⟩ | ⟨k, p', c, rfl, h1, h2⟩)
      · exact ⟨0, p, c, rfl, rfl, hc⟩
      · exact ⟨k + 1, p', c, by rw [show i + 1 + k = i + (k + 1) by omega], h1, h2⟩
    · rintro ⟨k, p', c, rfl, h1, h2⟩
      cases k with
      | zero => left; cases h1; exact ⟨c, h2, rfl⟩
      | succ k => right; exact ⟨k, p', c, by rw [show i + 1 + k = i + (k + 1) by omega], h1, h2⟩

theorem tidy_of {polys : List (Polygon ℝ × PolygonMode)} (h : Idc.Tidy polys) : Tidy (ofPolygons 0 polys) where
  ok := by
    refine ⟨?_, ?_⟩
    · intro r hr
      obtain ⟨k, p, c, rfl, h1, h2⟩ := (mem_ofPolygons 0 polys r).1 hr
      exact h.corners p (List.mem_of_getElem? h1) c h2
    · rw [ofPolygons_corners]; exact h.distinct
  whole := by rw [ofPolygons_corners]; exact h.whole
  apart := by rw [ofPolygons_edges]; exact h.apart
  angles := by rw [ofPolygons_edges]; exact h.angles
  distances := by rw [ofPolygons_edges]; exact h.distances

variable {L : Rings} {hT : Tidy L} {n : Nat} {hn : ∀ r ∈ L, r.1 < n}

theorem new_seg {m : Nat} (hm : m < size L) (data : SegmentPacket) :
    ∃ s, SweepSegment.new (corner L m) (corner L (succ L m)) m (poly L m) data = .ok s ∧ (net L hT n hn).Is m s ∧ s.data = data := by
  have hne : ¬ (corner L m).beq (corner L (succ L m)) = true := by
    rw [beq_iff]
    intro e
    exact hT.ok.succ_ne hm (hT.ok.corner_inj hm (succ_lt hm) e).symm
  unfold SweepSegment.new
  rw [if_neg hne]
  by_cases hl : LeftOf (corner L m) (corner L (succ L m))
  · rw [if_pos (by simpa [LeftOf, FloatOps.lt, FloatOps.eq] using hl)]
    refine ⟨_, rfl, ⟨?_, ?_, rfl, rfl⟩, rfl⟩
    · show corner L m = lp L m
      unfold lp startEnd; rw [if_pos hl]
    · show corner L (succ L m) = rp L m
      unfold rp startEnd; rw [if_pos hl]
  · rw [if_neg (by simpa [LeftOf, FloatOps.lt, FloatOps.eq] using hl)]
    refine ⟨_, rfl, ⟨?_, ?_, rfl, rfl⟩, rfl⟩
    · show corner L (succ L m) = lp L m
      unfold lp startEnd; rw [if_neg hl]
    · show corner L m = rp L m
      unfold rp startEnd; rw [if_neg hl]

theorem addSegments_net {lib : Lib} {Heap} (hh : HeapOk lib Heap) {i : Nat} {mode : PolygonMode} (hmode : mode ≠ .removeEdges) :
    ∀ (segs : List (Pt ℝ × Pt ℝ)) (m : Nat) (st : SweepState ℝ), Net.Loaded (net L hT n hn) Heap m st → m + segs.length ≤ size L →
      (∀ j e, segs[j]? = some e → e = (corner L (m + j), corner L (succ L (m + j))) ∧ poly L (m + j) = i) →
      ∃ st', addSegments lib n i mode segs st = .ok st' ∧ Net.Loaded (net L hT n hn) Heap (m + segs.length) st'
  | [], m, st, h, _, _ => ⟨st, rfl, h⟩
  | (p0, p1) :: segs, m, st, h, hle, hseg => by
    rw [List.length_cons] at hle
    have hm : m < size L := by omega
    obtain ⟨e0, hp⟩ := hseg 0 _ rfl
    rw [Nat.add_zero] at e0 hp
    cases e0
    have hne : ¬ (corner L m).beq (corner L (succ L m)) = true := by
      rw [beq_iff]
      intro e
      exact hT.ok.succ_ne hm (hT.ok.corner_inj hm (succ_lt hm) e).symm
    obtain ⟨s, es, is, hd⟩ := new_seg (hT := hT) (hn := hn) hm (SegmentPacket.new i mode n)
    obtain ⟨q, q', e1, e2, h'⟩ := h.push hh (mode := mode) hm is hmode (by rw [hd]; show _ = SegmentPacket.new (poly L m) mode n; rw [hp])
    obtain ⟨st', e3, h3⟩ := addSegments_net hh hmode segs (m + 1) _ h' (by omega) (by
      intro j e he
      rw [show m + 1 + j = m + (j + 1) by omega]
      exact hseg (j + 1) e he)
    refine ⟨st', ?_, by rw [List.length_cons, show m + (segs.length + 1) = m + 1 + segs.length by omega]; exact h3⟩
    rw [addSegments, if_neg hne]
    dsimp only
    rw [h.length]
    rw [hp] at es
    rw [es]
    simp only [Res.bind_ok]
    rw [e1]
    simp only [Res.bind_ok]
    rw [e2]
    simp only [Res.bind_ok]
    exact e3

theorem segments_closed (c : Contour ℝ) : c.segments = .ok (closedEdges c.points) := by
  obtain ⟨segs, e, hl, h⟩ := C52_segments c
  rw [e]
  congr 1
  apply List.ext_getElem?
  intro j
  by_cases hj : j < c.points.length
  · have h1 : c.points[j]? = some c.points[j] := List.getElem?_eq_getElem hj
    have h2 : c.points[(j + 1) % c.points.length]? = some (c.points[(j + 1) % c.points.length]'(Nat.mod_lt _ (by omega))) := List.getElem?_eq_getElem _
    rw [closedEdges_get h1 h2]
    exact (h j _ _).2 ⟨h1, h2⟩
  · rw [List.getElem?_eq_none (by omega), List.getElem?_eq_none (by rw [closedEdges_length]; omega)]

theorem addContours_net {lib : Lib} {Heap} (hh : HeapOk lib Heap) {i : Nat} {mode : PolygonMode} (hmode : mode ≠ .removeEdges) :
    ∀ (cs : List (Contour ℝ)) (L₁ L₂ : Rings) (st : SweepState ℝ), L = L₁ ++ (cs.map fun c => (i, c.points)) ++ L₂ →
      Net.Loaded (net L hT n hn) Heap (size L₁) st →
      ∃ st', addContours lib n i mode cs st = .ok st' ∧ Net.Loaded (net L hT n hn) Heap (size (L₁ ++ (cs.map fun c => (i, c.points)))) st'
  | [], L₁, L₂, st, _, h => ⟨st, rfl, by simpa using h⟩
  | c :: cs, L₁, L₂, st, e, h => by
    have e' : L = (L₁ ++ [(i, c.points)]) ++ (cs.map fun c => (i, c.points)) ++ L₂ := by rw [e]; simp
    have e'' : L = L₁ ++ (i, c.points) :: ((cs.map fun c => (i, c.points)) ++ L₂) := by rw [e]; simp
    have hsz : size (L₁ ++ [(i, c.points)]) = size L₁ + c.points.length := by rw [size_append, size_cons, size_nil]; rfl
    obtain ⟨st1, h1, h2⟩ := addSegments_net hh (i := i) hmode (closedEdges c.points) (size L₁) st h (by
        rw [closedEdges_length]
        conv_rhs => rw [e'']
        rw [size_append, size_cons]
        dsimp only
        omega) (by
      intro j ed hj
      have hj' : j < c.points.length := by
        have := (List.getElem?_eq_some_iff.1 hj).1
        rwa [closedEdges_length] at this
      have hat : At L (size L₁ + j) L₁ i c.points ((cs.map fun c => (i, c.points)) ++ L₂) j := ⟨e'', rfl, hj'⟩
      have := closedEdges_get hat.corner hat.succ.corner
      rw [this] at hj
      cases hj
      exact ⟨rfl, hat.poly⟩)
    rw [closedEdges_length, ← hsz] at h2
    obtain ⟨st2, h3, h4⟩ := addContours_net hh hmode cs (L₁ ++ [(i, c.points)]) L₂ st1 e' h2
    refine ⟨st2, ?_, ?_⟩
    · rw [addContours, segments_closed]
      simp only [Res.bind_ok]
      rw [h1]
      simp only [Res.bind_ok]
      exact h3
    · simpa using h4

theorem addPolygons_net {lib : Lib} {Heap} (hh : HeapOk lib Heap) :
    ∀ (polys : List (Polygon ℝ × PolygonMode)) (i : Nat) (L₁ : Rings) (st : SweepState ℝ), (∀ p ∈ polys, p.2 ≠ .removeEdges) → L = L₁ ++ ofPolygons i polys →
      Net.Loaded (net L hT n hn) Heap (size L₁) st →
      ∃ st', addPolygons lib n i polys st = .ok st' ∧ Net.Loaded (net L hT n hn) Heap (size L) st'
  | [], i, L₁, st, _, e, h => ⟨st, rfl, by
      have hs : size L₁ = size L := by rw [e, ofPolygons, List.append_nil]
      exact hs ▸ h⟩
  | (p, mode) :: rest, i, L₁, st, hm, e, h => by
    have e' : L = L₁ ++ (p.contours.map fun c => (i, c.points)) ++ ofPolygons (i + 1) rest := by rw [e, ofPolygons, List.append_assoc]
    obtain ⟨st1, h1, h2⟩ := addContours_net hh (i := i) (mode := mode) (hm (p, mode) (by simp)) p.contours L₁ _ st e' h
    obtain ⟨st2, h3, h4⟩ := addPolygons_net hh rest (i + 1) _ st1 (fun p hp => hm p (by simp [hp])) e' h2
    refine ⟨st2, ?_, h4⟩
    rw [addPolygons, h1]
    simp only [Res.bind_ok]
    exact h3

end Rings

end Idc
