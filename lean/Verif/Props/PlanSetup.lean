import Verif.Spec.Plan
import Verif.Props.PlanFinish
import Verif.Props.TidySetup
import Verif.Props.TidyParity
import Verif.Props.Orientation
/-!
# From polygons to plans, and filling the arena and the queue of `compute`, for C81
-/

namespace Idc

open FloatOps

namespace Plan

open Net

open Classical in
/-- The edges of all polygons, numbered from `i`, with the numbers of their polygons. -/
noncomputable def listed : ℕ → List (Polygon ℝ × PolygonMode) → List (ℕ × (Pt ℝ × Pt ℝ))
  | _, [] => []
  | i, p :: rest => ((p.1.edges.filter fun e => e.1 ≠ e.2).map fun e => (i, e)) ++ listed (i + 1) rest

/-- From left to right. -/
noncomputable def toRight (e : Pt ℝ × Pt ℝ) : Pt ℝ × Pt ℝ := open Classical in if LeftOf e.1 e.2 then e else e.swap

theorem toRight_or (e : Pt ℝ × Pt ℝ) : toRight e = e ∨ toRight e = e.swap := by
  unfold toRight
  split
  · exact Or.inl rfl
  · exact Or.inr rfl

theorem toRight_left {e : Pt ℝ × Pt ℝ} (h : e.1 ≠ e.2) : LeftOf (toRight e).1 (toRight e).2 := by
  unfold toRight
  split
  · assumption
  · rename_i h'
    exact (LeftOf.total h).resolve_left h'

theorem mem_listed {t : ℕ × (Pt ℝ × Pt ℝ)} : ∀ {polys : List (Polygon ℝ × PolygonMode)} {i : ℕ},
    t ∈ listed i polys ↔ ∃ k p, polys[k]? = some p ∧ t.1 = i + k ∧ t.2 ∈ p.1.edges ∧ t.2.1 ≠ t.2.2
  | [], i => by simp [listed]
  | p :: rest, i => by
    classical
    rw [listed, List.mem_append, mem_listed, List.mem_map]
    constructor
    · rintro (⟨e, he, rfl⟩ | ⟨k, p', h1, h2, h3⟩)
      · rw [List.mem_filter, decide_eq_true_iff] at he
        exact ⟨0, p, rfl, rfl, he⟩
      · exact ⟨k + 1, p', h1, by omega, h3⟩
    · rintro ⟨k, p', h1, h2, h3, h4⟩
      cases k with
      | zero =>
        left
        cases h1
        refine ⟨t.2, ?_, ?_⟩
        · rw [List.mem_filter, decide_eq_true_iff]
          exact ⟨h3, h4⟩
        · obtain ⟨a, b⟩ := t
          simp at h2 ⊢
          exact h2.symm
      | succ k => right; exact ⟨k, p', h1, by omega, h3, h4⟩

theorem listed_lt {t : ℕ × (Pt ℝ × Pt ℝ)} {polys : List (Polygon ℝ × PolygonMode)} (h : t ∈ listed 0 polys) : t.1 < polys.length := by
  obtain ⟨k, p, h1, h2, _⟩ := mem_listed.1 h
  have := (List.getElem?_eq_some_iff.1 h1).1
  omega

theorem listed_drawn {t : ℕ × (Pt ℝ × Pt ℝ)} {polys : List (Polygon ℝ × PolygonMode)} (h : t ∈ listed 0 polys) : Drawn polys t.2 := by
  obtain ⟨k, p, h1, _, h3, h4⟩ := mem_listed.1 h
  exact ⟨h4, Or.inl (List.mem_flatMap.2 ⟨p, List.mem_of_getElem? h1, h3⟩)⟩

theorem Drawn.swap {polys : List (Polygon ℝ × PolygonMode)} {d : Pt ℝ × Pt ℝ} (h : Drawn polys d) : Drawn polys d.swap :=
  ⟨Ne.symm h.1, h.2.symm⟩

theorem drawn_toRight {t : ℕ × (Pt ℝ × Pt ℝ)} {polys : List (Polygon ℝ × PolygonMode)} (h : t ∈ listed 0 polys) : Drawn polys (toRight t.2) := by
  rcases toRight_or t.2 with e | e <;> rw [e]
  · exact listed_drawn h
  · exact Drawn.swap (listed_drawn h)

/-- Within a polygon no edge occurs twice, also not in opposite directions. -/
theorem listed_once : ∀ {polys : List (Polygon ℝ × PolygonMode)} {i : ℕ}, (∀ p ∈ polys, p.1.edges.Pairwise fun e e' => e.1 ≠ e.2 → e' ≠ e ∧ e' ≠ e.swap) →
    (listed i polys).Pairwise fun t t' => t.1 = t'.1 → t'.2 ≠ t.2 ∧ t'.2 ≠ t.2.swap
  | [], _, _ => List.Pairwise.nil
  | p :: rest, i, h => by
    classical
    rw [listed, List.pairwise_append]
    refine ⟨?_, listed_once fun q hq => h q (by simp [hq]), ?_⟩
    · rw [List.pairwise_map]
      refine ((h p (by simp)).filter _).imp_of_mem ?_
      intro e e' he _ hh _
      rw [List.mem_filter, decide_eq_true_iff] at he
      exact hh he.2
    · intro t ht t' ht' e
      rw [List.mem_map] at ht
      obtain ⟨d, _, rfl⟩ := ht
      obtain ⟨k, p', h1, h2, _⟩ := mem_listed.1 ht'
      dsimp only at e
      omega

/-! ### Sums -/

theorem sum_getD {α : Type} (f : α → ZMod 2) (d : α) : ∀ l : List α, ∑ k ∈ Finset.range l.length, f (l.getD k d) = (l.map f).sum
  | [] => rfl
  | a :: l => by
    rw [List.length_cons, Finset.sum_range_succ', List.map_cons, List.sum_cons, ← sum_getD f d l, add_comm]
    rfl

theorem sum_listed_tag (φ : Pt ℝ × Pt ℝ → ZMod 2) (i m : ℕ) (l : List (Pt ℝ × Pt ℝ)) :
    ((l.map fun e => (i, e)).map fun t : ℕ × (Pt ℝ × Pt ℝ) => if t.1 = m then φ t.2 else 0).sum = if i = m then (l.map φ).sum else 0 := by
  rw [List.map_map]
  by_cases h : i = m
  · rw [if_pos h]
    congr 1
    refine List.map_congr_left fun e _ => ?_
    simp [h]
  · rw [if_neg h]
    refine List.sum_eq_zero ?_
    intro x hx
    rw [List.mem_map] at hx
    obtain ⟨e, _, rfl⟩ := hx
    simp [h]

theorem sum_proper (φ : Pt ℝ × Pt ℝ → ZMod 2) (h0 : ∀ p, φ (p, p) = 0) (f : Pt ℝ × Pt ℝ → Bool) (hf : ∀ e, f e = true ↔ e.1 ≠ e.2) : ∀ l : List (Pt ℝ × Pt ℝ),
    ((l.filter f).map φ).sum = (l.map φ).sum
  | [] => rfl
  | e :: l => by
    rw [List.filter_cons]
    split
    · rw [List.map_cons, List.map_cons, List.sum_cons, List.sum_cons, sum_proper φ h0 f hf l]
    · rename_i h
      rw [hf, not_not] at h
      have : φ e = 0 := by
        obtain ⟨a, b⟩ := e
        dsimp only at h
        rw [h]; exact h0 b
      rw [List.map_cons, List.sum_cons, this, zero_add, sum_proper φ h0 f hf l]

theorem sum_listed (φ : Pt ℝ × Pt ℝ → ZMod 2) (h0 : ∀ p, φ (p, p) = 0) : ∀ (polys : List (Polygon ℝ × PolygonMode)) (i m : ℕ),
    ((listed i polys).map fun t : ℕ × (Pt ℝ × Pt ℝ) => if t.1 = i + m then φ t.2 else 0).sum = match polys[m]? with | some p => (p.1.edges.map φ).sum | none => 0
  | [], i, m => by simp [listed]
  | p :: rest, i, m => by
    classical
    rw [listed, List.map_append, List.sum_append, sum_listed_tag, sum_proper φ h0 _ (fun e => by simp)]
    cases m with
    | zero =>
      rw [if_pos (Nat.add_zero i).symm]
      have : ((listed (i + 1) rest).map fun t : ℕ × (Pt ℝ × Pt ℝ) => if t.1 = i + 0 then φ t.2 else 0).sum = 0 := by
        refine List.sum_eq_zero ?_
        intro x hx
        rw [List.mem_map] at hx
        obtain ⟨t, ht, rfl⟩ := hx
        obtain ⟨k, _, _, h2, _⟩ := mem_listed.1 ht
        rw [if_neg (by omega)]
      rw [this, add_zero]
      rfl
    | succ m =>
      rw [if_neg (by omega), zero_add]
      have := sum_listed φ h0 rest (i + 1) m
      rw [show i + 1 + m = i + (m + 1) by omega] at this
      rw [this]
      rfl

theorem sum_range_listed (φ : Pt ℝ × Pt ℝ → ZMod 2) (h0 : ∀ p, φ (p, p) = 0) (hs : ∀ e, φ e.swap = φ e) (polys : List (Polygon ℝ × PolygonMode)) (d : ℕ × (Pt ℝ × Pt ℝ)) (m : ℕ) :
    ∑ k ∈ Finset.range (listed 0 polys).length with ((listed 0 polys).getD k d).1 = m, φ (toRight ((listed 0 polys).getD k d).2) =
      match polys[m]? with | some p => (p.1.edges.map φ).sum | none => 0 := by
  have hs' : ∀ e, φ (toRight e) = φ e := fun e => by rcases toRight_or e with h | h <;> rw [h]; exact hs e
  rw [← sum_listed φ h0 polys 0 m, Finset.sum_filter, ← sum_getD _ d]
  refine Finset.sum_congr rfl fun k _ => ?_
  rw [hs', Nat.zero_add]

/-- Going round a closed chain every corner is counted twice. -/
theorem closed_even (W : Pt ℝ → ZMod 2) (ps : List (Pt ℝ)) : ((closedEdges ps).map fun e => W e.1 + W e.2).sum = 0 := by
  have h : ∀ l l' : List (Pt ℝ), l.length = l'.length → ((l.zip l').map fun e : Pt ℝ × Pt ℝ => W e.1 + W e.2).sum = (l.map W).sum + (l'.map W).sum := by
    intro l
    induction l with
    | nil => intro l' h; cases l' with
      | nil => rfl
      | cons => simp at h
    | cons a l ih =>
      intro l' h
      cases l' with
      | nil => simp at h
      | cons b l' =>
        rw [List.zip_cons_cons, List.map_cons, List.sum_cons, ih l' (by simpa using h), List.map_cons, List.map_cons, List.sum_cons, List.sum_cons]
        ring
  unfold closedEdges
  rw [h _ _ (by simp), List.map_rotate]
  have : ((ps.map W).rotate 1).sum = (ps.map W).sum := (List.rotate_perm _ 1).sum_eq
  rw [this]
  exact two_eq _

theorem edges_even (W : Pt ℝ → ZMod 2) (p : Polygon ℝ) : (p.edges.map fun e => W e.1 + W e.2).sum = 0 := by
  unfold Polygon.edges
  rw [List.map_flatMap]
  induction p.contours with
  | nil => rfl
  | cons c cs ih => rw [List.flatMap_cons, List.sum_append, ih, closed_even, add_zero]

/-! ### The plan -/

theorem drawn_corner {polys : List (Polygon ℝ × PolygonMode)} {d : Pt ℝ × Pt ℝ} (h : Drawn polys d) : d.1 ∈ allCorners polys ∧ d.2 ∈ allCorners polys := by
  have key : ∀ e ∈ allEdges polys, e.1 ∈ allCorners polys ∧ e.2 ∈ allCorners polys := by
    intro e he
    unfold allEdges Polygon.edges at he
    rw [List.mem_flatMap] at he
    obtain ⟨p, hp, he⟩ := he
    rw [List.mem_flatMap] at he
    obtain ⟨c, hc, he⟩ := he
    unfold closedEdges at he
    obtain ⟨a, b⟩ := e
    have := List.of_mem_zip he
    rw [List.mem_rotate] at this
    have hin : ∀ q ∈ c.points, q ∈ allCorners polys := fun q hq => List.mem_flatMap.2 ⟨p, hp, List.mem_flatMap.2 ⟨c, hc, hq⟩⟩
    exact ⟨hin _ this.1, hin _ this.2⟩
  rcases h.2 with h | h
  · exact key d h
  · exact (key _ h).symm

/-- The slope of the sweep line. -/
noncomputable def slant (polys : List (Polygon ℝ × PolygonMode)) : ℝ := Classical.choose (exists_shear_real (allCorners polys))

theorem slant_pos (polys : List (Polygon ℝ × PolygonMode)) : 0 < slant polys := (Classical.choose_spec (exists_shear_real (allCorners polys))).1

theorem slant_lt {polys : List (Polygon ℝ × PolygonMode)} {p q : Pt ℝ} (hp : p ∈ allCorners polys) (hq : q ∈ allCorners polys) (h : LeftOf p q) :
    shearX (slant polys) p < shearX (slant polys) q := (Classical.choose_spec (exists_shear_real (allCorners polys))).2 p hp q hq h

/-- The segment number `k`. -/
noncomputable def nth (polys : List (Polygon ℝ × PolygonMode)) (k : ℕ) : ℕ × (Pt ℝ × Pt ℝ) := (listed 0 polys).getD k (0, (⟨0, 0⟩, ⟨0, 0⟩))

theorem nth_get {polys : List (Polygon ℝ × PolygonMode)} {k : ℕ} (h : k < (listed 0 polys).length) : (listed 0 polys)[k]? = some (nth polys k) := by
  unfold nth
  rw [List.getD_eq_getElem?_getD, List.getElem?_eq_getElem h]; rfl

theorem nth_mem {polys : List (Polygon ℝ × PolygonMode)} {k : ℕ} (h : k < (listed 0 polys).length) : nth polys k ∈ listed 0 polys :=
  List.mem_of_getElem? (nth_get h)

/-- The plan of some polygons. -/
noncomputable def ofPolys (polys : List (Polygon ℝ × PolygonMode)) (hP : Planar polys) : Plan where
  S := Finset.range (listed 0 polys).length
  lp k := (toRight (nth polys k).2).1
  rp k := (toRight (nth polys k).2).2
  poly k := (nth polys k).1
  n := polys.length
  rem m := ∃ p, polys[m]? = some p ∧ p.2 = .removeEdges
  eps := slant polys
  wf k hk := toRight_left (listed_drawn (nth_mem (Finset.mem_range.1 hk))).1
  sep := hP.separate.mono (by
    rintro q ⟨k, hk, rfl | rfl⟩
    · exact (drawn_corner (drawn_toRight (nth_mem (Finset.mem_range.1 hk)))).1
    · exact (drawn_corner (drawn_toRight (nth_mem (Finset.mem_range.1 hk)))).2) (by
    rintro e ⟨k, hk, rfl⟩
    exact drawn_toRight (nth_mem (Finset.mem_range.1 hk)))
  poly_lt k hk := listed_lt (nth_mem (Finset.mem_range.1 hk))
  eps_lt i hi j hj p q hp hq hpq := by
    have h1 := drawn_corner (drawn_toRight (nth_mem (Finset.mem_range.1 hi)))
    have h2 := drawn_corner (drawn_toRight (nth_mem (Finset.mem_range.1 hj)))
    refine slant_lt ?_ ?_ hpq
    · rcases hp with rfl | rfl
      · exact h1.1
      · exact h1.2
    · rcases hq with rfl | rfl
      · exact h2.1
      · exact h2.2
  apart i hi j hj hij := by
    have hi := Finset.mem_range.1 hi
    have hj := Finset.mem_range.1 hj
    set e := (nth polys i).2 with he
    set e' := (nth polys j).2 with he'
    by_cases hs : toRight e = toRight e'
    · left
      refine ⟨by rw [hs], by rw [hs], ?_⟩
      intro hp
      have key : ∀ {i j : ℕ}, i < (listed 0 polys).length → j < (listed 0 polys).length → i < j → (nth polys i).1 = (nth polys j).1 →
          toRight (nth polys i).2 = toRight (nth polys j).2 → False := by
        intro i j hi hj hij hp hs
        have := List.pairwise_iff_getElem.1 (listed_once hP.once (i := 0)) i j hi hj hij
        have e1 := (List.getElem?_eq_some_iff.1 (nth_get hi)).2
        have e2 := (List.getElem?_eq_some_iff.1 (nth_get hj)).2
        rw [e1, e2] at this
        obtain ⟨h1, h2⟩ := this hp
        rcases toRight_or (nth polys i).2 with k1 | k1 <;> rcases toRight_or (nth polys j).2 with k2 | k2 <;> rw [k1, k2] at hs
        · exact h1 hs.symm
        · exact h2 (by rw [hs, Prod.swap_swap])
        · exact h2 hs.symm
        · exact h1 (Prod.swap_injective hs).symm
      rcases lt_or_gt_of_ne hij with h | h
      · exact key hi hj h hp hs
      · exact key hj hi h hp.symm hs.symm
    · right
      refine hP.apart (toRight e) (toRight e') (drawn_toRight (nth_mem hi)) (drawn_toRight (nth_mem hj)) (fun h => hs h.symm) ?_
      intro h
      have l1 := toRight_left (listed_drawn (nth_mem hi)).1
      have l2 := toRight_left (listed_drawn (nth_mem hj)).1
      rw [← he'] at l2
      rw [h] at l2
      simp only [Prod.fst_swap, Prod.snd_swap] at l2
      rcases l1 with k1 | k1 <;> rcases l2 with k2 | k2 <;> linarith [k1, k2]
  angles i hi j hj := hP.angles _ _ (drawn_toRight (nth_mem (Finset.mem_range.1 hi))) (drawn_toRight (nth_mem (Finset.mem_range.1 hj)))
  distances i hi j hj := hP.distances _ _ (drawn_toRight (nth_mem (Finset.mem_range.1 hi))) (drawn_toRight (nth_mem (Finset.mem_range.1 hj)))
  even m W := by
    have := sum_range_listed (fun e => W e.1 + W e.2) (fun p => two_eq _) (fun e => add_comm _ _) polys (0, (⟨0, 0⟩, ⟨0, 0⟩)) m
    refine Eq.trans this ?_
    cases polys[m]? with
    | none => rfl
    | some p => exact edges_even W p.1

/-! ### Loading -/

variable {G : Plan}

/-- The first `m` segments are in the arena and in the queue. -/
structure Loaded (G : Plan) (Heap : (EndId → EndId → Res Ordering) → List EndId → Prop) (m : Nat) (st : SweepState ℝ) : Prop where
  le : ∀ i < m, i ∈ G.S
  length : st.arena.length = m
  seg : ∀ i < m, ∃ s mode, st.arena[i]? = some s ∧ G.Is i s ∧ (mode = PolygonMode.removeEdges ↔ G.rem (G.poly i)) ∧ s.data = SegmentPacket.new (G.poly i) mode G.n
  queue_mem : ∀ x : EndId, x ∈ st.queue ↔ x.1 < m
  queue_nodup : st.queue.Nodup
  queue_length : st.queue.length = 2 * m
  heap : Heap st.arena.endCmp st.queue
  active : st.active = []
  swept : st.swept = []

theorem endCmp_key' {arena : Arena ℝ} {x y : EndId} (hx : x.1 ∈ G.S) (hy : y.1 ∈ G.S) (hsx : ∃ s, arena[x.1]? = some s ∧ G.Is x.1 s)
    (hsy : ∃ s, arena[y.1]? = some s ∧ G.Is y.1 s) : arena.endCmp x y = .ok (compare (G.key x) (G.key y)) := by
  obtain ⟨s, hs, is⟩ := hsx
  obtain ⟨s', hs', is'⟩ := hsy
  unfold Arena.endCmp index
  rw [hs, hs']
  simp only [Res.bind_ok]
  rw [endpointCmp_eq (a := (s, x.2)) (b := (s', y.2)) (is.wf hx) (is'.wf hy), endKey_is is, endKey_is is']

theorem loaded_nil {lib : Lib} {Heap} (hh : HeapOk lib Heap) : Loaded G Heap 0 ⟨[], [], [], []⟩ :=
  ⟨fun i hi => absurd hi (Nat.not_lt_zero i), rfl, fun i hi => absurd hi (Nat.not_lt_zero i), fun x => by simp, List.nodup_nil, rfl, hh.nil _, rfl, rfl⟩

/-- One more segment. -/
theorem Loaded.push {lib : Lib} {Heap} (hh : HeapOk lib Heap) {m : Nat} {st : SweepState ℝ} (h : Loaded G Heap m st) {s : BoolSegment ℝ} {mode : PolygonMode}
    (hm : m ∈ G.S) (is : G.Is m s) (hmode : mode = .removeEdges ↔ G.rem (G.poly m)) (hdat : s.data = SegmentPacket.new (G.poly m) mode G.n) :
    ∃ q q', lib.heapPush (Arena.endCmp (st.arena ++ [s])) (m, .left) st.queue = .ok q ∧
      lib.heapPush (Arena.endCmp (st.arena ++ [s])) (m, .right) q = .ok q' ∧
      Loaded G Heap (m + 1) { st with arena := st.arena ++ [s], queue := q' } := by
  have hlen := h.length
  have hle : ∀ i < m + 1, i ∈ G.S := by
    intro i hi
    by_cases him : i = m
    · subst him; exact hm
    · exact h.le i (by omega)
  have hold : ∀ i < m, (st.arena ++ [s])[i]? = st.arena[i]? := fun i hi => List.getElem?_append_left (by omega)
  have hnew : (st.arena ++ [s])[m]? = some s := by
    rw [List.getElem?_append_right (by omega), hlen, Nat.sub_self]; rfl
  have hsg : ∀ i < m + 1, ∃ s', (st.arena ++ [s])[i]? = some s' ∧ G.Is i s' := by
    intro i hi
    by_cases him : i = m
    · subst him; exact ⟨s, hnew, is⟩
    · obtain ⟨s', mode', e, is', _⟩ := h.seg i (by omega)
      exact ⟨s', by rw [hold i (by omega), e], is'⟩
  have hcmp : ∀ x y : EndId, x.1 < m + 1 → y.1 < m + 1 → Arena.endCmp (st.arena ++ [s]) x y = .ok (compare (G.key x) (G.key y)) :=
    fun x y hx hy => endCmp_key' (hle _ hx) (hle _ hy) (hsg _ hx) (hsg _ hy)
  have hcmp0 : ∀ x y : EndId, x.1 < m → y.1 < m → Arena.endCmp st.arena x y = .ok (compare (G.key x) (G.key y)) := by
    intro x y hx hy
    obtain ⟨s1, _, e1, is1, _⟩ := h.seg _ hx
    obtain ⟨s2, _, e2, is2, _⟩ := h.seg _ hy
    exact endCmp_key' (h.le _ hx) (h.le _ hy) ⟨s1, e1, is1⟩ ⟨s2, e2, is2⟩
  have htot : ∀ l : List EndId, (∀ x ∈ l, x.1 < m + 1) → TotalPreorderOn (· ∈ l) (Arena.endCmp (st.arena ++ [s])) :=
    fun l hl => total_of_key G.key fun x y hx hy => hcmp x y (hl x hx) (hl y hy)
  have h0 : Heap (Arena.endCmp (st.arena ++ [s])) st.queue := by
    refine hh.congr _ _ _ (fun a ha b hb => ?_) h.heap
    have ha := (h.queue_mem a).1 ha
    have hb := (h.queue_mem b).1 hb
    rw [hcmp a b (by omega) (by omega), hcmp0 a b ha hb]
  obtain ⟨q, e1, p1, h1⟩ := hh.push _ (m, .left) st.queue (htot _ (by
    intro x hx
    rcases List.mem_cons.1 hx with rfl | hx
    · exact Nat.lt_succ_self m
    · have := (h.queue_mem x).1 hx; omega)) h0
  have hq : ∀ x ∈ q, x.1 < m + 1 := by
    intro x hx
    rcases List.mem_cons.1 (p1.mem_iff.1 hx) with rfl | hx
    · exact Nat.lt_succ_self m
    · have := (h.queue_mem x).1 hx; omega
  obtain ⟨q', e2, p2, h2⟩ := hh.push _ (m, .right) q (htot _ (by
    intro x hx
    rcases List.mem_cons.1 hx with rfl | hx
    · exact Nat.lt_succ_self m
    · exact hq x hx)) h1
  have p : q'.Perm ((m, .right) :: (m, .left) :: st.queue) := p2.trans (p1.cons _)
  refine ⟨q, q', e1, e2, ?_⟩
  refine ⟨hle, by simp [hlen], ?_, ?_, ?_, ?_, h2, h.active, h.swept⟩
  · intro i hi
    by_cases him : i = m
    · subst him; exact ⟨s, mode, hnew, is, hmode, hdat⟩
    · obtain ⟨s', mode', e, r⟩ := h.seg i (by omega)
      exact ⟨s', mode', by rw [← e]; exact hold i (by omega), r⟩
  · intro x
    show x ∈ q' ↔ _
    rw [p.mem_iff, List.mem_cons, List.mem_cons, h.queue_mem]
    obtain ⟨i, e⟩ := x
    cases e <;> simp <;> omega
  · show q'.Nodup
    rw [p.nodup_iff, List.nodup_cons, List.nodup_cons, List.mem_cons, h.queue_mem, h.queue_mem]
    exact ⟨by simp, by simp, h.queue_nodup⟩
  · show q'.length = _
    rw [p.length_eq, List.length_cons, List.length_cons, h.queue_length]
    omega


/-- A loaded state is where the sweep starts. -/
theorem Loaded.inv {Heap} {m : ℕ} {st : SweepState ℝ} (h : Loaded G Heap m st) (hS : G.S = Finset.range m) : Inv G Heap st := by
  have hlt : ∀ i ∈ G.S, i < m := fun i hi => by rw [hS] at hi; exact Finset.mem_range.1 hi
  have hq : ∀ x : EndId, x.1 ∈ G.S → x ∈ st.queue := fun x hx => (h.queue_mem x).2 (hlt _ hx)
  have hdat : ∀ i ∈ G.S, ∃ mode, (mode = PolygonMode.removeEdges ↔ G.rem (G.poly i)) ∧ dat st.arena i = SegmentPacket.new (G.poly i) mode G.n := by
    intro i hi
    obtain ⟨s, mode, e, _, hm, hd⟩ := h.seg i (hlt i hi)
    exact ⟨mode, hm, by rw [dat_of e, hd]⟩
  refine ⟨⟨fun i hi => ?_⟩, h.heap, fun x hx => h.le _ ((h.queue_mem x).1 hx), h.queue_nodup, fun x hx hn => absurd (hq x hx) hn, fun i => ?_, ?_, fun i => ?_, ?_, ?_, ?_, ?_, ?_, ?_⟩
  · obtain ⟨s, _, e, is, _⟩ := h.seg i (hlt i hi)
    exact ⟨s, e, is⟩
  · rw [h.active]
    constructor
    · intro hi; cases hi
    · rintro ⟨hi, hn, _⟩
      exact absurd (hq (i, .left) hi) hn
  · rw [h.active]
    exact ⟨0, by simp, List.Pairwise.nil⟩
  · rw [h.swept]
    constructor
    · intro hi; cases hi
    · rintro ⟨hi, hn⟩
      exact absurd (hq (i, .right) hi) hn
  · rw [h.swept]; exact List.nodup_nil
  · intro j hj
    obtain ⟨mode, hm, e⟩ := hdat j hj
    rw [e]
    exact ⟨rfl, hm, rfl, rfl, rfl, rfl⟩
  · intro j hj _
    obtain ⟨mode, hm, e⟩ := hdat j hj
    rw [e]
    exact ⟨by simp [SegmentPacket.new], by simp [SegmentPacket.new], rfl, rfl⟩
  · intro j hj hn
    exact absurd (hq (j, .left) hj) hn
  · intro j hj hn
    exact absurd (hq (j, .left) hj) hn
  · intro j hj hn
    exact absurd (hq (j, .left) hj) hn

section
variable {polys : List (Polygon ℝ × PolygonMode)} {hP : Planar polys}

theorem new_seg {m : Nat} {i : ℕ} {e : Pt ℝ × Pt ℝ} (hm : (listed 0 polys)[m]? = some (i, e)) (data : SegmentPacket) :
    ∃ s, SweepSegment.new e.1 e.2 m i data = .ok s ∧ (ofPolys polys hP).Is m s ∧ s.data = data ∧ (ofPolys polys hP).poly m = i ∧ m ∈ (ofPolys polys hP).S := by
  have hlt := (List.getElem?_eq_some_iff.1 hm).1
  have hn : nth polys m = (i, e) := by rw [nth_get hlt] at hm; exact Option.some.inj hm
  have hne : ¬ e.1.beq e.2 = true := by
    rw [beq_iff]
    have := (listed_drawn (List.mem_of_getElem? hm)).1
    exact this
  have hpoly : (ofPolys polys hP).poly m = i := by show (nth polys m).1 = i; rw [hn]
  unfold SweepSegment.new
  rw [if_neg hne]
  by_cases hl : LeftOf e.1 e.2
  · rw [if_pos (by simpa [LeftOf, FloatOps.lt, FloatOps.eq] using hl)]
    have ht : toRight e = e := by unfold toRight; rw [if_pos hl]
    refine ⟨_, rfl, ⟨?_, ?_, rfl, hpoly.symm⟩, rfl, hpoly, Finset.mem_range.2 hlt⟩
    · show e.1 = (toRight (nth polys m).2).1
      rw [hn, ht]
    · show e.2 = (toRight (nth polys m).2).2
      rw [hn, ht]
  · rw [if_neg (by simpa [LeftOf, FloatOps.lt, FloatOps.eq] using hl)]
    have ht : toRight e = e.swap := by unfold toRight; rw [if_neg hl]
    refine ⟨_, rfl, ⟨?_, ?_, rfl, hpoly.symm⟩, rfl, hpoly, Finset.mem_range.2 hlt⟩
    · show e.2 = (toRight (nth polys m).2).1
      rw [hn, ht]; rfl
    · show e.1 = (toRight (nth polys m).2).2
      rw [hn, ht]; rfl

open Classical in
theorem addSegments_plan {lib : Lib} {Heap} (hh : HeapOk lib Heap) {i : Nat} {mode : PolygonMode} (hmode : mode = .removeEdges ↔ (ofPolys polys hP).rem i) :
    ∀ (segs : List (Pt ℝ × Pt ℝ)) (L₁ L₂ : List (ℕ × (Pt ℝ × Pt ℝ))) (st : SweepState ℝ), Loaded (ofPolys polys hP) Heap L₁.length st →
      listed 0 polys = L₁ ++ ((segs.filter fun e => e.1 ≠ e.2).map fun e => (i, e)) ++ L₂ →
      ∃ st', addSegments lib polys.length i mode segs st = .ok st' ∧
        Loaded (ofPolys polys hP) Heap (L₁ ++ ((segs.filter fun e => e.1 ≠ e.2).map fun e => (i, e))).length st'
  | [], L₁, L₂, st, h, _ => ⟨st, rfl, by simpa using h⟩
  | (p0, p1) :: segs, L₁, L₂, st, h, hl => by
    by_cases hne : p0 = p1
    · rw [List.filter_cons_of_neg (by simpa using hne)] at hl ⊢
      obtain ⟨st', e, h'⟩ := addSegments_plan hh hmode segs L₁ L₂ st h hl
      refine ⟨st', ?_, h'⟩
      rw [addSegments, if_pos (by rw [beq_iff]; exact hne)]
      exact e
    · rw [List.filter_cons_of_pos (by simpa using hne), List.map_cons] at hl ⊢
      have hl' : listed 0 polys = (L₁ ++ [(i, (p0, p1))]) ++ ((segs.filter fun e => e.1 ≠ e.2).map fun e => (i, e)) ++ L₂ := by rw [hl]; simp
      have hget : (listed 0 polys)[L₁.length]? = some (i, (p0, p1)) := by
        rw [hl, List.append_assoc, List.getElem?_append_right (le_refl _), Nat.sub_self]; rfl
      obtain ⟨s, es, is, hd, hp, hmS⟩ := new_seg (hP := hP) hget (SegmentPacket.new i mode polys.length)
      obtain ⟨q, q', e1, e2, h'⟩ := h.push hh (mode := mode) hmS is (by rw [hp]; exact hmode) (by rw [hd, hp]; rfl)
      obtain ⟨st', e3, h3⟩ := addSegments_plan hh hmode segs (L₁ ++ [(i, (p0, p1))]) L₂ _ (by rw [List.length_append]; exact h') hl'
      refine ⟨st', ?_, ?_⟩
      · rw [addSegments, if_neg (by rw [beq_iff]; exact hne)]
        dsimp only
        rw [h.length]
        rw [es]
        simp only [Res.bind_ok]
        rw [e1]
        simp only [Res.bind_ok]
        rw [e2]
        simp only [Res.bind_ok]
        exact e3
      · simpa using h3

open Classical in
theorem addContours_plan {lib : Lib} {Heap} (hh : HeapOk lib Heap) {i : Nat} {mode : PolygonMode} (hmode : mode = .removeEdges ↔ (ofPolys polys hP).rem i) :
    ∀ (cs : List (Contour ℝ)) (L₁ L₂ : List (ℕ × (Pt ℝ × Pt ℝ))) (st : SweepState ℝ), Loaded (ofPolys polys hP) Heap L₁.length st →
      listed 0 polys = L₁ ++ (((cs.flatMap fun c => closedEdges c.points).filter fun e => e.1 ≠ e.2).map fun e => (i, e)) ++ L₂ →
      ∃ st', addContours lib polys.length i mode cs st = .ok st' ∧
        Loaded (ofPolys polys hP) Heap (L₁ ++ (((cs.flatMap fun c => closedEdges c.points).filter fun e => e.1 ≠ e.2).map fun e => (i, e))).length st'
  | [], L₁, L₂, st, h, _ => ⟨st, rfl, by simpa using h⟩
  | c :: cs, L₁, L₂, st, h, hl => by
    rw [List.flatMap_cons, List.filter_append, List.map_append] at hl ⊢
    obtain ⟨st1, e1, h1⟩ := addSegments_plan hh hmode (closedEdges c.points) L₁ _ st h (by rw [hl, ← List.append_assoc, List.append_assoc])
    obtain ⟨st2, e2, h2⟩ := addContours_plan hh hmode cs _ L₂ st1 h1 (by rw [hl, ← List.append_assoc])
    refine ⟨st2, ?_, by rw [← List.append_assoc]; exact h2⟩
    rw [addContours, Rings.segments_closed]
    simp only [Res.bind_ok]
    rw [e1]
    simp only [Res.bind_ok]
    exact e2

theorem addPolygons_plan {lib : Lib} {Heap} (hh : HeapOk lib Heap) :
    ∀ (rest : List (Polygon ℝ × PolygonMode)) (i : Nat) (L₁ : List (ℕ × (Pt ℝ × Pt ℝ))) (st : SweepState ℝ), (∀ k : ℕ, rest[k]? = polys[i + k]?) →
      listed 0 polys = L₁ ++ listed i rest → Loaded (ofPolys polys hP) Heap L₁.length st →
      ∃ st', addPolygons lib polys.length i rest st = .ok st' ∧ Loaded (ofPolys polys hP) Heap (listed 0 polys).length st'
  | [], i, L₁, st, _, e, h => ⟨st, rfl, by rw [e, listed, List.append_nil]; exact h⟩
  | (p, mode) :: rest, i, L₁, st, hm, e, h => by
    classical
    rw [listed, ← List.append_assoc] at e
    have hmode : mode = .removeEdges ↔ (ofPolys polys hP).rem i := by
      have h0 := (hm 0).symm
      rw [List.getElem?_cons_zero, Nat.add_zero] at h0
      constructor
      · intro e
        exact ⟨_, h0, e⟩
      · rintro ⟨p', h1, h2⟩
        rw [h0] at h1
        cases h1
        exact h2
    obtain ⟨st1, e1, h1⟩ := addContours_plan hh (i := i) (mode := mode) hmode p.contours L₁ (listed (i + 1) rest) st h e
    obtain ⟨st2, e2, h2⟩ := addPolygons_plan hh rest (i + 1) _ st1 (fun k => by rw [Nat.add_right_comm, Nat.add_assoc, ← hm (k + 1)]; rfl) e h1
    refine ⟨st2, ?_, h2⟩
    rw [addPolygons, e1]
    simp only [Res.bind_ok]
    exact e2

end

/-- `compute` finds the walks of the plan, or panics. -/
theorem compute_plan {lib : Lib} (hl : lib.Lawful) {polys : List (Polygon ℝ × PolygonMode)} (hP : Planar polys) (hC : (ofPolys polys hP).Clear)
    (hB : (ofPolys polys hP).Blind (Wanted (polys.map fun p => p.2))) (op : BooleanOpType) : ∃ A : Arena ℝ,
      (∀ i ∈ (ofPolys polys hP).S, (ofPolys polys hP).Good (dat A i) i) ∧
      ((∃ (ls : List EndId) (cs : List (Contour ℝ)), PlanResult (ofPolys polys hP) A (polys.map fun p => p.2) ls cs ∧
          ∀ fuel, 2 * (allCorners polys).length < fuel → compute lib fuel polys op = .ok ⟨cs⟩) ∨
        ∃ ls : List EndId, Leaders (ofPolys polys hP) A (polys.map fun p => p.2) ls ∧ (∃ x ∈ ls, ¬ Safe (ofPolys polys hP) A x) ∧
          ∀ fuel, 2 * (allCorners polys).length < fuel → compute lib fuel polys op = .panic .unwrap) := by
  obtain ⟨Heap, hh⟩ := hl.heapOk
  obtain ⟨st, e1, h1⟩ := addPolygons_plan (hP := hP) hh polys 0 [] ⟨[], [], [], []⟩ (fun k => by rw [Nat.zero_add]) rfl (loaded_nil hh)
  have hinv := h1.inv rfl
  obtain ⟨st', hinv', hq, _, hsw⟩ := sweep_plan hl hh polys.length _ hinv rfl
  refine ⟨st'.arena, fun i hi => hinv'.good i hi (by rw [hq]; simp), ?_⟩
  have hN : (listed 0 polys).length ≤ (allCorners polys).length := by
    have key : ∀ (i : ℕ) (polys : List (Polygon ℝ × PolygonMode)), (listed i polys).length ≤ (allCorners polys).length := by
      intro i polys
      induction polys generalizing i with
      | nil => simp [listed]
      | cons p rest ih =>
        classical
        rw [listed, List.length_append, List.length_map]
        unfold allCorners at ih ⊢
        rw [List.flatMap_cons, List.length_append]
        refine Nat.add_le_add ((List.length_filter_le _ _).trans ?_) (ih (i + 1))
        unfold Polygon.edges
        rw [List.length_flatMap, List.length_flatMap]
        simp only [Rings.closedEdges_length]
        exact le_refl _
    exact key 0 polys
  have hcard : (ofPolys polys hP).S.card = (listed 0 polys).length := Finset.card_range _
  have hgo : ∀ fuel, 2 * (allCorners polys).length < fuel → compute lib fuel polys op = finish lib fuel (polys.map fun p => p.2) st' := by
    intro fuel hfuel
    rw [compute_finish, e1]
    simp only [Res.bind_ok]
    rw [hsw fuel (by rw [h1.queue_length]; omega)]
    rfl
  rcases finish_plan hl hinv' hq (modes := polys.map fun p => p.2) (by rw [List.length_map]; rfl) hC hB with ⟨ls, cs, hr, hf⟩ | ⟨ls, hr, hx, hf⟩
  · exact Or.inl ⟨ls, cs, hr, fun fuel hfuel => by rw [hgo fuel hfuel]; exact hf fuel (by omega)⟩
  · exact Or.inr ⟨ls, hr, hx, fun fuel hfuel => by rw [hgo fuel hfuel]; exact hf fuel (by omega)⟩

end Plan

end Idc
