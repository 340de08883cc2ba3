import Verif.Props.SuiteFlood
import Verif.Props.RoomFound
import Verif.Props.SuiteCompute

/-!
# C94: two rooms side by side
-/

namespace Idc

variable {m : FullMap ℝ} {x y W V H : ℤ}

/-- The tags of two sectors together. -/
def bothTags (a b : UInt32) : List UInt32 := ((if b ≠ 0 then hashInsert b (if a ≠ 0 then [a] else []) else (if a ≠ 0 then [a] else [])).filter fun t => t ≠ 13)

theorem tagSet_eq (a : UInt32) : ((if a ≠ 0 then [a] else []).filter fun t => t ≠ 13) = tagSet a := by
  unfold tagSet
  by_cases h0 : a = 0 <;> by_cases h1 : a = 13 <;> simp [h0, h1]

theorem mem_bothTags (a b t : UInt32) : t ∈ bothTags a b ↔ t ∈ tagSet a ∨ t ∈ tagSet b := by
  rw [← tagSet_eq a, ← tagSet_eq b]
  unfold bothTags hashInsert
  simp only [List.mem_filter]
  by_cases ha : a = 0 <;> by_cases hb : b = 0 <;> by_cases hab : b = a <;> simp [ha, hb, hab] <;> grind

/-- What is looked up in a map of two rooms. -/
structure Looks (m : FullMap ℝ) (a b : Sector) (l : Line) : Prop where
  sectors : m.sectors = [a, b]
  refs : ∃ r2 r3 r4 r5 r6 r7, routeRefs m = [.sector 0, .sector 1, r2, r3, r4, r5, r6, r7, .line l]
  sides : ∃ h h' sd sd', l.front = some h ∧ m.sides[h]? = some sd ∧ sd.sector = 0 ∧ l.back = some h' ∧ m.sides[h']? = some sd' ∧ sd'.sector = 1

theorem IsSuite.looks (h : IsSuite m x y W V H) {a b : Sector} {l : Line} (ha : m.sectors[0]? = some a) (hb : m.sectors[1]? = some b) (hl : m.lines[6]? = some l) : Looks m a b l := by
  obtain ⟨l₀, l₁, l₂, l₃, l₄, l₅, l₆, e, _⟩ := h.split
  have hl' := hl
  rw [e] at hl'
  cases hl'
  refine ⟨?_, ?_, h.opening _ hl⟩
  · have := h.sectors
    match hm : m.sectors, this with
    | [a', b'], _ => rw [hm] at ha hb; cases ha; cases hb; rfl
  · unfold routeRefs
    rw [h.sectors, e]
    exact ⟨_, _, _, _, _, _, rfl⟩

variable {a b : Sector} {l : Line}

theorem Looks.tags (h : Looks m a b l) : Res.mapList (contourTags m (routeRefs m)) (suiteAreas x y W V H) = .ok [tagSet a.tag, bothTags a.tag b.tag, tagSet b.tag] := by
  obtain ⟨hs, ⟨r2, r3, r4, r5, r6, r7, hr⟩, ⟨h1, h2, sd, sd', f, g, k, f', g', k'⟩⟩ := h
  rw [← tagSet_eq a.tag, ← tagSet_eq b.tag]
  unfold bothTags
  simp only [suiteAreas, Res.mapList, contourTags, collectTags, hr, index, List.getElem?_cons_zero, List.getElem?_cons_succ, Bool.not_true, Bool.not_false, Bool.false_eq_true, if_false, if_true,
    Res.bind_ok, Res.pure_eq, insertRefTags, insertTag, FullMap.sector, hs, insertSideTag, FullMap.side, f, f', g, g', k, k']
  by_cases ha : a.tag = 0 <;> by_cases hb : b.tag = 0 <;> by_cases hab : b.tag = a.tag <;> simp [ha, hb, hab, hashInsert]

/-- The higher one of two floors. -/
def upper (a b : Sector) : Int32 := if a.floor_height.toInt ≤ b.floor_height.toInt then b.floor_height else a.floor_height

theorem Looks.floors (h : Looks m a b l) : highestFloor m [0] = .ok a.floor_height ∧ highestFloor m [1] = .ok b.floor_height ∧ highestFloor m [0, 1] = .ok (upper a b) := by
  simp [highestFloor, Res.mapList, FullMap.sector, index, h.sectors, Res.map, maxFloor, unwrap, upper]

theorem Looks.which (h : Looks m a b l) : collectSectors m (routeRefs m) 0 [true, false, false, false, false, false, false, false, false] [] = .ok [0] ∧
    collectSectors m (routeRefs m) 0 [true, true, false, false, false, false, false, false, true] [] = .ok [0, 1] ∧
    collectSectors m (routeRefs m) 0 [false, true, false, false, false, false, false, false, false] [] = .ok [1] := by
  obtain ⟨hs, ⟨r2, r3, r4, r5, r6, r7, hr⟩, ⟨h1, h2, sd, sd', f, g, k, f', g', k'⟩⟩ := h
  simp [collectSectors, hr, index, insertRef, hashInsert, insertSide, f, f', FullMap.side, g, g', k, k']

theorem Looks.free (h : Looks m a b l) : collectFree m (routeRefs m) 0 [true, false, false, false, false, false, false, false, false] [] = .ok (true, [0]) ∧
    collectFree m (routeRefs m) 0 [true, true, false, false, false, false, false, false, true] [] = .ok (!l.blocksPlayer, [0, 1]) ∧
    collectFree m (routeRefs m) 0 [false, true, false, false, false, false, false, false, false] [] = .ok (true, [1]) := by
  obtain ⟨hs, ⟨r2, r3, r4, r5, r6, r7, hr⟩, ⟨h1, h2, sd, sd', f, g, k, f', g', k'⟩⟩ := h
  cases hb : l.blocksPlayer <;> simp [collectFree, hr, index, insertRef, hashInsert, insertSide, f, f', FullMap.side, g, g', k, k', PolygonRef.blocks, hb]

theorem visit_arrive {ctx : RouteCtx ℝ} {i n : ℕ} {hi h : Int32} {st : FloodState} {t t' : List UInt32} {c : Contour ℝ} {free : Bool} {ss : List ℕ} (h1 : index ctx.tags i = .ok t)
    (h2 : index ctx.tags n = .ok t') (h3 : index ctx.contours n = .ok c) (h4 : collectFree ctx.map ctx.refs 0 c.from_polygons [] = .ok (free, ss)) (h5 : highestFloor ctx.map ss = .ok h) {P : Bool}
    (hP : (hashEq t t' && free && !decide (24 < h.toInt - hi.toInt) && !decide (24 < hi.toInt - h.toInt)) = P) : visitNeighbor ctx i hi st (n, true) = .ok (arrive P n st) := by
  subst hP
  unfold visitNeighbor arrive
  by_cases hs : st.seen.contains n = true
  · simp only [hs, Bool.not_true, Bool.false_or, if_true]
  · simp only [hs, Bool.not_true, Bool.false_or, Bool.false_eq_true, if_false, h1, h2, h3, h4, h5, Res.bind_ok, Res.pure_eq]
    split <;> rfl

theorem visit_skip {ctx : RouteCtx ℝ} {i n : ℕ} {hi : Int32} {st : FloodState} : visitNeighbor ctx i hi st (n, false) = .ok st := by
  simp [visitNeighbor]

theorem canClimb_left (a b : Sector) : (hashEq (tagSet a.tag) (bothTags a.tag b.tag) && !decide (24 < (upper a b).toInt - a.floor_height.toInt) &&
    !decide (24 < a.floor_height.toInt - (upper a b).toInt)) = decide (CanClimb a b) := by
  rw [Bool.eq_iff_iff, decide_eq_true_iff]
  unfold CanClimb upper
  simp only [Bool.and_eq_true, hashEq_iff, mem_bothTags, Bool.not_eq_true', decide_eq_false_iff_not]
  constructor
  · rintro ⟨⟨h1, h2⟩, h3⟩
    refine ⟨?_, fun t ht => (h1 t).2 (.inr ht)⟩
    split at h2 <;> omega
  · rintro ⟨h1, h2⟩
    refine ⟨⟨fun t => ⟨.inl, fun h => h.elim id (h2 t)⟩, ?_⟩, ?_⟩ <;> split <;> omega

theorem canClimb_right (a b : Sector) : (hashEq (tagSet b.tag) (bothTags a.tag b.tag) && !decide (24 < (upper a b).toInt - b.floor_height.toInt) &&
    !decide (24 < b.floor_height.toInt - (upper a b).toInt)) = decide (CanClimb b a) := by
  rw [Bool.eq_iff_iff, decide_eq_true_iff]
  unfold CanClimb upper
  simp only [Bool.and_eq_true, hashEq_iff, mem_bothTags, Bool.not_eq_true', decide_eq_false_iff_not]
  constructor
  · rintro ⟨⟨h1, h2⟩, h3⟩
    refine ⟨?_, fun t ht => (h1 t).2 (.inl ht)⟩
    split at h2 <;> omega
  · rintro ⟨h1, h2⟩
    refine ⟨⟨fun t => ⟨.inr, fun h => h.elim (h2 t) id⟩, ?_⟩, ?_⟩ <;> split <;> omega

theorem hashEq_comm {α : Type} [DecidableEq α] (s t : List α) : hashEq s t = hashEq t s := by
  unfold hashEq
  exact Bool.and_comm _ _

theorem Looks.row (h : Looks m a b l) : Row ⟨m, routeRefs m, suiteAreas x y W V H, [tagSet a.tag, bothTags a.tag b.tag, tagSet b.tag]⟩ (decide (l.blocksPlayer = false ∧ CanClimb a b)) (decide (CanClimb a b))
    (decide (CanClimb b a)) (decide (l.blocksPlayer = false ∧ CanClimb b a)) := by
  have hfl := h.floors
  have hw := h.which
  have hfr := h.free
  have e1 := canClimb_left a b
  have e2 := canClimb_right a b
  constructor
  · intro d st hd
    have i1 : index st.distance 0 = .ok (st.distance[0]'(by omega)) := by unfold index; rw [List.getElem?_eq_getElem]
    unfold visitContour
    simp only [i1, Res.bind_ok]
    simp only [suiteAreas, index, List.getElem?_cons_zero, Res.bind_ok, hw, hfl, unionHoles, List.length_cons, List.length_nil, List.range_succ, List.range_zero, List.nil_append,
      List.cons_append, List.zip_cons_cons, List.zip_nil_right, forEach, visit_skip]
    rw [visit_arrive (P := decide (l.blocksPlayer = false ∧ CanClimb a b)) rfl rfl rfl hfr.2.1 hfl.2.2 (by rw [Bool.decide_and, ← e1]; cases l.blocksPlayer <;> simp)]
    rfl
  · intro d st hd
    have i1 : index st.distance 1 = .ok (st.distance[1]'(by omega)) := by unfold index; rw [List.getElem?_eq_getElem]
    unfold visitContour
    simp only [i1, Res.bind_ok]
    simp only [suiteAreas, index, List.getElem?_cons_zero, List.getElem?_cons_succ, Res.bind_ok, hw, hfl, unionHoles, List.length_cons, List.length_nil, List.range_succ, List.range_zero, List.nil_append,
      List.cons_append, List.zip_cons_cons, List.zip_nil_right, forEach, visit_skip]
    rw [visit_arrive (P := decide (CanClimb a b)) rfl rfl rfl hfr.1 hfl.1 (by rw [hashEq_comm, ← e1]; simp only [Bool.and_true]; rw [Bool.and_right_comm])]
    simp only [Res.bind_ok]
    rw [visit_arrive (P := decide (CanClimb b a)) rfl rfl rfl hfr.2.2 hfl.2.1 (by rw [hashEq_comm, ← e2]; simp only [Bool.and_true]; rw [Bool.and_right_comm])]
    rfl
  · intro d st hd
    have i1 : index st.distance 2 = .ok (st.distance[2]'(by omega)) := by unfold index; rw [List.getElem?_eq_getElem]
    unfold visitContour
    simp only [i1, Res.bind_ok]
    simp only [suiteAreas, index, List.getElem?_cons_zero, List.getElem?_cons_succ, Res.bind_ok, hw, hfl, unionHoles, List.length_cons, List.length_nil, List.range_succ, List.range_zero, List.nil_append,
      List.cons_append, List.zip_cons_cons, List.zip_nil_right, forEach, visit_skip]
    rw [visit_arrive (P := decide (l.blocksPlayer = false ∧ CanClimb b a)) rfl rfl rfl hfr.2.1 hfl.2.2 (by rw [Bool.decide_and, ← e2]; cases l.blocksPlayer <;> simp)]
    rfl

theorem six_box {c : Contour ℝ} {u v w z z' : ℝ} (h : c.points = [⟨u, z⟩, ⟨v, z⟩, ⟨w, z⟩, ⟨w, z'⟩, ⟨v, z'⟩, ⟨u, z'⟩]) (h1 : u ≤ v) (h2 : v ≤ w) (h3 : z ≤ z') : c.bbox = ⟨u, z, w - u, z' - z⟩ := by
  unfold Contour.bbox
  rw [h]
  simp [bboxLoop, FloatOps.min, FloatOps.max, FloatOps.sub, h1, h2, h3, h1.trans h2]

theorem box_contains {u z w z' : ℝ} : (⟨u, z, w - u, z' - z⟩ : Rect ℝ).contains m.startPoint = true ↔ m.StartsIn u z w z' := by
  unfold Rect.contains FullMap.StartsIn
  simp [FloatOps.le, FloatOps.lt, FloatOps.eq, FloatOps.add, ← le_iff_lt_or_eq, and_assoc]

/-- The areas the player starts in. -/
theorem suite_starts (hW : 32 < W) (hV : 32 < V) (hH : 32 < H) :
    (m.StartsIn (x + 16) (y + 16) (x + W - 16) (y + H - 16) → startContours m.startPoint (suiteAreas x y W V H) = [0]) ∧
    (m.StartsIn (x + W - 16) (y + 16) (x + W + 16) (y + H - 16) → startContours m.startPoint (suiteAreas x y W V H) = [1]) ∧
    (m.StartsIn (x + W + 16) (y + 16) (x + W + V - 16) (y + H - 16) → startContours m.startPoint (suiteAreas x y W V H) = [2]) ∧
    (¬ m.StartsIn (x + 16) (y + 16) (x + W + V - 16) (y + H - 16) → startContours m.startPoint (suiteAreas x y W V H) = []) := by
  have w1 : (32 : ℝ) < W := by exact_mod_cast hW
  have w2 : (32 : ℝ) < V := by exact_mod_cast hV
  have w3 : (32 : ℝ) < H := by exact_mod_cast hH
  obtain ⟨c0, c1, c2, hc, p0, p1, p2⟩ : ∃ c0 c1 c2 : Contour ℝ, suiteAreas x y W V H = [c0, c1, c2] ∧
      c0.points = [⟨x + 16, y + 16⟩, ⟨x + W - 16, y + 16⟩, ⟨x + W - 16, y + H - 16⟩, ⟨x + 16, y + H - 16⟩] ∧
      c1.points = [⟨x + W - 16, y + 16⟩, ⟨x + W, y + 16⟩, ⟨x + W + 16, y + 16⟩, ⟨x + W + 16, y + H - 16⟩, ⟨x + W, y + H - 16⟩, ⟨x + W - 16, y + H - 16⟩] ∧
      c2.points = [⟨x + W + 16, y + 16⟩, ⟨x + W + V - 16, y + 16⟩, ⟨x + W + V - 16, y + H - 16⟩, ⟨x + W + 16, y + H - 16⟩] := ⟨_, _, _, rfl, rfl, rfl, rfl⟩
  have b0 := box_contains (m := m) (u := x + 16) (z := y + 16) (w := x + W - 16) (z' := y + H - 16)
  have b1 := box_contains (m := m) (u := x + W - 16) (z := y + 16) (w := x + W + 16) (z' := y + H - 16)
  have b2 := box_contains (m := m) (u := x + W + 16) (z := y + 16) (w := x + W + V - 16) (z' := y + H - 16)
  rw [← four_box p0 (by linarith) (by linarith)] at b0
  rw [← six_box p1 (by linarith) (by linarith) (by linarith)] at b1
  rw [← four_box p2 (by linarith) (by linarith)] at b2
  unfold startContours
  rw [hc, show List.range [c0, c1, c2].length = [0, 1, 2] from rfl]
  unfold FullMap.StartsIn at *
  refine ⟨fun h => ?_, fun h => ?_, fun h => ?_, fun h => ?_⟩
  · have n1 : ¬ c1.bbox.contains m.startPoint = true := fun k => by have := b1.1 k; linarith [h.2.1]
    have n2 : ¬ c2.bbox.contains m.startPoint = true := fun k => by have := b2.1 k; linarith [h.2.1]
    simp [b0.2 h, n1, n2]
  · have n0 : ¬ c0.bbox.contains m.startPoint = true := fun k => by have := b0.1 k; linarith [h.1]
    have n2 : ¬ c2.bbox.contains m.startPoint = true := fun k => by have := b2.1 k; linarith [h.2.1]
    simp [b1.2 h, n0, n2]
  · have n0 : ¬ c0.bbox.contains m.startPoint = true := fun k => by have := b0.1 k; linarith [h.1]
    have n1 : ¬ c1.bbox.contains m.startPoint = true := fun k => by have := b1.1 k; linarith [h.1]
    simp [b2.2 h, n0, n1]
  · have n0 : ¬ c0.bbox.contains m.startPoint = true := fun k => h (by obtain ⟨k1, k2, k3, k4⟩ := b0.1 k; exact ⟨k1, by linarith, k3, k4⟩)
    have n1 : ¬ c1.bbox.contains m.startPoint = true := fun k => h (by obtain ⟨k1, k2, k3, k4⟩ := b1.1 k; exact ⟨by linarith, by linarith, k3, k4⟩)
    have n2 : ¬ c2.bbox.contains m.startPoint = true := fun k => h (by obtain ⟨k1, k2, k3, k4⟩ := b2.1 k; exact ⟨by linarith, k2, k3, k4⟩)
    simp [n0, n1, n2]

/-- **C94.** In two rectangular rooms side by side the route finder finds three areas, the left room, the opening and the right room.  Starting in the left room, the player is counted as being able
to walk into the opening if the line there does not block, the right floor is at most 24 units above the left one and the right room has no tag that the left one has not; and from the opening into the
right room if the left floor is at most 24 units above the right one and the left room has no tag that the right one has not.  Starting in the right room it is the same the other way round. -/
theorem C94_suite {lib : Lib} (hl : lib.Lawful) (hs : lib.SearchHonest) (hm : IsSuite m x y W V H) (hW : 32 < W) (hV : 32 < V) (hH : 32 < H)
    (hr : W + V + 32 ≤ 3162 * min 16 (H - 32)) (hr' : H + 32 ≤ 3162 * min 16 (min (W - 32) (V - 32)))
    (ha : m.sectors[0]? = some a) (hb : m.sectors[1]? = some b) (ho : m.lines[6]? = some l) : ∃ N, ∀ fuel, N ≤ fuel →
    (m.StartsIn (x + 16) (y + 16) (x + W - 16) (y + H - 16) → routeMap lib fuel m = .ok (⟨suiteAreas x y W V H⟩,
      if l.blocksPlayer = false ∧ CanClimb a b then (if CanClimb b a then ([1, 1, 1], [[0, 1, 2]]) else ([1, 1, 2], [[0, 1], [2]]))
      else (if CanClimb b a then ([1, 2, 2], [[0], [1, 2]]) else ([1, 2, 3], [[0], [1], [2]])))) ∧
    (m.StartsIn (x + W - 16) (y + 16) (x + W + 16) (y + H - 16) → routeMap lib fuel m = .ok (⟨suiteAreas x y W V H⟩,
      if CanClimb a b then (if CanClimb b a then ([1, 1, 1], [[0, 1, 2]]) else ([1, 1, 2], [[0, 1], [2]]))
      else (if CanClimb b a then ([2, 1, 1], [[1, 2], [0]]) else ([2, 1, 3], [[1], [0], [2]])))) ∧
    (m.StartsIn (x + W + 16) (y + 16) (x + W + V - 16) (y + H - 16) → routeMap lib fuel m = .ok (⟨suiteAreas x y W V H⟩,
      if l.blocksPlayer = false ∧ CanClimb b a then (if CanClimb a b then ([1, 1, 1], [[0, 1, 2]]) else ([2, 1, 1], [[1, 2], [0]]))
      else (if CanClimb a b then ([2, 2, 1], [[2], [0, 1]]) else ([3, 2, 1], [[2], [1], [0]])))) ∧
    (¬ m.StartsIn (x + 16) (y + 16) (x + W + V - 16) (y + H - 16) → routeMap lib fuel m = .ok (⟨suiteAreas x y W V H⟩, [0, 0, 0], [])) := by
  obtain ⟨N, hN⟩ := suite_compute (x := x) (y := y) hl hs hW hV hH hr hr' .union
  refine ⟨N + 10, fun fuel hf => ?_⟩
  obtain ⟨k, rfl⟩ : ∃ k, fuel = k + 10 := ⟨fuel - 10, by omega⟩
  have L := hm.looks ha hb ho
  have R : Row ⟨m, routeRefs m, suiteAreas x y W V H, [tagSet a.tag, bothTags a.tag b.tag, tagSet b.tag]⟩ _ _ _ _ := L.row
  have hst : (m.findPlayerStart).getD ⟨FloatOps.ofInt 0, FloatOps.ofInt 0⟩ = m.startPoint := by
    unfold FullMap.startPoint
    congr 1
    simp [FloatOps.ofInt]
  have go : ∀ {seeds : List ℕ} {st : FloodState} {chunks : List (List ℕ)}, startContours m.startPoint (suiteAreas x y W V H) = seeds → seeds.length ≤ 1 →
      floodLoop ⟨m, routeRefs m, suiteAreas x y W V H, [tagSet a.tag, bothTags a.tag b.tag, tagSet b.tag]⟩ (k + 10) (k + 10) 1 ⟨seeds, [], [], [], [0, 0, 0]⟩ [] = .ok (st, chunks) →
      routeMap lib (k + 10) m = .ok (⟨suiteAreas x y W V H⟩, st.distance, chunks) := by
    intro seeds st chunks h1 h2 h3
    unfold routeMap floodContours
    rw [hm.polygons (by omega) (by omega) (by omega) (by omega), Res.bind_ok, hN _ (by omega), Res.bind_ok]
    simp only [L.tags, Res.bind_ok, hst, h1]
    have : seeds.foldl (fun s i => btreeInsert i s) [] = seeds := by
      match seeds, h2 with
      | [], _ => rfl
      | [_], _ => rfl
    rw [this, show (suiteAreas x y W V H).length = 3 from rfl, show List.replicate 3 (0 : ℤ) = [0, 0, 0] from rfl, h3]
    rfl
  obtain ⟨s0, s1, s2, s3⟩ := suite_starts (m := m) (x := x) (y := y) hW hV hH
  refine ⟨fun h => ?_, fun h => ?_, fun h => ?_, fun h => ?_⟩
  · obtain ⟨st, h1, h2⟩ := R.left k
    rw [go (s0 h) (by simp) h1, h2]
    simp only [decide_eq_true_eq]
    split_ifs <;> rfl
  · obtain ⟨st, h1, h2⟩ := R.middle k
    rw [go (s1 h) (by simp) h1, h2]
    simp only [decide_eq_true_eq]
    split_ifs <;> rfl
  · obtain ⟨st, h1, h2⟩ := R.right k
    rw [go (s2 h) (by simp) h1, h2]
    simp only [decide_eq_true_eq]
    split_ifs <;> rfl
  · exact go (s3 h) (by simp) (Row.nowhere k)

/-- Two rooms, the right one a step of 24 units up, the player in the left one. -/
noncomputable def suiteSample : FullMap ℝ where
  vertices := [⟨-64, 32⟩, ⟨-64, 132⟩, ⟨136, 132⟩, ⟨186, 132⟩, ⟨186, 32⟩, ⟨136, 32⟩]
  lines := [exLine 0 0 1 (some 0) none, exLine 1 1 2 (some 0) none 1, exLine 2 2 3 (some 1) none, exLine 3 3 4 (some 1) none, exLine 4 4 5 (some 1) none, exLine 5 5 0 (some 0) none,
    exLine 6 2 5 (some 0) (some 1)]
  sides := [exSide 0, exSide 1]
  sectors := [⟨0, 0, -8, 128, 160⟩, ⟨13, 0, 16, 128, 160⟩]
  things := [⟨⟨100, 100⟩, 3001⟩, ⟨⟨40, 80⟩, 1⟩]

theorem C94_hypotheses_met : listLib.Lawful ∧ listLib.SearchHonest ∧ IsSuite suiteSample (-64) 32 200 50 100 ∧ suiteSample.StartsIn (((-64 : ℤ) : ℝ) + 16) (((32 : ℤ) : ℝ) + 16)
    (((-64 : ℤ) : ℝ) + ((200 : ℤ) : ℝ) - 16) (((32 : ℤ) : ℝ) + ((100 : ℤ) : ℝ) - 16) ∧ CanClimb ⟨0, 0, -8, 128, 160⟩ ⟨13, 0, 16, 128, 160⟩ ∧ CanClimb ⟨13, 0, 16, 128, 160⟩ ⟨0, 0, -8, 128, 160⟩ := by
  refine ⟨listLib_lawful, listLib_honest, ⟨by norm_num [suiteSample], rfl, ?_, ?_, ?_, ?_, rfl⟩, ?_, by decide, by decide⟩
  · intro i l h
    rcases i with _ | _ | _ | _ | _ | _ | _ | i <;> simp [suiteSample, exLine] at h <;> subst h <;> simp
  · intro i l h hi
    rcases i with _ | _ | _ | _ | _ | _ | _ | i <;> simp [suiteSample, exLine] at h <;> subst h <;> simp [suiteSample, exSide] <;> omega
  · intro l h
    simp [suiteSample, exLine] at h
    subst h
    simp [suiteSample, exSide]
  · intro s hs
    simp only [suiteSample, exSide, List.mem_cons, List.not_mem_nil, or_false] at hs
    rcases hs with rfl | rfl <;> simp
  · have : suiteSample.startPoint = ⟨40, 80⟩ := by
      simp [FullMap.startPoint, FullMap.findPlayerStart, suiteSample]
    unfold FullMap.StartsIn
    rw [this]
    norm_num

end Idc
