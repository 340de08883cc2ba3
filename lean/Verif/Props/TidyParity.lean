import Verif.Props.TidyWalk
/-!
# The flags count the crossings below, for C76
-/

namespace Idc

open Net

variable {G : Net}

theorem toggle_getD {l : List Bool} {p q : Nat} (hq : q < l.length) : (toggle l p).getD q false = (if p = q then !l.getD q false else l.getD q false) := by
  unfold toggle
  rw [List.getD_eq_getElem?_getD, List.getD_eq_getElem?_getD, List.getD_eq_getElem?_getD]
  by_cases h : p = q
  · subst h
    rw [if_pos rfl, List.getElem?_set_self hq]; rfl
  · rw [if_neg h, List.getElem?_set_ne h]

theorem above_getD {q : Nat} : ∀ (l : List Nat) (acc : List Bool), q < acc.length →
    ((above G l acc).getD q false = true ↔ (acc.getD q false = true ↔ Even (l.countP fun i => G.poly i == q)))
  | [], acc, _ => by simp [above]
  | i :: l, acc, h => by
    have ih := above_getD (q := q) l (toggle acc (G.poly i)) (by rw [toggle_length]; exact h)
    have e : above G (i :: l) acc = above G l (toggle acc (G.poly i)) := rfl
    rw [e, ih, toggle_getD h, List.countP_cons]
    by_cases hp : G.poly i = q
    · rw [if_pos hp, if_pos (by simpa using hp), Nat.even_add_one]
      cases acc.getD q false <;> simp
    · rw [if_neg hp, if_neg (by simpa using hp), Nat.add_zero]

theorem get_true {l : List Bool} {q : Nat} : l[q]? = some true ↔ l.getD q false = true := by
  rw [List.getD_eq_getElem?_getD]
  cases l[q]? <;> simp

theorem above_noFlags {q : Nat} (hq : q < G.n) (l : List Nat) :
    (above G l (noFlags G))[q]? = some true ↔ Odd (l.countP fun i => G.poly i == q) := by
  have h0 : (noFlags G).getD q false = false := by
    unfold noFlags
    rw [List.getD_eq_getElem?_getD, List.getElem?_replicate, if_pos hq]; rfl
  rw [get_true, above_getD l _ (by simpa [noFlags] using hq), h0]
  simp

/-! ### Counting -/

open Classical in
/-- A list without repetition that has exactly the members of a range that satisfy a predicate. -/
theorem countP_range {P : Nat → Prop} {N : Nat} {l : List Nat} (hn : l.Nodup) (h : ∀ k, k ∈ l ↔ k < N ∧ P k) (f : Nat → Bool) :
    l.countP f = (List.range N).countP fun k => f k && decide (P k) := by
  have hp : l.Perm ((List.range N).filter fun k => decide (P k)) := by
    rw [List.perm_ext_iff_of_nodup hn (List.nodup_range.filter _)]
    intro k
    rw [h, List.mem_filter, List.mem_range, decide_eq_true_iff]
  rw [hp.countP_eq, List.countP_filter]

namespace Rings

/-- All edges with the numbers of their polygons. -/
def tagged (L : Rings) : List (Nat × (Pt ℝ × Pt ℝ)) := L.flatMap fun r => (closedEdges r.2).map fun e => (r.1, e)

theorem tagged_append (L L' : Rings) : tagged (L ++ L') = tagged L ++ tagged L' := List.flatMap_append

theorem tagged_length : ∀ L : Rings, (tagged L).length = size L
  | [] => rfl
  | r :: L => by
    unfold tagged at *
    rw [List.flatMap_cons, List.length_append, size_cons, List.length_map, closedEdges_length]
    congr 1
    exact tagged_length L

theorem tagged_get {L : Rings} {i : Nat} (h : i < size L) : (tagged L)[i]? = some (poly L i, (corner L i, corner L (succ L i))) := by
  obtain ⟨L₁, k, ps, L₂, j, hat⟩ := exists_at h
  have e := hat.list
  have hc := closedEdges_get hat.corner hat.succ.corner
  have hlen := tagged_length L₁
  have hi := hat.index
  have : (tagged L)[i]? = (tagged (L₁ ++ (k, ps) :: L₂))[i]? := by rw [← e]
  rw [this, tagged_append, List.getElem?_append_right (by omega), hi, hlen]
  rw [show size L₁ + j - size L₁ = j by omega]
  unfold tagged
  rw [List.flatMap_cons, List.getElem?_append_left (by rw [List.length_map, closedEdges_length]; exact hat.lt), ← hi, List.getElem?_map]
  rw [hat.poly]
  dsimp only
  rw [hc]
  rfl

theorem tagged_eq (L : Rings) : tagged L = (List.range (size L)).map fun i => (poly L i, (corner L i, corner L (succ L i))) := by
  apply List.ext_getElem?
  intro i
  by_cases hi : i < size L
  · rw [tagged_get hi, List.getElem?_map, List.getElem?_range hi]
    rfl
  · rw [List.getElem?_eq_none (by rw [tagged_length]; omega), List.getElem?_eq_none (by rw [List.length_map, List.length_range]; omega)]

theorem tagged_contours (i : Nat) (C : Pt ℝ × Pt ℝ → Bool) (q : Nat) : ∀ cs : List (Contour ℝ),
    (tagged (cs.map fun c => (i, c.points))).countP (fun e => e.1 == q && C e.2) =
      if i = q then (cs.flatMap fun c => closedEdges c.points).countP C else 0
  | [] => by simp [tagged]
  | c :: cs => by
    have ih := tagged_contours i C q cs
    rw [List.map_cons, ← List.singleton_append, tagged_append, List.countP_append, ih]
    have : tagged [(i, c.points)] = (closedEdges c.points).map fun e => (i, e) := by simp [tagged]
    rw [this, List.countP_map, List.flatMap_cons, List.countP_append]
    by_cases hq : i = q
    · rw [if_pos hq, if_pos hq]
      congr 1
      subst hq
      congr 1
      funext e
      simp
    · rw [if_neg hq, if_neg hq, Nat.add_zero, List.countP_eq_zero]
      intro e _
      simp [hq]

theorem tagged_polygons (C : Pt ℝ × Pt ℝ → Bool) : ∀ (polys : List (Polygon ℝ × PolygonMode)) (i q : Nat) (p : Polygon ℝ × PolygonMode), polys[q]? = some p →
    (tagged (ofPolygons i polys)).countP (fun e => e.1 == i + q && C e.2) = p.1.edges.countP C
  | [], i, q, p, h => by cases h
  | p' :: rest, i, q, p, h => by
    rw [ofPolygons, tagged_append, List.countP_append, tagged_contours]
    cases q with
    | zero =>
      cases h
      rw [if_pos (by omega)]
      have : (tagged (ofPolygons (i + 1) rest)).countP (fun e => e.1 == i + 0 && C e.2) = 0 := by
        rw [List.countP_eq_zero]
        intro e he
        unfold tagged at he
        rw [List.mem_flatMap] at he
        obtain ⟨r, hr, he⟩ := he
        obtain ⟨k, p', c, rfl, _, _⟩ := (mem_ofPolygons (i + 1) rest r).1 hr
        rw [List.mem_map] at he
        obtain ⟨e', _, rfl⟩ := he
        simp
        omega
      rw [this]
      rfl
    | succ q =>
      rw [if_neg (by omega), Nat.zero_add]
      have := tagged_polygons C rest (i + 1) q p h
      rw [show i + 1 + q = i + (q + 1) by omega] at this
      exact this

end Rings

/-! ### Geometry -/

theorem crosses_swap (v : Pt ℝ) {e : Pt ℝ × Pt ℝ} : CrossesBelow v (e.2, e.1) ↔ CrossesBelow v e := by
  unfold CrossesBelow
  dsimp only
  rw [min_comm, max_comm]
  constructor
  all_goals
    rintro ⟨h1, h2, h3⟩
    refine ⟨h1, h2, ?_⟩
    have hne : e.2.x - e.1.x ≠ 0 := by
      intro h
      have hx : e.2.x = e.1.x := by linarith
      rw [hx, min_self] at h1
      rw [hx, max_self] at h2
      linarith
    have hne' : e.1.x - e.2.x ≠ 0 := by
      intro h; exact hne (by linarith)
    have e1 : e.1.y + (v.x - e.1.x) * ((e.2.y - e.1.y) / (e.2.x - e.1.x)) = e.2.y + (v.x - e.2.x) * ((e.1.y - e.2.y) / (e.1.x - e.2.x)) := by
      field_simp
      ring
    linarith

/-- In terms of the left and the right end. -/
theorem crosses_iff {l r v : Pt ℝ} (h : LeftOf l r) :
    CrossesBelow v (l, r) ↔ LeftOf l v ∧ LeftOf v r ∧ 0 < (r.x - l.x) * (v.y - l.y) - (r.y - l.y) * (v.x - l.x) := by
  have hle : l.x ≤ r.x := by rcases h with h | h <;> linarith [h]
  unfold CrossesBelow
  dsimp only
  rw [min_eq_left hle, max_eq_right hle]
  constructor
  · rintro ⟨h1, h2, h3⟩
    have hpos : 0 < r.x - l.x := by linarith
    have hc : 0 < (r.x - l.x) * (v.y - l.y) - (r.y - l.y) * (v.x - l.x) := by
      have e : (r.x - l.x) * (v.y - l.y) - (r.y - l.y) * (v.x - l.x) = (r.x - l.x) * (v.y - (l.y + (v.x - l.x) * ((r.y - l.y) / (r.x - l.x)))) := by
        field_simp
        ring
      rw [e]
      exact mul_pos hpos (by linarith)
    refine ⟨?_, Or.inl h2, hc⟩
    rcases lt_or_eq_of_le h1 with h1 | h1
    · exact Or.inl h1
    · refine Or.inr ⟨h1, ?_⟩
      rw [← h1, sub_self, mul_zero, sub_zero] at hc
      have := pos_of_mul_pos_right hc hpos.le
      linarith
  · rintro ⟨h1, h2, hc⟩
    have h1' : l.x ≤ v.x := by rcases h1 with h1 | h1 <;> linarith [h1]
    have h2' : v.x < r.x := by
      rcases h2 with h2 | ⟨h2, h3⟩
      · exact h2
      · exfalso
        rw [← h2] at hc hle
        have : (v.x - l.x) * (v.y - l.y) - (r.y - l.y) * (v.x - l.x) = (v.x - l.x) * (v.y - r.y) := by ring
        rw [this] at hc
        have : (v.x - l.x) * (v.y - r.y) ≤ 0 := mul_nonpos_of_nonneg_of_nonpos (by linarith) (by linarith)
        linarith
    refine ⟨h1', h2', ?_⟩
    have hpos : 0 < r.x - l.x := by linarith
    have e : (r.x - l.x) * (v.y - l.y) - (r.y - l.y) * (v.x - l.x) = (r.x - l.x) * (v.y - (l.y + (v.x - l.x) * ((r.y - l.y) / (r.x - l.x)))) := by
      field_simp
      ring
    rw [e] at hc
    have := pos_of_mul_pos_right hc hpos.le
    linarith

/-- Below, for the sweep, is below. -/
theorem below_iff {x : EndId} (hx : x.1 < G.N) {k : Nat} (hk : k < G.N) :
    (G.a k < G.time (G.pt x) ∧ G.time (G.pt x) < G.b k ∧ G.h k (G.time (G.pt x)) < (G.pt x).y) ↔ CrossesBelow (G.pt x) (G.lp k, G.rp k) := by
  rw [crosses_iff (G.wf k hk)]
  have h1 : LeftOf (G.lp k) (G.pt x) ↔ G.a k < G.time (G.pt x) := G.leftOf_iff (x := (k, .left)) hk hx
  have h2 : LeftOf (G.pt x) (G.rp k) ↔ G.time (G.pt x) < G.b k := G.leftOf_iff (y := (k, .right)) hx hk
  rw [h1, h2]
  refine and_congr_right fun _ => and_congr_right fun _ => ?_
  have ha := G.area_h' hk (G.pt x)
  simp only [triangleSignedArea, FloatOps.sub, FloatOps.mul] at ha
  have hab := G.a_lt_b hk
  have e : (G.b k - G.a k) * ((G.pt x).y - G.h k (G.time (G.pt x))) =
      ((G.rp k).x - (G.lp k).x) * ((G.pt x).y - (G.lp k).y) - ((G.rp k).y - (G.lp k).y) * ((G.pt x).x - (G.lp k).x) := by
    linear_combination ha
  rw [← e]
  constructor
  · intro h; exact mul_pos (by linarith) (by linarith)
  · intro h
    have := pos_of_mul_pos_right h (by linarith)
    linarith

open Classical in
/-- The flags over the segments below a corner are given by the even-odd rule. -/
theorem above_evenOdd {polys : List (Polygon ℝ × PolygonMode)} {hT : Rings.Tidy (Rings.ofPolygons 0 polys)} {hn : ∀ r ∈ Rings.ofPolygons 0 polys, r.1 < polys.length}
    {x : EndId} (hx : x.1 < (Rings.net _ hT polys.length hn).N) {l : List Nat} (hl : l.Nodup)
    (hm : ∀ k, k ∈ l ↔ k < (Rings.net _ hT polys.length hn).N ∧ (Rings.net _ hT polys.length hn).a k < (Rings.net _ hT polys.length hn).time ((Rings.net _ hT polys.length hn).pt x) ∧
      (Rings.net _ hT polys.length hn).time ((Rings.net _ hT polys.length hn).pt x) < (Rings.net _ hT polys.length hn).b k ∧
      (Rings.net _ hT polys.length hn).h k ((Rings.net _ hT polys.length hn).time ((Rings.net _ hT polys.length hn).pt x)) < ((Rings.net _ hT polys.length hn).pt x).y) :
    OutsideFlags polys ((Rings.net _ hT polys.length hn).pt x) (above (Rings.net _ hT polys.length hn) l (noFlags (Rings.net _ hT polys.length hn))) := by
  set G := Rings.net _ hT polys.length hn with hG
  refine ⟨by rw [above_length]; simp [noFlags, hG, Rings.net], fun q p hp => ?_⟩
  have hq : q < polys.length := (List.getElem?_eq_some_iff.1 hp).1
  rw [above_noFlags hq]
  unfold Polygon.evenOdd
  have e1 : l.countP (fun i => G.poly i == q) = (List.range G.N).countP fun k => (G.poly k == q) && decide (CrossesBelow (G.pt x) (G.lp k, G.rp k)) := by
    refine countP_range hl (fun k => ?_) _
    rw [hm]
    constructor
    · rintro ⟨h1, h2⟩; exact ⟨h1, (below_iff hx h1).1 h2⟩
    · rintro ⟨h1, h2⟩; exact ⟨h1, (below_iff hx h1).2 h2⟩
  have e2 := Rings.tagged_polygons (fun e => decide (CrossesBelow (G.pt x) e)) polys 0 q p hp
  rw [Rings.tagged_eq, List.countP_map, Nat.zero_add] at e2
  rw [e1, ← e2]
  have : ∀ (a b : Nat), a = b → (Odd a ↔ Odd b) := fun a b h => by rw [h]
  apply this
  refine List.countP_congr fun k hk => ?_
  simp only [Function.comp, Bool.and_eq_true, decide_eq_true_iff]
  refine and_congr_right fun _ => ?_
  rcases Rings.ends (L := Rings.ofPolygons 0 polys) k with h | h
  · show CrossesBelow (G.pt x) (Rings.lp _ k, Rings.rp _ k) ↔ _
    rw [h]
  · show CrossesBelow (G.pt x) (Rings.lp _ k, Rings.rp _ k) ↔ _
    rw [h]
    exact crosses_swap (G.pt x) (e := (Rings.corner _ k, Rings.corner _ (Rings.succ _ k)))

end Idc
