import Verif.Props.Below
import Verif.Props.Orientation
import Verif.Props.Tidy
/-!
# Which outlines of a result are holes, and of what (C77)
-/

namespace Idc

/-! ### Outlines that do not touch themselves -/

theorem edge_iff_rotate {ps : List (Pt ℝ)} (h : 2 ≤ ps.length) (a b : Pt ℝ) : (a, b) ∈ closedEdges ps ↔ ∃ l, ps ~r a :: b :: l := by
  constructor
  · intro hm
    obtain ⟨i, hi, e⟩ := List.getElem_of_mem hm
    have hi' : i < ps.length := by rwa [closedEdges_length] at hi
    have h2 : (i + 1) % ps.length < ps.length := Nat.mod_lt _ (by omega)
    rw [closedEdges_getElem ps i hi hi' h2, Prod.mk.injEq] at e
    have hl : (ps.rotate i).length = ps.length := List.length_rotate ..
    have g0 : (ps.rotate i)[0]? = some a := by
      rw [List.getElem?_rotate (by omega), Nat.zero_add, Nat.mod_eq_of_lt hi', List.getElem?_eq_getElem hi', e.1]
    have g1 : (ps.rotate i)[1]? = some b := by
      rw [List.getElem?_rotate (by omega), Nat.add_comm, List.getElem?_eq_getElem h2, e.2]
    match hr : ps.rotate i with
    | [] => rw [hr] at hl; simp at hl; omega
    | [_] => rw [hr] at hl; simp at hl; omega
    | c :: d :: l =>
      rw [hr] at g0 g1
      simp at g0 g1
      subst g0 g1
      exact ⟨l, i, hr⟩
  · rintro ⟨l, n, hn⟩
    have hlen : ps.length = l.length + 2 := by rw [← List.length_rotate ps n, hn]; simp
    have h1 : n % ps.length < ps.length := Nat.mod_lt _ (by omega)
    have h2 : (n % ps.length + 1) % ps.length < ps.length := Nat.mod_lt _ (by omega)
    have g0 : (ps.rotate n)[0]? = some a := by rw [hn]; rfl
    have g1 : (ps.rotate n)[1]? = some b := by rw [hn]; rfl
    rw [List.getElem?_rotate (by omega), Nat.zero_add, List.getElem?_eq_getElem h1] at g0
    rw [List.getElem?_rotate (by omega), Nat.add_comm, ← Nat.mod_add_mod, List.getElem?_eq_getElem h2] at g1
    have := closedEdges_getElem ps (n % ps.length) (by rw [closedEdges_length]; exact h1) h1 h2
    rw [Option.some.injEq] at g0 g1
    rw [g0, g1] at this
    rw [← this]
    exact List.getElem_mem _

theorem edge_rotate {ps q : List (Pt ℝ)} (h : 2 ≤ ps.length) (hr : q ~r ps) (a b : Pt ℝ) : (a, b) ∈ closedEdges q ↔ (a, b) ∈ closedEdges ps := by
  rw [edge_iff_rotate h, edge_iff_rotate (by rw [hr.perm.length_eq]; exact h)]
  exact ⟨fun ⟨l, hl⟩ => ⟨l, hr.symm.trans hl⟩, fun ⟨l, hl⟩ => ⟨l, hr.trans hl⟩⟩

theorem edge_reverse {ps : List (Pt ℝ)} (h : 2 ≤ ps.length) (a b : Pt ℝ) : (a, b) ∈ closedEdges ps.reverse ↔ (b, a) ∈ closedEdges ps := by
  have key : ∀ {qs : List (Pt ℝ)} {c d : Pt ℝ}, (∃ l, qs ~r c :: d :: l) → ∃ l, qs.reverse ~r d :: c :: l := by
    rintro qs c d ⟨l, hl⟩
    refine ⟨l.reverse, hl.reverse.trans ?_⟩
    rw [List.reverse_cons, List.reverse_cons, List.append_assoc]
    exact List.isRotated_append
  rw [edge_iff_rotate h, edge_iff_rotate (by rw [List.length_reverse]; exact h)]
  constructor
  · intro hl
    have := key hl
    rwa [List.reverse_reverse] at this
  · exact key

theorem SimpleOutline.rotate {ps q : List (Pt ℝ)} (h : SimpleOutline ps) (hr : q ~r ps) : SimpleOutline q where
  corners := by rw [hr.perm.length_eq]; exact h.corners
  distinct := hr.perm.nodup_iff.2 h.distinct
  apart := by
    have h2 : 2 ≤ ps.length := le_trans (by norm_num) h.corners
    rintro ⟨a, b⟩ he ⟨a', b'⟩ he' hne q hq
    exact h.apart _ ((edge_rotate h2 hr a b).1 he) _ ((edge_rotate h2 hr a' b').1 he') hne q hq

theorem SimpleOutline.reverse {ps : List (Pt ℝ)} (h : SimpleOutline ps) : SimpleOutline ps.reverse where
  corners := by rw [List.length_reverse]; exact h.corners
  distinct := List.nodup_reverse.2 h.distinct
  apart := by
    have h2 : 2 ≤ ps.length := le_trans (by norm_num) h.corners
    rintro ⟨a, b⟩ he ⟨a', b'⟩ he' hne q hq
    have := h.apart _ ((edge_reverse h2 a b).1 he) _ ((edge_reverse h2 a' b').1 he') (by
      intro e
      rw [Prod.mk.injEq] at e
      exact hne (by rw [e.1, e.2])) q ⟨(onSegment_swap (a, b) q).2 hq.1, (onSegment_swap (a', b') q).2 hq.2⟩
    exact ⟨(endOf_swap (b, a) q).2 this.1, (endOf_swap (b', a') q).2 this.2⟩

theorem SimpleOutline.walk {ps q : List (Pt ℝ)} (h : SimpleOutline ps) (hr : q ~r ps ∨ q ~r ps.reverse) : SimpleOutline q := by
  rcases hr with hr | hr
  · exact h.rotate hr
  · exact h.reverse.rotate hr

/-- The outlines of polygons that do not touch. -/
theorem Tidy.simple {polys : List (Polygon ℝ × PolygonMode)} (h : Tidy polys) {p : Polygon ℝ × PolygonMode} (hp : p ∈ polys) {c : Contour ℝ} (hc : c ∈ p.1.contours) :
    SimpleOutline c.points where
  corners := h.corners p hp c hc
  distinct := by
    have := h.distinct
    unfold allCorners at this
    have h1 := (List.nodup_flatMap.1 this).1 p hp
    exact (List.nodup_flatMap.1 h1).1 c hc
  apart := by
    have sub : ∀ e ∈ closedEdges c.points, e ∈ allEdges polys := fun e he =>
      List.mem_flatMap.2 ⟨p, hp, List.mem_flatMap.2 ⟨c, hc, he⟩⟩
    intro e he e' he'
    exact h.apart e (sub e he) e' (sub e' he')

/-- A walk that starts at the leftmost corner. -/
theorem GoesAround.leftmost {ps q : List (Pt ℝ)} {v a b : Pt ℝ} (h : GoesAround ps q v a b) : LeftmostCorner q b v a := by
  obtain ⟨_, rest, hq, hlast, hleft⟩ := h
  have hlen : 2 ≤ q.length := by rw [hq]; simp
  refine ⟨?_, ?_, ?_⟩
  · rw [edge_iff_rotate hlen]
    obtain ⟨l, hl⟩ := List.getLast?_eq_some_iff.1 hlast
    refine ⟨l, ?_⟩
    rw [hq, hl, ← List.cons_append]
    exact List.isRotated_append
  · rw [edge_iff_rotate hlen]
    exact ⟨rest, by rw [hq]⟩
  · intro p hp
    rw [hq] at hp
    rcases List.mem_cons.1 hp with h | h
    · exact Or.inl h
    · exact Or.inr (hleft p h)

theorem GoesAround.itself {ps q : List (Pt ℝ)} {v a b : Pt ℝ} (h : GoesAround ps q v a b) : GoesAround q q v a b := ⟨Or.inl (List.IsRotated.refl q), h.2⟩

/-- The orientation of a walk and its area. -/
theorem walk_area {ps q : List (Pt ℝ)} (hs : SimpleOutline ps) {v a b : Pt ℝ} (h : GoesAround ps q v a b) :
    Counterclockwise q q ∧ ¬ Clockwise q q ∧ 0 < signedArea2 q ∨ Clockwise q q ∧ ¬ Counterclockwise q q ∧ signedArea2 q < 0 := by
  rcases outline_turn (hs.walk h.1) h.leftmost with ⟨h1, h2⟩ | ⟨h1, h2⟩
  · have hc : Counterclockwise q q := ⟨v, a, b, h.itself, h1⟩
    exact Or.inl ⟨hc, fun k => not_both hc k, h2⟩
  · have hc : Clockwise q q := ⟨v, a, b, h.itself, h1⟩
    exact Or.inr ⟨hc, fun k => not_both k hc, h2⟩

section
variable {polys : List (Polygon ℝ × PolygonMode)} {hT : Rings.Tidy (Rings.ofPolygons 0 polys)} {hn : ∀ r ∈ Rings.ofPolygons 0 polys, r.1 < polys.length}

theorem exists_outline {x : EndId} (hx : x.1 < (netOf polys hT hn).N) : ∃ L₁ k L₂ j p c, Rings.At (Rings.ofPolygons 0 polys) x.1 L₁ k c.points L₂ j ∧
    polys[k]? = some p ∧ c ∈ Polygon.contours p.1 := by
  obtain ⟨L₁, k, ps, L₂, j, h⟩ := Rings.exists_at (L := Rings.ofPolygons 0 polys) hx
  have : (k, ps) ∈ Rings.ofPolygons 0 polys := by rw [h.list]; simp
  obtain ⟨k', p, c, e, h1, h2⟩ := (Rings.mem_ofPolygons 0 polys _).1 this
  rw [Nat.zero_add] at e
  cases e
  exact ⟨L₁, k, L₂, j, p, c, h, h1, h2⟩

/-- The orientation of the walk from a leader, what the code takes it for, and the contour it is made a hole of. -/
theorem leader_parent (hTp : Tidy polys) {A : Arena ℝ} (hF : Found polys hT hn A) {x : EndId} (h : (netOf polys hT hn).Leader x) :
    Counterclockwise (((netOf polys hT hn).orbit x).map (netOf polys hT hn).pt) (((netOf polys hT hn).orbit x).map (netOf polys hT hn).pt) ∧
      ¬ Clockwise (((netOf polys hT hn).orbit x).map (netOf polys hT hn).pt) (((netOf polys hT hn).orbit x).map (netOf polys hT hn).pt) ∧
      parentOf (netOf polys hT hn) A x = none ∨
    Clockwise (((netOf polys hT hn).orbit x).map (netOf polys hT hn).pt) (((netOf polys hT hn).orbit x).map (netOf polys hT hn).pt) ∧
      ¬ Counterclockwise (((netOf polys hT hn).orbit x).map (netOf polys hT hn).pt) (((netOf polys hT hn).orbit x).map (netOf polys hT hn).pt) ∧
      ∃ l : List Nat, (∀ k, k ∈ l ↔ k < (netOf polys hT hn).N ∧ CrossesBelow ((netOf polys hT hn).pt x) ((netOf polys hT hn).lp k, (netOf polys hT hn).rp k)) ∧
        sideFlags A x = above (netOf polys hT hn) l (noFlags (netOf polys hT hn)) ∧ parentOf (netOf polys hT hn) A x = l.getLast?.map (fun b => (b, .left)) ∧
        l.Pairwise fun k k' => (netOf polys hT hn).h k ((netOf polys hT hn).time ((netOf polys hT hn).pt x)) <
          (netOf polys hT hn).h k' ((netOf polys hT hn).time ((netOf polys hT hn).pt x)) := by
  obtain ⟨L₁, k, L₂, j, p, c, hat, hp, hc⟩ := exists_outline (hT := hT) (hn := hn) h.1
  have hs := hTp.simple (List.mem_of_getElem? hp) hc
  have hw := leader_walk h hat
  set G := netOf polys hT hn with hG
  set q := (G.orbit x).map G.pt with hq
  have hne : q ≠ [] := by
    obtain ⟨_, _, e, _⟩ := hw
    rw [e]; simp
  have hseems : seemsClockwise G x = decide (signedArea2 q < 0) := by
    unfold seemsClockwise
    rw [← hq, areaOf_eq hne]
    simp [FloatOps.lt, FloatOps.ofInt]
  rcases walk_area hs hw with ⟨h1, h2, h3⟩ | ⟨h1, h2, h3⟩
  · left
    refine ⟨h1, h2, ?_⟩
    unfold parentOf
    rw [if_neg]
    rw [hseems]
    simp [h3.le]
  · right
    refine ⟨h1, h2, ?_⟩
    -- the other edge at the corner is the lower one
    have hleft := h.left
    have hmate := h.mate
    have hx := h.1
    have hmx := G.mate_lt hx
    obtain ⟨v, a, b, hgo, hturn⟩ := h1
    obtain ⟨rfl, rfl, rfl⟩ := goesAround_unique hgo hw.itself
    obtain ⟨i, e⟩ := x
    dsimp only at hleft
    subst hleft
    rcases hm : G.mate (i, .left) with ⟨m, e⟩
    rw [hm] at hmate hmx hturn
    dsimp only at hmate
    subst hmate
    have hmi : m ≠ i := by
      have := G.mate_ne (x := (i, .left)) hx
      rw [hm] at this
      exact this
    have hlp : G.lp i = G.lp m := by
      have := G.mate_pt (x := (i, .left)) hx
      rw [hm] at this
      exact this.symm
    have hkey : G.key (m, .left) < G.key (i, .left) := by
      rcases lt_trichotomy (G.key (i, .left)) (G.key (m, .left)) with hk' | hk' | hk'
      · have := (G.turn hx hmx (Ne.symm hmi) hlp).1 hk'
        exact absurd hturn (not_lt.2 this.le)
      · exact absurd (congrArg Prod.fst (Net.key_inj (x := (i, .left)) (y := (m, .left)) hx hmx hk')).symm hmi
      · exact hk'
    have hmm : G.mate (m, .left) = (i, .left) := by rw [← hm, G.mate_mate hx]
    obtain ⟨l, l1, l2, l3, l4⟩ := hF.below m hmx (by rw [← hG, hmm]) (by rw [← hG, hmm]; exact hkey)
    rw [← hG] at l1 l2 l4
    refine ⟨l, ?_, ?_, ?_, ?_⟩
    · intro k
      rw [l1]
      show _ ↔ k < G.N ∧ CrossesBelow (G.lp i) _
      rw [hlp]
    · have hcr := hF.corner (m, .left) hmx
      rw [← hG, hmm] at hcr
      rw [hcr]
      exact l2
    · unfold parentOf
      rw [if_pos (by rw [hseems]; simpa using h3)]
      have hpj : G.prev (i, .left) = (m, .right) := by unfold Net.prev; rw [hm]; rfl
      rw [hpj, l3]
    · show l.Pairwise fun k k' => G.h k (G.time (G.lp i)) < G.h k' (G.time (G.lp i))
      rw [hlp]
      exact l4

/-- The edges along a walk. -/
theorem walk_edges {G : Net} {x : EndId} (hx : x.1 < G.N) : closedEdges ((G.orbit x).map G.pt) = (G.orbit x).map fun z => (G.pt z, G.pt (opp z)) := by
  have hp := Net.period_pos hx
  apply List.ext_getElem?
  intro i
  by_cases hi : i < G.period x
  · have hl : ((G.orbit x).map G.pt).length = G.period x := by rw [List.length_map, Net.orbit_length]
    have h0 := Net.orbit_get (G := G) (x := x) hi
    have h1 := Net.orbit_get (G := G) (x := x) (k := (i + 1) % G.period x) (Nat.mod_lt _ hp)
    have e : G.next^[(i + 1) % G.period x] x = G.next (G.next^[i] x) := by
      rw [← Function.iterate_succ_apply' G.next]
      by_cases hlt : i + 1 < G.period x
      · rw [Nat.mod_eq_of_lt hlt]
      · have : i + 1 = G.period x := by omega
        rw [this, Nat.mod_self, Nat.succ_eq_add_one, this, Net.iter_period]
        rfl
    rw [e] at h1
    have i1 : i < ((G.orbit x).map G.pt).length := by rw [hl]; exact hi
    have i2 : (i + 1) % ((G.orbit x).map G.pt).length < ((G.orbit x).map G.pt).length := Nat.mod_lt _ (by omega)
    rw [List.getElem?_eq_getElem (by rw [closedEdges_length]; exact i1), closedEdges_getElem _ i (by rw [closedEdges_length]; exact i1) i1 i2, List.getElem?_map, h0]
    have g0 : ((G.orbit x).map G.pt)[i]? = some (G.pt (G.next^[i] x)) := by rw [List.getElem?_map, h0]; rfl
    have g1 : ((G.orbit x).map G.pt)[(i + 1) % ((G.orbit x).map G.pt).length]? = some (G.pt (G.next (G.next^[i] x))) := by
      rw [hl, List.getElem?_map, h1]; rfl
    rw [List.getElem?_eq_getElem i1, Option.some.injEq] at g0
    rw [List.getElem?_eq_getElem i2, Option.some.injEq] at g1
    rw [g0, g1, G.pt_next (G.iter_lt hx i)]
    rfl
  · rw [List.getElem?_eq_none (by rw [closedEdges_length, List.length_map, Net.orbit_length]; omega),
      List.getElem?_eq_none (by rw [List.length_map, Net.orbit_length]; omega)]

/-- The walk goes along an edge from left to right. -/
theorem walk_along {G : Net} {x : EndId} (hx : x.1 < G.N) {e : Pt ℝ × Pt ℝ} :
    (e ∈ closedEdges ((G.orbit x).map G.pt) ∧ LeftOf e.1 e.2) ↔ ∃ b, (b, .left) ∈ G.orbit x ∧ e = (G.lp b, G.rp b) := by
  rw [walk_edges hx, List.mem_map]
  constructor
  · rintro ⟨⟨⟨b, d⟩, hz, rfl⟩, hl⟩
    cases d
    · exact ⟨b, hz, rfl⟩
    · exfalso
      have h1 := G.wf b (Net.orbit_lt hx hz)
      have hl : LeftOf (G.rp b) (G.lp b) := hl
      unfold LeftOf at h1 hl
      rcases h1 with h1 | h1 <;> rcases hl with hl | hl <;> linarith [h1, hl]
  · rintro ⟨b, hb, rfl⟩
    exact ⟨⟨(b, .left), hb, rfl⟩, G.wf b (Net.orbit_lt hx hb)⟩

theorem edge_of (hk : k < (netOf polys hT hn).N) : ((netOf polys hT hn).lp k, (netOf polys hT hn).rp k) ∈ allEdges polys ∨
    ((netOf polys hT hn).rp k, (netOf polys hT hn).lp k) ∈ allEdges polys := by
  have h := Rings.edge_mem (L := Rings.ofPolygons 0 polys) hk
  rw [Rings.ofPolygons_edges] at h
  rcases Rings.ends (L := Rings.ofPolygons 0 polys) k with e | e
  · left
    show (Rings.lp _ k, Rings.rp _ k) ∈ _
    rw [e]; exact h
  · right
    show (Rings.rp _ k, Rings.lp _ k) ∈ _
    rw [Prod.mk.injEq] at e
    rw [e.1, e.2]; exact h

theorem of_edge {e : Pt ℝ × Pt ℝ} (he : e ∈ allEdges polys) : ∃ k < (netOf polys hT hn).N,
    ((netOf polys hT hn).lp k, (netOf polys hT hn).rp k) = e ∨ ((netOf polys hT hn).lp k, (netOf polys hT hn).rp k) = (e.2, e.1) := by
  rw [← Rings.ofPolygons_edges 0 polys] at he
  obtain ⟨k, hk⟩ := List.getElem?_of_mem he
  have hkl : k < Rings.size (Rings.ofPolygons 0 polys) := by
    have := (List.getElem?_eq_some_iff.1 hk).1
    rwa [Rings.edges_length] at this
  rw [Rings.edge_get hkl] at hk
  cases hk
  exact ⟨k, hkl, Rings.ends (L := Rings.ofPolygons 0 polys) k⟩

/-- The highest of the segments below a corner is the first edge below it. -/
theorem first_below {x : EndId} (hx : x.1 < (netOf polys hT hn).N) {l : List Nat}
    (hl : ∀ k, k ∈ l ↔ k < (netOf polys hT hn).N ∧ CrossesBelow ((netOf polys hT hn).pt x) ((netOf polys hT hn).lp k, (netOf polys hT hn).rp k))
    (hs : l.Pairwise fun k k' => (netOf polys hT hn).h k ((netOf polys hT hn).time ((netOf polys hT hn).pt x)) <
      (netOf polys hT hn).h k' ((netOf polys hT hn).time ((netOf polys hT hn).pt x))) {b : Nat} (hb : b < (netOf polys hT hn).N) :
    l.getLast? = some b ↔ FirstBelow (allEdges polys) ((netOf polys hT hn).pt x) ((netOf polys hT hn).lp b, (netOf polys hT hn).rp b) := by
  set G := netOf polys hT hn with hG
  -- the last one is the first one below
  have key : ∀ b, l.getLast? = some b → b < G.N ∧ FirstBelow (allEdges polys) (G.pt x) (G.lp b, G.rp b) := by
    intro b hlast
    obtain ⟨hbN, hbc⟩ := (hl b).1 (List.mem_of_getLast? hlast)
    refine ⟨hbN, hbc, ?_⟩
    intro e he hc z ho ho'
    obtain ⟨k, hk, hke⟩ := of_edge (hT := hT) (hn := hn) he
    rw [← hG] at hk hke
    obtain ⟨hc1, ho1, hh⟩ : CrossesBelow (G.pt x) (G.lp k, G.rp k) ∧ Over (G.lp k, G.rp k) z ∧ heightAt e z = heightAt (G.lp k, G.rp k) z := by
      rcases hke with h | h
      · rw [h]; exact ⟨hc, ho', rfl⟩
      · rw [h]
        exact ⟨(crosses_swap _).2 hc, (over_swap e z).2 ho', (heightAt_swap (crosses_x hc) z).symm⟩
    rw [hh]
    have hkl := (hl k).2 ⟨hk, hc1⟩
    by_cases hkb : k = b
    · rw [hkb]
    · obtain ⟨l', rfl⟩ := List.getLast?_eq_some_iff.1 hlast
      have hkl' : k ∈ l' := by
        rcases List.mem_append.1 hkl with h | h
        · exact h
        · exact absurd (List.mem_singleton.1 h) hkb
      exact higher hx hbN hk hbc hc1 ((List.pairwise_append.1 hs).2.2 k hkl' b (by simp)) ho ho1
  constructor
  · intro h; exact (key b h).2
  · intro hfb
    have hbl := (hl b).2 ⟨hb, hfb.1⟩
    rcases hlast : l.getLast? with _ | b'
    · rw [List.getLast?_eq_none_iff] at hlast
      rw [hlast] at hbl
      cases hbl
    · obtain ⟨hb'N, hfb'⟩ := key b' hlast
      by_cases e : b' = b
      · rw [e]
      exfalso
      -- each is nowhere above the other
      have hle : ∀ z, Over (G.lp b, G.rp b) z → Over (G.lp b', G.rp b') z → heightAt (G.lp b', G.rp b') z = heightAt (G.lp b, G.rp b) z := by
        intro z h1 h2
        have sw : ∀ {i j : Nat}, i < G.N → FirstBelow (allEdges polys) (G.pt x) (G.lp j, G.rp j) → CrossesBelow (G.pt x) (G.lp i, G.rp i) → Over (G.lp j, G.rp j) z →
            Over (G.lp i, G.rp i) z → heightAt (G.lp i, G.rp i) z ≤ heightAt (G.lp j, G.rp j) z := by
          intro i j hi hf hc o1 o2
          rcases edge_of (hT := hT) (hn := hn) hi with h | h
          · exact hf.2 _ h hc z o1 o2
          · rw [← heightAt_swap (e := (G.lp i, G.rp i)) (crosses_x hc)]
            exact hf.2 _ h ((crosses_swap (e := (G.lp i, G.rp i)) _).2 hc) z o1 ((over_swap (G.lp i, G.rp i) z).2 o2)
        exact le_antisymm (sw hb'N hfb hfb'.1 h1 h2) (sw hb hfb' hfb.1 h2 h1)
      have lx : ∀ {i}, i < G.N → CrossesBelow (G.pt x) (G.lp i, G.rp i) → (G.lp i).x < (G.rp i).x ∧ (G.lp i).x ≤ (G.pt x).x ∧ (G.pt x).x < (G.rp i).x := by
        intro i hi hc
        have h1 := crosses_x hc
        have h3 : (G.lp i).x < (G.rp i).x := by
          rcases G.wf i hi with h | h
          · exact h
          · exact absurd h.1 h1
        obtain ⟨c1, c2, _⟩ := hc
        dsimp only at c1 c2
        rw [min_eq_left h3.le] at c1
        rw [max_eq_right h3.le] at c2
        exact ⟨h3, c1, c2⟩
      obtain ⟨p1, p2, p3⟩ := lx hb hfb.1
      obtain ⟨r1, r2, r3⟩ := lx hb'N hfb'.1
      obtain ⟨z, z1, z2⟩ := exists_between (lt_min p3 r3)
      have z3 := lt_of_lt_of_le z2 (min_le_left _ _)
      have z4 := lt_of_lt_of_le z2 (min_le_right _ _)
      have o1 : Over (G.lp b, G.rp b) z := ⟨(min_le_left _ _).trans (by show (G.lp b).x ≤ z; linarith), le_trans (by exact z3.le) (le_max_right _ _)⟩
      have o2 : Over (G.lp b', G.rp b') z := ⟨(min_le_left _ _).trans (by show (G.lp b').x ≤ z; linarith), le_trans (by exact z4.le) (le_max_right _ _)⟩
      have s1 := onSegment_over (e := (G.lp b, G.rp b)) p1 (z := z) (by show (G.lp b).x ≤ z; linarith) z3.le
      have s2 := onSegment_over (e := (G.lp b', G.rp b')) r1 (z := z) (by show (G.lp b').x ≤ z; linarith) z4.le
      rw [hle z o1 o2] at s2
      rcases (G.apart b hb b' hb'N (Ne.symm e) _ ⟨s1, s2⟩).1 with h | h
      · have : z = (G.lp b).x := congrArg Pt.x h
        linarith
      · have : z = (G.rp b).x := congrArg Pt.x h
        linarith

end

/-- **C77.** For polygons whose outlines neither touch nor cross (whole coordinates, exact arithmetic), an outline of the
result is external exactly if it goes counterclockwise, and a hole exactly if it goes clockwise. -/
theorem C77_external {lib : Lib} (hl : lib.Lawful) {polygons : List (Polygon ℝ × PolygonMode)} (hT : Tidy polygons)
    (hm : ∀ p ∈ polygons, p.2 ≠ .removeEdges) (op : BooleanOpType) {fuel : Nat} (hfuel : 2 * (allCorners polygons).length < fuel) {r : Polygon ℝ}
    (hr : compute lib fuel polygons op = .ok r) {c : Contour ℝ} (hc : c ∈ r.contours) :
    (c.external = true ↔ Counterclockwise c.points c.points) ∧ (c.external = false ↔ Clockwise c.points c.points) := by
  obtain ⟨hT', hn, A, ls, cs, hF, hR, hf⟩ := compute_net hl hT hm op
  rw [hf fuel hfuel] at hr
  cases hr
  obtain ⟨i, hi⟩ := List.getElem?_of_mem hc
  obtain ⟨x, hx⟩ : ∃ x, ls[i]? = some x := by
    have := (List.getElem?_eq_some_iff.1 hi).1
    exact ⟨_, List.getElem?_eq_getElem (by rw [← hR.len]; exact this)⟩
  obtain ⟨lx, hw⟩ := (hR.leaders x).1 (List.mem_of_getElem? hx)
  rw [hR.points i c x hi hx, hR.external i c x hi hx]
  rcases leader_parent hT hF lx with ⟨h1, h2, h3⟩ | ⟨h1, h2, l, _, h4, h5, _⟩
  · rw [h3]
    simp [h1, h2]
  · have hne : l ≠ [] := by
      rintro rfl
      rw [h4] at hw
      have : true ∈ noFlags (netOf polygons hT' hn) := hw.1
      simp [noFlags] at this
    rw [h5]
    cases hlast : l.getLast? with
    | none => exact absurd (List.getLast?_eq_none_iff.1 hlast) hne
    | some b => simp [h1, h2]

/-- **C77.** Each hole is recorded with the outline that goes, from left to right, along the first edge below the hole's
leftmost corner. -/
theorem C77_holes {lib : Lib} (hl : lib.Lawful) {polygons : List (Polygon ℝ × PolygonMode)} (hT : Tidy polygons)
    (hm : ∀ p ∈ polygons, p.2 ≠ .removeEdges) (op : BooleanOpType) {fuel : Nat} (hfuel : 2 * (allCorners polygons).length < fuel) {r : Polygon ℝ}
    (hr : compute lib fuel polygons op = .ok r) {i j : Nat} {c h : Contour ℝ} (hc : r.contours[i]? = some c) (hh : r.contours[j]? = some h) :
    j ∈ c.holes ↔ Clockwise h.points h.points ∧ ∃ v e, h.points.head? = some v ∧ e ∈ closedEdges c.points ∧ LeftOf e.1 e.2 ∧ FirstBelow (allEdges polygons) v e := by
  obtain ⟨hT', hn, A, ls, cs, hF, hR, hf⟩ := compute_net hl hT hm op
  rw [hf fuel hfuel] at hr
  cases hr
  have hget : ∀ (j : Nat) c, cs[j]? = some c → ∃ x, ls[j]? = some x := by
    intro j c hc
    have := (List.getElem?_eq_some_iff.1 hc).1
    exact ⟨_, List.getElem?_eq_getElem (by rw [← hR.len]; exact this)⟩
  obtain ⟨x, hx⟩ := hget i c hc
  obtain ⟨y, hy⟩ := hget j h hh
  have lx := ((hR.leaders x).1 (List.mem_of_getElem? hx)).1
  have ly := ((hR.leaders y).1 (List.mem_of_getElem? hy)).1
  rw [hR.holes i c x hc hx, hR.points i c x hc hx, hR.points j h y hh hy]
  set G := netOf polygons hT' hn with hG
  have hhead : ((G.orbit y).map G.pt).head? = some (G.pt y) := by
    have := Net.orbit_get (G := G) (x := y) (k := 0) (Net.period_pos ly.1)
    rw [List.head?_eq_getElem?, List.getElem?_map, this]
    rfl
  have e1 : (∃ y' w, ls[j]? = some y' ∧ parentOf G A y' = some w ∧ w ∈ G.orbit x) ↔ ∃ w, parentOf G A y = some w ∧ w ∈ G.orbit x := by
    constructor
    · rintro ⟨y', w, h1, h2⟩
      rw [hy] at h1
      cases h1
      exact ⟨w, h2⟩
    · rintro ⟨w, h2⟩; exact ⟨y, w, hy, h2⟩
  rw [e1]
  rcases leader_parent hT hF ly with ⟨h1, h2, h3⟩ | ⟨h1, h2, l, h3, h4, h5, h6⟩
  · constructor
    · rintro ⟨w, hw, _⟩
      rw [h3] at hw
      cases hw
    · rintro ⟨k, _⟩
      exact absurd k h2
  · rw [and_iff_right h1, h5]
    constructor
    · rintro ⟨w, hw, hwx⟩
      rw [Option.map_eq_some_iff] at hw
      obtain ⟨b, hb, rfl⟩ := hw
      have hbN := ((h3 b).1 (List.mem_of_getLast? hb)).1
      obtain ⟨k1, k2⟩ := (walk_along lx.1).2 ⟨b, hwx, rfl⟩
      exact ⟨_, _, hhead, k1, k2, (first_below (hT := hT') (hn := hn) ly.1 h3 h6 hbN).1 hb⟩
    · rintro ⟨v, e, hv, he, hlo, hfb⟩
      rw [hhead] at hv
      cases hv
      obtain ⟨b, hb, rfl⟩ := (walk_along lx.1).1 ⟨he, hlo⟩
      have hbN : b < G.N := Net.orbit_lt lx.1 hb
      refine ⟨(b, .left), ?_, hb⟩
      rw [(first_below (hT := hT') (hn := hn) ly.1 h3 h6 hbN).2 hfb]
      rfl

end Idc
