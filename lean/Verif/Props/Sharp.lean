import Verif.Props.Lift
import Verif.Props.TidyHoles
/-!
# C80: `compute` in double precision gives exactly what exact arithmetic gives
-/

namespace Idc

open FloatOps

theorem sharp_swap_left (e e' : Pt ℝ × Pt ℝ) : SharpAngle (e.2, e.1) e' ↔ SharpAngle e e' := by
  unfold SharpAngle
  constructor <;> intro h <;> dsimp only at * <;> nlinarith [h]

theorem sharp_swap_right (e e' : Pt ℝ × Pt ℝ) : SharpAngle e (e'.2, e'.1) ↔ SharpAngle e e' := by
  unfold SharpAngle
  constructor <;> intro h <;> dsimp only at * <;> nlinarith [h]

namespace Rings

variable {L : Rings}

theorem net_sharp (hok : Ok L) (h : ∀ e ∈ edges L, ∀ e' ∈ edges L, e ≠ e' → ParallelEdges e e' ∨ SharpAngle e e') {i j : Nat} (hi : i < size L) (hj : j < size L) (hij : i ≠ j) :
    ParallelEdges (lp L i, rp L i) (lp L j, rp L j) ∨ SharpAngle (lp L i, rp L i) (lp L j, rp L j) := by
  have h := h _ (edge_mem hi) _ (edge_mem hj) (edge_ne hok hi hj hij)
  set e := (corner L i, corner L (succ L i)) with he
  set e' := (corner L j, corner L (succ L j)) with he'
  have ei : (lp L i, rp L i) = e ∨ (lp L i, rp L i) = (e.2, e.1) := ends (L := L) i
  have ej : (lp L j, rp L j) = e' ∨ (lp L j, rp L j) = (e'.2, e'.1) := ends (L := L) j
  rcases ei with ei | ei <;> rcases ej with ej | ej <;> rw [ei, ej]
  · exact h
  · rw [parallel_swap_right e e', sharp_swap_right e e']; exact h
  · rw [parallel_swap_left e e', sharp_swap_left e e']; exact h
  · rw [parallel_swap_left e, parallel_swap_right e e', sharp_swap_left e, sharp_swap_right e e']; exact h

theorem net_sharp_off (hok : Ok L) (h : ∀ e ∈ edges L, ∀ e' ∈ edges L, e ≠ e' → ParallelEdges e e' →
    OnLine e e'.1 ∨ ∀ a b, EndOf e a → EndOf e' b → SharpAngle e (a, b)) {i j : Nat} (hi : i < size L) (hj : j < size L) (hij : i ≠ j)
    (hp : ParallelEdges (lp L i, rp L i) (lp L j, rp L j)) :
    OnLine (lp L i, rp L i) (lp L j) ∨ SharpAngle (lp L i, rp L i) (lp L i, lp L j) := by
  have h := h _ (edge_mem hi) _ (edge_mem hj) (edge_ne hok hi hj hij)
  have hp' : ParallelEdges (corner L i, corner L (succ L i)) (corner L j, corner L (succ L j)) := by
    rcases ends (L := L) i with ei | ei <;> rcases ends (L := L) j with ej | ej <;> rw [ei, ej] at hp
    · exact hp
    · exact (parallel_swap_right _ _).1 hp
    · exact (parallel_swap_left _ _).1 hp
    · exact (parallel_swap_left _ _).1 ((parallel_swap_right _ _).1 hp)
  have hj' : lp L j = corner L j ∨ lp L j = corner L (succ L j) := by
    rcases ends (L := L) j with ej | ej
    · left; exact congrArg Prod.fst ej
    · right; exact congrArg Prod.fst ej
  have hi' : lp L i = corner L i ∨ lp L i = corner L (succ L i) := by
    rcases ends (L := L) i with ej | ej
    · left; exact congrArg Prod.fst ej
    · right; exact congrArg Prod.fst ej
  have h2 : OnLine (corner L i, corner L (succ L i)) (lp L j) ∨ SharpAngle (corner L i, corner L (succ L i)) (lp L i, lp L j) := by
    rcases h hp' with g | g
    · left
      rcases hj' with e | e <;> rw [e]
      · exact g
      · exact onLine_parallel hp' g
    · right
      exact g _ _ hi' hj'
  rcases ends (L := L) i with ei | ei <;> rw [ei]
  · exact h2
  · have e1 := onLine_swap (corner L i, corner L (succ L i)) (lp L j)
    have e2 := sharp_swap_left (corner L i, corner L (succ L i)) (lp L i, lp L j)
    dsimp only at e1 e2
    rw [e1, e2]
    exact h2

end Rings

section

variable {F : Type} [FloatOps F] [Double F]

open Double in
/-- Two segments of a net in double precision. -/
theorem touch_of {a b c d : Pt ℤ} (ha : Small (sPt a)) (hb : Small (sPt b)) (hc : Small (sPt c)) (hd : Small (sPt d))
    (hab : LeftOf (asPt ℝ a) (asPt ℝ b)) (hcd : LeftOf (asPt ℝ c) (asPt ℝ d))
    (hap : ∀ q, CommonPoint (asPt ℝ a, asPt ℝ b) (asPt ℝ c, asPt ℝ d) q → EndOf (asPt ℝ a, asPt ℝ b) q ∧ EndOf (asPt ℝ c, asPt ℝ d) q)
    (hang : ParallelEdges (asPt ℝ a, asPt ℝ b) (asPt ℝ c, asPt ℝ d) ∨ SharpAngle (asPt ℝ a, asPt ℝ b) (asPt ℝ c, asPt ℝ d))
    (hoff : ParallelEdges (asPt ℝ a, asPt ℝ b) (asPt ℝ c, asPt ℝ d) → OnLine (asPt ℝ a, asPt ℝ b) (asPt ℝ c) ∨ SharpAngle (asPt ℝ a, asPt ℝ b) (asPt ℝ a, asPt ℝ c)) :
    Touch (intersectSegments (asPt F a, asPt F b) (asPt F c, asPt F d)) (sPt a) (sPt b) (sPt c) (sPt d) := by
  have left : ∀ {p q : Pt ℤ}, LeftOf (asPt ℝ p) (asPt ℝ q) → zLeftOf (sPt p) (sPt q) := by
    intro p q h
    rcases h with h | ⟨h, h'⟩
    · left
      have : (p.x : ℝ) < q.x := h
      exact_mod_cast this
    · right
      have h1 : (p.x : ℝ) = q.x := h
      have h2 : (p.y : ℝ) < q.y := h'
      exact ⟨by exact_mod_cast h1, by exact_mod_cast h2⟩
  have hap' : Apart (sPt a) (sPt b) (sPt c) (sPt d) := hap
  have hpar' : ParallelEdges (asPt ℝ a, asPt ℝ b) (asPt ℝ c, asPt ℝ d) → zKross (sPt a) (sPt b) (sPt c) (sPt d) = 0 := by
    intro h
    have h : ((b.x : ℝ) - a.x) * (d.y - c.y) = (b.y - a.y) * (d.x - c.x) := h
    have h : (b.x - a.x) * (d.y - c.y) = (b.y - a.y) * (d.x - c.x) := by exact_mod_cast h
    show (b.x - a.x) * (d.y - c.y) - (b.y - a.y) * (d.x - c.x) = 0
    rw [h, sub_self]
  rcases hang with hpar | hang
  · rcases hoff hpar with hon | hoff
    · refine intersect_line (F := F) ha hb hc hd (left hab) (left hcd) (hpar' hpar) ?_ hap'
      have h : OnLine (asPt ℝ a, asPt ℝ b) (asPt ℝ c) := hon
      unfold OnLine at h
      have h : ((b.x : ℝ) - a.x) * (c.y - a.y) = (b.y - a.y) * (c.x - a.x) := by
        first
        | exact h
        | (have h2 := h; simp only [asPt, FloatOps.ofInt] at h2; linarith)
      have h : (b.x - a.x) * (c.y - a.y) = (b.y - a.y) * (c.x - a.x) := by exact_mod_cast h
      show (c.x - a.x) * (b.y - a.y) - (c.y - a.y) * (b.x - a.x) = 0
      linarith
    · refine intersect_off (F := F) ha hb hc hd (left hab).ne (hpar' hpar) ?_
      have h : 11 / 10 ^ 8 * (((b.x : ℝ) - a.x) ^ 2 + (b.y - a.y) ^ 2) * ((c.x - a.x) ^ 2 + (c.y - a.y) ^ 2) <
        ((b.x - a.x) * (c.y - a.y) - (b.y - a.y) * (c.x - a.x)) ^ 2 := hoff
      have h : (11 : ℝ) * (((b.x : ℝ) - a.x) * (b.x - a.x) + (b.y - a.y) * (b.y - a.y)) * ((c.x - a.x) * (c.x - a.x) + (c.y - a.y) * (c.y - a.y)) <
        10 ^ 8 * ((c.x - a.x) * (b.y - a.y) - (c.y - a.y) * (b.x - a.x)) ^ 2 := by
        rw [show ((c.x : ℝ) - a.x) * (b.y - a.y) - (c.y - a.y) * (b.x - a.x) = -((b.x - a.x) * (c.y - a.y) - (b.y - a.y) * (c.x - a.x)) by ring, neg_sq]
        linarith
      exact_mod_cast h
  · refine intersect_angle (F := F) ha hb hc hd (left hab).ne (left hcd).ne ?_ hap'
    have h : 11 / 10 ^ 8 * (((b.x : ℝ) - a.x) ^ 2 + (b.y - a.y) ^ 2) * ((d.x - c.x) ^ 2 + (d.y - c.y) ^ 2) <
      ((b.x - a.x) * (d.y - c.y) - (b.y - a.y) * (d.x - c.x)) ^ 2 := hang
    have h : (11 : ℝ) * (((b.x : ℝ) - a.x) * (b.x - a.x) + (b.y - a.y) * (b.y - a.y)) * ((d.x - c.x) * (d.x - c.x) + (d.y - c.y) * (d.y - c.y)) <
      10 ^ 8 * ((b.x - a.x) * (d.y - c.y) - (b.y - a.y) * (d.x - c.x)) ^ 2 := by
      linarith
    exact_mod_cast h

theorem asPt_real_inj {p q : Pt ℤ} (h : asPt ℝ p = asPt ℝ q) : p = q := by
  have hx : (p.x : ℝ) = q.x := congrArg Pt.x h
  have hy : (p.y : ℝ) = q.y := congrArg Pt.y h
  obtain ⟨px, py⟩ := p
  obtain ⟨qx, qy⟩ := q
  have hx : px = qx := by exact_mod_cast hx
  have hy : py = qy := by exact_mod_cast hy
  rw [hx, hy]

/-- A net of sharp outlines is handled in the same way by the two arithmetics. -/
theorem quiet_of {G : Net} {A : Arena ℤ} (hlen : A.length = G.N) (his : ∀ i (s : BoolSegment ℤ), A[i]? = some s → G.Is i (asSeg ℝ s)) (hs : SmallA A)
    (hang : ∀ i j, i < G.N → j < G.N → i ≠ j → ParallelEdges (G.lp i, G.rp i) (G.lp j, G.rp j) ∨ SharpAngle (G.lp i, G.rp i) (G.lp j, G.rp j))
    (hoff : ∀ i j, i < G.N → j < G.N → i ≠ j → ParallelEdges (G.lp i, G.rp i) (G.lp j, G.rp j) →
      OnLine (G.lp i, G.rp i) (G.lp j) ∨ SharpAngle (G.lp i, G.rp i) (G.lp i, G.lp j)) : Quiet ℝ F A := by
  have lt : ∀ {i : Nat} {s : BoolSegment ℤ}, A[i]? = some s → i < G.N := fun h => hlen ▸ (List.getElem?_eq_some_iff.1 h).1
  have hl : ∀ {i : Nat} {s : BoolSegment ℤ}, A[i]? = some s → G.lp i = asPt ℝ s.left_point := fun h => (his _ _ h).left.symm
  have hr : ∀ {i : Nat} {s : BoolSegment ℤ}, A[i]? = some s → G.rp i = asPt ℝ s.right_point := fun h => (his _ _ h).right.symm
  have sm : ∀ {i : Nat} {s : BoolSegment ℤ}, A[i]? = some s → SmallS s := fun h => hs _ (List.mem_of_getElem? h)
  refine ⟨hs, ?_, ?_, ?_, ?_⟩
  · intro i j s t h h' hij
    refine Or.inl ⟨?_, ?_⟩
    · have := Net.intersect_net (G := G) (lt h) (lt h') hij
      rw [hl h, hr h, hl h', hr h'] at this
      unfold EndTouch
      rcases this with e | ⟨p, e, e1, e2⟩
      · left; exact e
      · right
        obtain ⟨z, rfl, hz⟩ : ∃ z, p = asPt ℝ z ∧ (z = s.left_point ∨ z = s.right_point) := by
          rcases e1 with e1 | e1
          · exact ⟨_, e1, Or.inl rfl⟩
          · exact ⟨_, e1, Or.inr rfl⟩
        refine ⟨asPt ℝ z, z, e, ?_, hz, ?_⟩
        · have hsm : Small (sPt z) := by
            rcases hz with rfl | rfl
            · exact (sm h).left
            · exact (sm h).right
          have := hsm.pt (F := ℝ)
          exact ⟨⟨this.1.1, this.1.2.trans (by norm_num)⟩, ⟨this.2.1, this.2.2.trans (by norm_num)⟩⟩
        · rcases e2 with e2 | e2
          · left; exact asPt_real_inj e2
          · right; exact asPt_real_inj e2
    · have w := G.wf i (lt h)
      have w' := G.wf j (lt h')
      have ap := G.apart i (lt h) j (lt h') hij
      have an := hang i j (lt h) (lt h') hij
      have o := hoff i j (lt h) (lt h') hij
      rw [hl h, hr h] at w
      rw [hl h', hr h'] at w'
      rw [hl h, hr h, hl h', hr h'] at ap an o
      have := touch_of (F := F) (sm h).left (sm h).right (sm h').left (sm h').right w w' ap an o
      unfold EndTouch
      rcases this with e | ⟨p, z, e, hp, h1, h2⟩
      · left; exact e
      · right
        refine ⟨p, ⟨z.1, z.2⟩, e, hp, ?_, ?_⟩
        · rcases h1 with rfl | rfl
          · left; rfl
          · right; rfl
        · rcases h2 with e | e
          · left; exact sPt_inj e
          · right; exact sPt_inj e
  · intro s hsA
    obtain ⟨i, h⟩ := List.getElem?_of_mem hsA
    have w := (G.wf i (lt h)).ne
    rw [hl h, hr h] at w
    have := intersect_collinear (asPt ℝ s.left_point, asPt ℝ s.right_point) w 0 1
    have e0 : linePt (asPt ℝ s.left_point, asPt ℝ s.right_point) 0 = asPt ℝ s.left_point := by simp [linePt]
    have e1 : linePt (asPt ℝ s.left_point, asPt ℝ s.right_point) 1 = asPt ℝ s.right_point := by simp [linePt]
    rw [e0, e1, if_neg (by norm_num), if_neg (by norm_num)] at this
    exact ⟨_, _, this⟩
  · intro i s h
    exact (his i s h).index
  · intro i j k s t u e₀ e' e'' h h' h'' hij hik h1 h2
    obtain ⟨e, rfl⟩ : ∃ e : SegmentEnd, e₀ = e.other := ⟨e₀.other, by cases e₀ <;> rfl⟩
    have ho : s.otherPointAt e.other = s.pointAt e := by cases e <;> rfl
    rw [ho] at h1 h2
    have pt : ∀ {i : Nat} {s : BoolSegment ℤ} (e : SegmentEnd), A[i]? = some s → G.pt (i, e) = asPt ℝ (s.pointAt e) := by
      intro i s e h
      rw [← (his i s h).pointAt e]
      cases e <;> rfl
    have c1 := G.at_corner (x := (i, e)) (y := (j, e')) (lt h) (lt h') (by rw [pt e h, pt e' h', h1])
    have c2 := G.at_corner (x := (i, e)) (y := (k, e'')) (lt h) (lt h'') (by rw [pt e h, pt e'' h'', h2])
    have c1 := c1.resolve_left fun x => hij (congrArg Prod.fst x).symm
    have c2 := c2.resolve_left fun x => hik (congrArg Prod.fst x).symm
    have := c1.trans c2.symm
    obtain rfl : j = k := congrArg Prod.fst this
    obtain rfl : e' = e'' := congrArg Prod.snd this
    rw [h'] at h''
    cases h''
    intro _
    rw [IntVal.lt_self, IntVal.lt_self]

/-! ### The whole -/

theorem asContour_real_inj {c d : Contour ℤ} (h : asContour ℝ c = asContour ℝ d) : c = d := by
  obtain ⟨p, a1, a2, a3, a4, a5⟩ := c
  obtain ⟨q, b1, b2, b3, b4, b5⟩ := d
  simp only [asContour, Contour.mk.injEq] at h ⊢
  exact ⟨List.map_injective_iff.2 (fun _ _ => asPt_real_inj) h.1, h.2⟩

theorem asPolygon_real_inj {p q : Polygon ℤ} (h : asPolygon ℝ p = asPolygon ℝ q) : p = q := by
  obtain ⟨p⟩ := p
  obtain ⟨q⟩ := q
  simp only [asPolygon, Polygon.mk.injEq] at h ⊢
  exact List.map_injective_iff.2 (fun _ _ => asContour_real_inj) h

theorem mem_allCorners {polys : List (Polygon ℤ × PolygonMode)} {p : Polygon ℤ × PolygonMode} (hp : p ∈ polys) {c : Contour ℤ} (hc : c ∈ p.1.contours) {q : Pt ℤ}
    (hq : q ∈ c.points) : asPt ℝ q ∈ allCorners (asPolygons ℝ polys) := by
  unfold allCorners asPolygons
  rw [List.flatMap_map]
  refine List.mem_flatMap.2 ⟨p, hp, List.mem_flatMap.2 ⟨asContour ℝ c, ?_, ?_⟩⟩
  · exact List.mem_map_of_mem hc
  · exact List.mem_map_of_mem hq

theorem Sharp.smallC {polys : List (Polygon ℤ × PolygonMode)} (hS : Sharp (asPolygons ℝ polys)) : ∀ p ∈ polys, ∀ c ∈ p.1.contours, SmallC c := by
  intro p hp c hc q hq
  have h := hS.box _ (mem_allCorners hp hc hq)
  have h1 : |(q.x : ℝ)| ≤ 2 ^ 15 := h.1
  have h2 : |(q.y : ℝ)| ≤ 2 ^ 15 := h.2
  exact ⟨by exact_mod_cast h1, by exact_mod_cast h2⟩

theorem Sharp.quiet {lib : Lib} (hl : lib.Lawful) {polys : List (Polygon ℤ × PolygonMode)} (hT : Tidy (asPolygons ℝ polys)) (hS : Sharp (asPolygons ℝ polys))
    (hm : ∀ p ∈ polys, p.2 ≠ .removeEdges) (st : SweepState ℤ)
    (hst : addPolygons lib polys.length 0 (asPolygons ℝ polys) ⟨[], [], [], []⟩ = .ok (asState ℝ st)) (hs : SmallSt st) : Quiet ℝ F st.arena := by
  have hT' := Rings.tidy_of hT
  have hlen : (asPolygons ℝ polys).length = polys.length := List.length_map ..
  have hn : ∀ r ∈ Rings.ofPolygons 0 (asPolygons ℝ polys), r.1 < (asPolygons ℝ polys).length := by
    intro r hr
    obtain ⟨k, p, c, rfl, h1, _⟩ := (Rings.mem_ofPolygons 0 _ r).1 hr
    have := (List.getElem?_eq_some_iff.1 h1).1
    show 0 + k < _
    omega
  have hm' : ∀ p ∈ asPolygons ℝ polys, p.2 ≠ .removeEdges := by
    intro p hp
    obtain ⟨p', h', rfl⟩ := List.mem_map.1 hp
    exact hm p' h'
  obtain ⟨Heap, hh⟩ := hl.heapOk
  obtain ⟨st', e1, h1⟩ := Rings.addPolygons_net (hT := hT') (hn := hn) hh (asPolygons ℝ polys) 0 [] ⟨[], [], [], []⟩ hm' rfl (Net.loaded_nil hh)
  rw [hlen, hst] at e1
  cases e1
  have hA : st.arena.length = Rings.size (Rings.ofPolygons 0 (asPolygons ℝ polys)) := by
    rw [← h1.length]
    exact (List.length_map ..).symm
  refine quiet_of (G := Rings.net _ hT' _ hn) hA ?_ hs ?_ ?_
  · intro i s h
    have hi : i < Rings.size (Rings.ofPolygons 0 (asPolygons ℝ polys)) := hA ▸ (List.getElem?_eq_some_iff.1 h).1
    obtain ⟨s', mode, e, his, _⟩ := h1.seg i hi
    have e' : (st.arena.map (asSeg ℝ))[i]? = some s' := e
    rw [List.getElem?_map, h] at e'
    cases e'
    exact his
  · intro i j hi hj hij
    refine Rings.net_sharp hT'.ok ?_ hi hj hij
    rw [Rings.ofPolygons_edges]
    exact hS.angles
  · intro i j hi hj hij hp
    refine Rings.net_sharp_off hT'.ok ?_ hi hj hij hp
    rw [Rings.ofPolygons_edges]
    exact hS.distances

/-- The outlines of the result are not longer than those of the input. -/
theorem expected_length {polygons : List (Polygon ℝ × PolygonMode)} {q : List (Pt ℝ)} {flags : List Bool} (h : Expected polygons q flags) {n : Nat}
    (hn : ∀ p ∈ polygons, ∀ c ∈ p.1.contours, c.points.length ≤ n) : q.length ≤ n := by
  obtain ⟨_, k, p, c, v, hp, hc, _, h⟩ := h
  have hlen : q.length = c.points.length := by
    have : q ~r c.points ∨ q ~r c.points.reverse := by
      rcases h with ⟨⟨_, _, _, ⟨h, _⟩, _⟩, _⟩ | ⟨⟨_, _, _, ⟨h, _⟩, _⟩, _⟩ <;> exact h
    rcases this with h | h
    · exact h.perm.length_eq
    · rw [h.perm.length_eq, List.length_reverse]
  rw [hlen]
  exact hn p (List.mem_of_getElem? hp) c hc

/-- **C80.** For polygons whose outlines neither touch nor cross, with whole coordinates as in a map and a bit of room at
their angles, `compute` in double precision returns, bit by bit, the very result that exact arithmetic gives: the same
contours in the same order, with the same corners, holes, neighbors and flags. -/
theorem C80_same {lib : Lib} (hl : lib.Lawful) {polys : List (Polygon ℤ × PolygonMode)} (hT : Tidy (asPolygons ℝ polys)) (hS : Sharp (asPolygons ℝ polys))
    (hm : ∀ p ∈ polys, p.2 ≠ .removeEdges) (op : BooleanOpType) :
    ∃ z : Polygon ℤ, ∀ fuel, 2 * (allCorners (asPolygons ℝ polys)).length < fuel →
      compute lib fuel (asPolygons ℝ polys) op = .ok (asPolygon ℝ z) ∧ compute lib fuel (asPolygons F polys) op = .ok (asPolygon F z) := by
  have hm' : ∀ p ∈ asPolygons ℝ polys, p.2 ≠ .removeEdges := by
    intro p hp
    obtain ⟨p', h', rfl⟩ := List.mem_map.1 hp
    exact hm p' h'
  obtain ⟨r, hr, _, hexp⟩ := C76_disjoint hl hT hm' op
  have key : ∀ fuel, 2 * (allCorners (asPolygons ℝ polys)).length < fuel →
      ∃ z, r = asPolygon ℝ z ∧ compute lib fuel (asPolygons F polys) op = .ok (asPolygon F z) := by
    intro fuel hf
    have := sim_compute (E := ℝ) (F := F) lib fuel polys op hS.smallC (fun st hst hs => hS.quiet hl hT hm st hst hs) (by
      intro r' hr' c hc
      have hr' : compute lib fuel (asPolygons ℝ polys) op = .ok r' := hr'
      rw [hr fuel hf] at hr'
      cases hr'
      exact expected_length ((hexp c.points c.from_polygons).1 ⟨c, hc, rfl, rfl⟩) hS.count)
    obtain ⟨z, _, e1, e2⟩ := this r (hr fuel hf)
    exact ⟨z, e1, e2⟩
  obtain ⟨z, e, _⟩ := key (2 * (allCorners (asPolygons ℝ polys)).length + 1) (Nat.lt_succ_self _)
  refine ⟨z, fun fuel hf => ⟨by rw [hr fuel hf, e], ?_⟩⟩
  obtain ⟨z', e', h⟩ := key fuel hf
  rw [asPolygon_real_inj (e.symm.trans e')]
  exact h

/-- **C80, C76 in double precision.** `compute` ends without a panic, and the outlines of its result are exactly the
expected ones, each once. -/
theorem C80_outlines {lib : Lib} (hl : lib.Lawful) {polys : List (Polygon ℤ × PolygonMode)} (hT : Tidy (asPolygons ℝ polys)) (hS : Sharp (asPolygons ℝ polys))
    (hm : ∀ p ∈ polys, p.2 ≠ .removeEdges) (op : BooleanOpType) :
    ∃ z : Polygon ℤ, (∀ fuel, 2 * (allCorners (asPolygons ℝ polys)).length < fuel → compute lib fuel (asPolygons F polys) op = .ok (asPolygon F z)) ∧
      (z.contours.map fun c => c.points).Nodup ∧
      ∀ q flags, (∃ c ∈ z.contours, c.points.map (asPt ℝ) = q ∧ c.from_polygons = flags) ↔ Expected (asPolygons ℝ polys) q flags := by
  obtain ⟨z, hz⟩ := C80_same (F := F) hl hT hS hm op
  have hm' : ∀ p ∈ asPolygons ℝ polys, p.2 ≠ .removeEdges := by
    intro p hp
    obtain ⟨p', h', rfl⟩ := List.mem_map.1 hp
    exact hm p' h'
  obtain ⟨r, hr, hnd, hexp⟩ := C76_disjoint hl hT hm' op
  have e := hr _ (Nat.lt_succ_self _)
  rw [(hz _ (Nat.lt_succ_self _)).1] at e
  cases e
  refine ⟨z, fun fuel hf => (hz fuel hf).2, ?_, fun q flags => ?_⟩
  · rw [show (asPolygon ℝ z).contours = z.contours.map (asContour ℝ) from rfl, List.map_map] at hnd
    have e : (fun c : Contour ℝ => c.points) ∘ asContour ℝ = List.map (asPt ℝ) ∘ fun c : Contour ℤ => c.points := rfl
    rw [e, ← List.map_map] at hnd
    exact hnd.of_map
  · rw [← hexp]
    constructor
    · rintro ⟨c, hc, h1, h2⟩
      exact ⟨asContour ℝ c, List.mem_map_of_mem hc, h1, h2⟩
    · rintro ⟨c, hc, h1, h2⟩
      obtain ⟨c', hc', rfl⟩ := List.mem_map.1 hc
      exact ⟨c', hc', h1, h2⟩

/-- **C80, C77 in double precision.** The contours that go around clockwise are exactly the holes; they are listed with the
contour that has the first edge below their leftmost corner. -/
theorem C80_holes {lib : Lib} (hl : lib.Lawful) {polys : List (Polygon ℤ × PolygonMode)} (hT : Tidy (asPolygons ℝ polys)) (hS : Sharp (asPolygons ℝ polys))
    (hm : ∀ p ∈ polys, p.2 ≠ .removeEdges) (op : BooleanOpType) :
    ∃ z : Polygon ℤ, (∀ fuel, 2 * (allCorners (asPolygons ℝ polys)).length < fuel → compute lib fuel (asPolygons F polys) op = .ok (asPolygon F z)) ∧
      (∀ c ∈ z.contours, (c.external = true ↔ Counterclockwise (c.points.map (asPt ℝ)) (c.points.map (asPt ℝ))) ∧
        (c.external = false ↔ Clockwise (c.points.map (asPt ℝ)) (c.points.map (asPt ℝ)))) ∧
      ∀ (i j : Nat) (c h : Contour ℤ), z.contours[i]? = some c → z.contours[j]? = some h →
        (j ∈ c.holes ↔ Clockwise (h.points.map (asPt ℝ)) (h.points.map (asPt ℝ)) ∧
          ∃ v e, (h.points.map (asPt ℝ)).head? = some v ∧ e ∈ closedEdges (c.points.map (asPt ℝ)) ∧ LeftOf e.1 e.2 ∧ FirstBelow (allEdges (asPolygons ℝ polys)) v e) := by
  obtain ⟨z, hz⟩ := C80_same (F := F) hl hT hS hm op
  have hm' : ∀ p ∈ asPolygons ℝ polys, p.2 ≠ .removeEdges := by
    intro p hp
    obtain ⟨p', h', rfl⟩ := List.mem_map.1 hp
    exact hm p' h'
  have hr := (hz _ (Nat.lt_succ_self _)).1
  refine ⟨z, fun fuel hf => (hz fuel hf).2, fun c hc => ?_, fun i j c h hc hh => ?_⟩
  · exact C77_external hl hT hm' op (Nat.lt_succ_self _) hr (c := asContour ℝ c) (List.mem_map_of_mem hc)
  · have e : ∀ {i : Nat} {c : Contour ℤ}, z.contours[i]? = some c → (asPolygon ℝ z).contours[i]? = some (asContour ℝ c) := by
      intro i c h
      show (z.contours.map (asContour ℝ))[i]? = _
      rw [List.getElem?_map, h]
      rfl
    exact C77_holes hl hT hm' op (Nat.lt_succ_self _) hr (e hc) (e hh)

end

end Idc
