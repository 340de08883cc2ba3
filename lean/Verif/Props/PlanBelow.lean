import Verif.Props.Plan
import Verif.Props.Below
/-!
# The edge below an edge, for C81
-/

namespace Idc

namespace Plan

variable {G : Plan}

/-- Below, for the sweep, is below. -/
theorem below_iff {x : EndId} (hx : x.1 ∈ G.S) {k : ℕ} (hk : k ∈ G.S) :
    (G.a k < G.time (G.pt x) ∧ G.time (G.pt x) < G.b k ∧ G.h k (G.time (G.pt x)) < (G.pt x).y) ↔ CrossesBelow (G.pt x) (G.lp k, G.rp k) := by
  rw [crosses_iff (G.wf k hk)]
  have h1 : LeftOf (G.lp k) (G.pt x) ↔ G.a k < G.time (G.pt x) := G.leftOf_iff (x := (k, .left)) hk hx
  have h2 : LeftOf (G.pt x) (G.rp k) ↔ G.time (G.pt x) < G.b k := G.leftOf_iff (y := (k, .right)) hx hk
  rw [h1, h2]
  refine and_congr_right fun _ => and_congr_right fun _ => ?_
  have ha := G.area_h' hk (G.pt x)
  simp only [triangleSignedArea, FloatOps.sub, FloatOps.mul] at ha
  have hab := G.a_lt_b hk
  have e : (G.b k - G.a k) * ((G.pt x).y - G.h k (G.time (G.pt x))) =
      ((G.rp k).x - (G.lp k).x) * ((G.pt x).y - (G.lp k).y) - ((G.rp k).y - (G.lp k).y) * ((G.pt x).x - (G.lp k).x) := by
    linear_combination ha
  rw [← e]
  constructor
  · intro h; exact mul_pos (by linarith) (by linarith)
  · intro h
    have := pos_of_mul_pos_right h (by linarith)
    linarith

/-- A segment that is higher where the sweep line meets a corner is nowhere lower. -/
theorem higher (hε : 0 < G.eps) {v : EndId} (hv : v.1 ∈ G.S) {k k' : ℕ} (hk : k ∈ G.S) (hk' : k' ∈ G.S) (hc : CrossesBelow (G.pt v) (G.lp k, G.rp k))
    (hc' : CrossesBelow (G.pt v) (G.lp k', G.rp k')) (hlt : G.h k' (G.time (G.pt v)) < G.h k (G.time (G.pt v))) {x : ℝ}
    (ho : Over (G.lp k, G.rp k) x) (ho' : Over (G.lp k', G.rp k') x) : heightAt (G.lp k', G.rp k') x ≤ heightAt (G.lp k, G.rp k) x := by
  have hne : ¬ G.Same k k' := fun hs => by rw [hs.h] at hlt; exact lt_irrefl _ hlt
  obtain ⟨a1, a2, a3⟩ := (below_iff hv hk).2 hc
  obtain ⟨b1, b2, b3⟩ := (below_iff hv hk').2 hc'
  have lx : ∀ {i}, i ∈ G.S → CrossesBelow (G.pt v) (G.lp i, G.rp i) → (G.lp i).x < (G.rp i).x ∧ (G.lp i).x ≤ (G.pt v).x := by
    intro i hi hc
    have h1 := crosses_x hc
    have h2 := G.wf i hi
    have h3 : (G.lp i).x < (G.rp i).x := by
      rcases h2 with h | h
      · exact h
      · exact absurd h.1 h1
    refine ⟨h3, ?_⟩
    have := hc.1
    rwa [min_eq_left (by exact h3.le)] at this
  obtain ⟨kx, kv⟩ := lx hk hc
  obtain ⟨kx', kv'⟩ := lx hk' hc'
  set T := G.time (G.pt v) with hT
  have hTv : T = (G.pt v).x + G.eps * (G.pt v).y := rfl
  -- the points of the segments on the sweep line
  have on := G.at_on hk a1.le a2.le
  have on' := G.at_on hk' b1.le b2.le
  have px : (G.at_ k T).x = T - G.eps * G.h k T := rfl
  have py : (G.at_ k T).y = G.h k T := rfl
  have px' : (G.at_ k' T).x = T - G.eps * G.h k' T := rfl
  have m1 := mul_lt_mul_of_pos_left hlt hε
  have m2 := mul_lt_mul_of_pos_left a3 hε
  have q1 : (G.pt v).x < (G.at_ k T).x := by rw [px, hTv]; rw [hTv] at m2; linarith
  have q2 : (G.at_ k T).x < (G.at_ k' T).x := by rw [px, px']; linarith
  have range : ∀ {i}, (G.lp i).x < (G.rp i).x → ∀ {p}, OnSegment (G.lp i, G.rp i) p → p.x ≤ (G.rp i).x := by
    rintro i hi p ⟨t, t0, t1, hx, _⟩
    dsimp only at hx
    have := mul_le_mul_of_nonneg_right t1 (show 0 ≤ (G.rp i).x - (G.lp i).x by linarith)
    linarith
  have q3 := range kx' on'
  have q4 : (G.at_ k T).x < (G.rp k).x := by
    refine lt_of_le_of_ne (range kx on) ?_
    intro e
    obtain ⟨t, t0, t1, hx, hy⟩ := on
    dsimp only at hx hy
    have ht : t = 1 := by
      have : (t - 1) * ((G.rp k).x - (G.lp k).x) = 0 := by linarith
      have := (mul_eq_zero.1 this).resolve_right (by linarith)
      linarith
    rw [ht, py] at hy
    rw [px] at hx
    have : T = G.b k := by
      show T = (G.rp k).x + G.eps * (G.rp k).y
      rw [ht] at hx
      have hy : G.h k T = (G.rp k).y := by linarith
      rw [hy] at hx
      linarith
    linarith
  -- there, the other segment is below
  have low : heightAt (G.lp k', G.rp k') (G.at_ k T).x < heightAt (G.lp k, G.rp k) (G.at_ k T).x := by
    rw [heightAt_on (e := (G.lp k, G.rp k)) kx on, py]
    have ha := G.area_h' hk' (G.at_ k T)
    have ht : G.time (G.at_ k T) = T := by
      show (G.at_ k T).x + G.eps * (G.at_ k T).y = T
      rw [px, py]; ring
    rw [ht, py] at ha
    simp only [triangleSignedArea, FloatOps.sub, FloatOps.mul] at ha
    have hab := G.a_lt_b hk'
    have hneg : (G.b k' - G.a k') * (G.h k' T - G.h k T) < 0 := mul_neg_of_pos_of_neg (by linarith) (by linarith)
    have e : ((G.rp k').x - (G.lp k').x) * (heightAt (G.lp k', G.rp k') (G.at_ k T).x - G.h k T) = (G.b k' - G.a k') * (G.h k' T - G.h k T) := by
      unfold heightAt
      dsimp only
      have hd : (G.rp k').x - (G.lp k').x ≠ 0 := by linarith
      rw [← ha, py]
      field_simp
      ring
    rw [← e] at hneg
    have := neg_of_mul_neg_right hneg (by linarith)
    linarith
  by_contra hn
  rw [not_le] at hn
  obtain ⟨z, z0, z1, z2⟩ := affine_zero (f := fun x => heightAt (G.lp k', G.rp k') x - heightAt (G.lp k, G.rp k) x)
    (m := ((G.rp k').y - (G.lp k').y) / ((G.rp k').x - (G.lp k').x) - ((G.rp k).y - (G.lp k).y) / ((G.rp k).x - (G.lp k).x))
    (c := (G.lp k').y - (G.lp k').x * (((G.rp k').y - (G.lp k').y) / ((G.rp k').x - (G.lp k').x)) -
      ((G.lp k).y - (G.lp k).x * (((G.rp k).y - (G.lp k).y) / ((G.rp k).x - (G.lp k).x)))) (by intro u; unfold heightAt; ring)
    (x := x) (y := (G.at_ k T).x) (by linarith) (by linarith)
  unfold Over at ho ho'
  dsimp only at ho ho'
  rw [min_eq_left kx.le, max_eq_right kx.le] at ho
  rw [min_eq_left kx'.le, max_eq_right kx'.le] at ho'
  have zl : (G.lp k).x < z := lt_of_le_of_lt (le_min ho.1 (by linarith)) z1
  have zr : z < (G.rp k).x := lt_of_lt_of_le z2 (max_le ho.2 (by linarith))
  have zl' : (G.lp k').x < z := lt_of_le_of_lt (le_min ho'.1 (by linarith)) z1
  have zr' : z < (G.rp k').x := lt_of_lt_of_le z2 (max_le ho'.2 (by linarith))
  have o1 := onSegment_over (e := (G.lp k, G.rp k)) kx zl.le zr.le
  have o2 := onSegment_over (e := (G.lp k', G.rp k')) kx' zl'.le zr'.le
  rw [show heightAt (G.lp k', G.rp k') z = heightAt (G.lp k, G.rp k) z by linarith] at o2
  rcases (G.apart' hk hk' hne ⟨o1, o2⟩).1 with e | e
  · have : z = (G.lp k).x := congrArg Pt.x e
    linarith
  · have : z = (G.rp k).x := congrArg Pt.x e
    linarith


/-! ### Edges from one point -/

theorem dt_pos_left {i : ℕ} (hi : i ∈ G.S) : 0 < G.dt (i, .left) := by
  have := G.a_lt_b hi
  show 0 < G.b i - G.a i
  linarith

theorem crs_h {i j : ℕ} (hi : i ∈ G.S) (hj : j ∈ G.S) (h : G.lp j = G.lp i) {t : ℝ} (ht : G.a i < t) :
    (0 < G.crs (j, .left) (i, .left) ↔ G.h j t < G.h i t) ∧ (0 ≤ G.crs (j, .left) (i, .left) ↔ G.h j t ≤ G.h i t) := by
  have ha : G.a j = G.a i := by unfold Plan.a; rw [h]
  have hpos := mul_pos (dt_pos_left hj) (dt_pos_left hi)
  have e : G.h i t - G.h j t = (t - G.a i) * (G.sl i - G.sl j) := by rw [G.h_eq, G.h_eq, ha, h]; ring
  have ht' : 0 < t - G.a i := by linarith
  rw [crs_sl (x := (j, .left)) (y := (i, .left)) hj hi]
  constructor
  · rw [mul_pos_iff_of_pos_left hpos, ← sub_pos (a := G.h i t), e, mul_pos_iff_of_pos_left ht']
  · rw [mul_nonneg_iff_of_pos_left hpos, ← sub_nonneg (a := G.h i t), e, mul_nonneg_iff_of_pos_left ht']

/-- What is alive just after a segment starts. -/
theorem alive_cases {i k : ℕ} (hi : i ∈ G.S) (h : G.Alive (G.tau i) k) : G.lp k = G.lp i ∨ G.a k < G.a i ∧ G.a i < G.b k := by
  obtain ⟨h1, h2⟩ := (G.alive_tau h.1).1 h.2
  rcases lt_or_eq_of_le h1 with h1 | h1
  · exact Or.inr ⟨h1, h2⟩
  · exact Or.inl (G.time_inj (x := (k, .left)) (y := (i, .left)) h.1 hi h1)

theorem alive_of_start {i k : ℕ} (hk : k ∈ G.S) (h : G.lp k = G.lp i) : G.Alive (G.tau i) k := by
  have ha : G.a k = G.a i := by unfold Plan.a; rw [h]
  have hb := G.a_lt_b hk
  exact ⟨hk, (G.alive_tau hk).2 ⟨ha.le, ha ▸ hb⟩⟩

/-- A segment that is there before another one starts is below it if it is below its start. -/
theorem crosses_low {i k : ℕ} (hi : i ∈ G.S) (hk : k ∈ G.S) (h1 : G.a k < G.a i) (h2 : G.a i < G.b k) :
    G.h k (G.tau i) < G.h i (G.tau i) ↔ CrossesBelow (G.lp i) (G.lp k, G.rp k) := by
  show _ ↔ CrossesBelow (G.pt (i, .left)) (G.lp k, G.rp k)
  rw [← below_iff (x := (i, .left)) hi hk]
  have hal := (G.alive_tau (i := i) hk).2 ⟨h1.le, h2⟩
  have ti := G.a_lt_tau i
  have tb := G.tau_lt_b hi
  have hab := G.a_lt_b hi
  constructor
  · intro h
    refine ⟨h1, h2, ?_⟩
    rcases lt_trichotomy (G.h k (G.a i)) (G.lp i).y with g | g | g
    · exact g
    · exact absurd g (G.h_ne hk (x := (i, .left)) hi h1 h2)
    · exfalso
      rw [← G.h_left] at g
      have := G.order_lift hi hk le_rfl hab.le h1.le h2.le ti tb hal.1 hal.2 g
      linarith
  · rintro ⟨_, _, h⟩
    have h : G.h k (G.a i) < (G.lp i).y := h
    rw [← G.h_left] at h
    exact G.order_lift hk hi h1.le h2.le le_rfl hab.le hal.1 hal.2 ti tb h

section
variable {polys : List (Polygon ℝ × PolygonMode)} {hP : Planar polys}

theorem slant_ofPolys : 0 < (ofPolys polys hP).eps := slant_pos polys

theorem drawn_right {u : Pt ℝ × Pt ℝ} (hu : Drawn polys u) (hl : LeftOf u.1 u.2) : ∃ j, (ofPolys polys hP).Top j ∧ u = ((ofPolys polys hP).lp j, (ofPolys polys hP).rp j) := by
  obtain ⟨⟨j, e⟩, hz, rfl⟩ := drawn_top (hP := hP) hu
  have := (edge_left hz.1).1 hl
  dsimp only at this
  subst this
  exact ⟨j, hz, rfl⟩

/-- A crossed edge, from left to right. -/
theorem crossed {v : Pt ℝ} {e : Pt ℝ × Pt ℝ} (he : e ∈ allEdges polys) (hc : CrossesBelow v e) : ∃ j, (ofPolys polys hP).Top j ∧
    CrossesBelow v ((ofPolys polys hP).lp j, (ofPolys polys hP).rp j) ∧ (∀ x, Over e x ↔ Over ((ofPolys polys hP).lp j, (ofPolys polys hP).rp j) x) ∧
    ∀ x, heightAt e x = heightAt ((ofPolys polys hP).lp j, (ofPolys polys hP).rp j) x := by
  have hx := crosses_x hc
  have hne : e.1 ≠ e.2 := fun h => hx (by rw [h])
  have hd : Drawn polys e := ⟨hne, Or.inl he⟩
  rcases LeftOf.total hne with hl | hl
  · obtain ⟨j, hj, rfl⟩ := drawn_right (hP := hP) hd hl
    exact ⟨j, hj, hc, fun _ => Iff.rfl, fun _ => rfl⟩
  · obtain ⟨j, hj, e'⟩ := drawn_right (hP := hP) (Drawn.swap hd) hl
    refine ⟨j, hj, ?_, ?_, ?_⟩
    · rw [← e']; exact (crosses_swap v).2 hc
    · intro x; rw [← e']; exact (over_swap e x).symm
    · intro x; rw [← e']; exact (heightAt_swap hx x).symm

theorem nextBelow_of {i k : ℕ} (hi : (ofPolys polys hP).Top i) (h : (ofPolys polys hP).Under' i k) :
    NextBelow polys ((ofPolys polys hP).lp i, (ofPolys polys hP).rp i) ((ofPolys polys hP).lp k, (ofPolys polys hP).rp k) := by
  have hk := h.top
  set G := ofPolys polys hP with hG
  have ti := G.a_lt_tau i
  refine ⟨top_drawn (z := (k, .left)) hk, G.wf k hk.1, ?_⟩
  rcases alive_cases hi.1 h.alive with hs | ⟨h1, h2⟩
  · left
    refine ⟨hs, (crs_h hi.1 hk.1 hs ti).1.2 h.low, ?_⟩
    intro u hu hl hu1 hc
    obtain ⟨j, hj, rfl⟩ := drawn_right (hP := hP) hu hl
    have hlow := (crs_h hi.1 hj.1 hu1 ti).1.1 hc
    have hmax := h.max j (alive_of_start hj.1 hu1) hlow
    have hjk : G.lp j = G.lp k := by rw [hs]; exact hu1
    have ha : G.a k = G.a i := by unfold Plan.a; rw [hs]
    refine (crs_h hk.1 hj.1 hjk (by rw [ha]; exact ti)).2.2 ?_
    by_contra hn
    exact hmax (Or.inl (not_le.1 hn))
  · right
    constructor
    · intro u hu hl hu1 hc
      obtain ⟨j, hj, rfl⟩ := drawn_right (hP := hP) hu hl
      have hlow := (crs_h hi.1 hj.1 hu1 ti).1.1 hc
      have hal := alive_of_start hj.1 hu1
      refine h.max j hal hlow (Or.inl ?_)
      have hcr := (crosses_low hi.1 hk.1 h1 h2).1 h.low
      have := ((below_iff (x := (i, .left)) hi.1 hk.1).2 hcr).2.2
      have hk1 : G.h k (G.a i) < (G.lp i).y := this
      have hu1 : G.lp j = G.lp i := hu1
      have haj : G.a j = G.a i := by unfold Plan.a; rw [hu1]
      have hj1 : G.h j (G.a i) = (G.lp i).y := by rw [← haj, G.h_left, hu1]
      rw [← hj1] at hk1
      have hbj := G.a_lt_b hj.1
      exact G.order_lift hk.1 hj.1 h1.le h2.le haj.le (by rw [← haj]; exact hbj.le) h.alive.2.1 h.alive.2.2 hal.2.1 hal.2.2 hk1
    · have hcr := (crosses_low hi.1 hk.1 h1 h2).1 h.low
      refine ⟨hcr, ?_⟩
      intro e he hce x ho ho'
      obtain ⟨j, hj, hcj, hov, hhe⟩ := crossed (hP := hP) he hce
      rw [hhe]
      have hoj := (hov x).1 ho'
      obtain ⟨j1, j2, j3⟩ := (below_iff (x := (i, .left)) hi.1 hj.1).2 hcj
      obtain ⟨k1, k2, k3⟩ := (below_iff (x := (i, .left)) hi.1 hk.1).2 hcr
      rcases lt_trichotomy (G.h j (G.a i)) (G.h k (G.a i)) with g | g | g
      · exact higher slant_ofPolys (v := (i, .left)) hi.1 hk.1 hj.1 hcr hcj g ho hoj
      · have hs := G.same_of_h hj.1 hk.1 j1 j2 k1.le k2.le g
        rw [show (G.lp j, G.rp j) = (G.lp k, G.rp k) by rw [hs.1, hs.2]]
      · exfalso
        have hal := (G.alive_tau (i := i) hj.1).2 ⟨le_of_lt j1, j2⟩
        refine h.max j ⟨hj.1, hal⟩ ((crosses_low hi.1 hj.1 j1 j2).2 hcj) (Or.inl ?_)
        exact G.order_lift hk.1 hj.1 h1.le h2.le (le_of_lt j1) (le_of_lt j2) h.alive.2.1 h.alive.2.2 hal.1 hal.2 g

theorem under_of_next {i k : ℕ} (hi : (ofPolys polys hP).Top i) (hk : (ofPolys polys hP).Top k)
    (h : NextBelow polys ((ofPolys polys hP).lp i, (ofPolys polys hP).rp i) ((ofPolys polys hP).lp k, (ofPolys polys hP).rp k)) : (ofPolys polys hP).Under' i k := by
  set G := ofPolys polys hP with hG
  have ti := G.a_lt_tau i
  -- those that coincide are not above
  have notsame : ∀ {j}, G.Alive (G.tau i) j → G.Alive (G.tau i) k → G.Low (G.tau i) k j → G.h k (G.tau i) < G.h j (G.tau i) := by
    intro j hj ha hl
    rcases hl with hl | hl
    · exact hl
    · have hs := G.same_of_h hk.1 hj.1 ha.2.1 ha.2.2 hj.2.1.le hj.2.2.le hl.1
      exact absurd hl.2 (not_lt.2 (hk.2 j hj.1 hs))
  have top : ∀ {j}, j ∈ G.S → ∃ j', G.Top j' ∧ G.lp j' = G.lp j ∧ G.rp j' = G.rp j := by
    intro j hj
    obtain ⟨j', h1, h2, _⟩ := exists_top hj
    exact ⟨j', h1, h2.1.symm, h2.2.symm⟩
  rcases h.next with ⟨hs, hc, hmax⟩ | ⟨hnone, hcr, hmax⟩
  · have hs : G.lp k = G.lp i := hs
    have ha : G.a k = G.a i := by unfold Plan.a; rw [hs]
    have hal := alive_of_start hk.1 hs
    refine ⟨hal, (crs_h hi.1 hk.1 hs ti).1.1 hc, ?_⟩
    intro j hj hlow hl
    have hl := notsame hj hal hl
    rcases alive_cases hi.1 hj with hj1 | ⟨j1, j2⟩
    · have hjk : G.lp j = G.lp k := by rw [hs]; exact hj1
      obtain ⟨j', ht, e1, e2⟩ := top hj.1
      have := hmax (G.lp j, G.rp j) (by rw [← e1, ← e2]; exact top_drawn (z := (j', .left)) ht) (G.wf j hj.1) hj1 ((crs_h hi.1 hj.1 hj1 ti).1.2 hlow)
      have := (crs_h hk.1 hj.1 hjk (by rw [ha]; exact ti)).2.1 this
      linarith
    · have hcj := (crosses_low hi.1 hj.1 j1 j2).1 hlow
      have := ((below_iff (x := (i, .left)) hi.1 hj.1).2 hcj).2.2
      have hj1 : G.h j (G.a i) < (G.lp i).y := this
      have hk1 : G.h k (G.a i) = (G.lp i).y := by rw [← ha, G.h_left, hs]
      rw [← hk1] at hj1
      have hbk := G.a_lt_b hk.1
      have := G.order_lift hj.1 hk.1 j1.le j2.le ha.le (by rw [← ha]; exact hbk.le) hj.2.1 hj.2.2 hal.2.1 hal.2.2 hj1
      linarith
  · obtain ⟨k1, k2, k3⟩ := (below_iff (x := (i, .left)) hi.1 hk.1).2 hcr
    have hal : G.Alive (G.tau i) k := ⟨hk.1, (G.alive_tau (i := i) hk.1).2 ⟨le_of_lt k1, k2⟩⟩
    refine ⟨hal, (crosses_low hi.1 hk.1 k1 k2).2 hcr, ?_⟩
    intro j hj hlow hl
    have hl := notsame hj hal hl
    obtain ⟨j', ht, e1, e2⟩ := top hj.1
    have hdj : Drawn polys (G.lp j, G.rp j) := by rw [← e1, ← e2]; exact top_drawn (z := (j', .left)) ht
    rcases alive_cases hi.1 hj with hj1 | ⟨j1, j2⟩
    · exact hnone (G.lp j, G.rp j) hdj (G.wf j hj.1) hj1 ((crs_h hi.1 hj.1 hj1 ti).1.2 hlow)
    · have hcj := (crosses_low hi.1 hj.1 j1 j2).1 hlow
      have hns : ¬ G.Same k j := fun hs => by rw [hs.h] at hl; exact lt_irrefl _ hl
      -- `k` is below `j` where the sweep line meets the corner
      have hlt : G.h k (G.a i) < G.h j (G.a i) := by
        rcases lt_trichotomy (G.h k (G.a i)) (G.h j (G.a i)) with g | g | g
        · exact g
        · exact absurd (G.same_of_h hk.1 hj.1 k1 k2 j1.le j2.le g) hns
        · have := G.order_lift hj.1 hk.1 j1.le j2.le (le_of_lt k1) (le_of_lt k2) hj.2.1 hj.2.2 hal.2.1 hal.2.2 g
          linarith
      have xs : ∀ {m}, m ∈ G.S → CrossesBelow (G.lp i) (G.lp m, G.rp m) → (G.lp m).x < (G.rp m).x ∧ (G.lp m).x ≤ (G.lp i).x ∧ (G.lp i).x < (G.rp m).x := by
        intro m hm hc
        have h1 := crosses_x hc
        have h3 : (G.lp m).x < (G.rp m).x := by
          rcases G.wf m hm with h | h
          · exact h
          · exact absurd h.1 h1
        obtain ⟨c1, c2, _⟩ := hc
        dsimp only at c1 c2
        rw [min_eq_left h3.le] at c1
        rw [max_eq_right h3.le] at c2
        exact ⟨h3, c1, c2⟩
      obtain ⟨kx, kx1, kx2⟩ := xs hk.1 hcr
      obtain ⟨jx, jx1, jx2⟩ := xs hj.1 hcj
      obtain ⟨x, x0, x1⟩ := exists_between (lt_min kx2 jx2)
      have x2 := lt_of_lt_of_le x1 (min_le_left _ _)
      have x3 := lt_of_lt_of_le x1 (min_le_right _ _)
      have ok : Over (G.lp k, G.rp k) x := by
        unfold Over; dsimp only
        rw [min_eq_left kx.le, max_eq_right kx.le]; exact ⟨by linarith, x2.le⟩
      have oj : Over (G.lp j, G.rp j) x := by
        unfold Over; dsimp only
        rw [min_eq_left jx.le, max_eq_right jx.le]; exact ⟨by linarith, x3.le⟩
      have hle := higher slant_ofPolys (v := (i, .left)) hi.1 hj.1 hk.1 hcj hcr hlt oj ok
      have hge : heightAt (G.lp j, G.rp j) x ≤ heightAt (G.lp k, G.rp k) x := by
        rcases hdj.2 with hd | hd
        · exact hmax _ hd hcj x ok oj
        · have := hmax _ hd ((crosses_swap _).2 hcj) x ok ((over_swap _ _).2 oj)
          rwa [show heightAt (G.lp j, G.rp j).swap x = heightAt (G.lp j, G.rp j) x from heightAt_swap (e := (G.lp j, G.rp j)) jx.ne x] at this
      have o1 := onSegment_over (e := (G.lp k, G.rp k)) kx (z := x) (by dsimp only; linarith) x2.le
      have o2 := onSegment_over (e := (G.lp j, G.rp j)) jx (z := x) (by dsimp only; linarith) x3.le
      rw [show heightAt (G.lp j, G.rp j) x = heightAt (G.lp k, G.rp k) x by linarith] at o2
      rcases (G.apart' hk.1 hj.1 hns ⟨o1, o2⟩).1 with e | e
      · have : x = (G.lp k).x := congrArg Pt.x e
        linarith
      · have : x = (G.rp k).x := congrArg Pt.x e
        linarith

end

end Plan

end Idc
