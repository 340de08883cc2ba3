import Verif.Spec.Simple
import Verif.Props.TidyParity
/-!
# The edge below a corner, for C77
-/

namespace Idc

theorem heightAt_swap {e : Pt ℝ × Pt ℝ} (h : e.1.x ≠ e.2.x) (x : ℝ) : heightAt (e.2, e.1) x = heightAt e x := by
  unfold heightAt
  dsimp only
  have h1 : e.2.x - e.1.x ≠ 0 := fun k => h (by linarith)
  have h2 : e.1.x - e.2.x ≠ 0 := fun k => h (by linarith)
  field_simp
  ring

theorem over_swap (e : Pt ℝ × Pt ℝ) (x : ℝ) : Over (e.2, e.1) x ↔ Over e x := by
  unfold Over
  dsimp only
  rw [min_comm, max_comm]

theorem crosses_x {v : Pt ℝ} {e : Pt ℝ × Pt ℝ} (h : CrossesBelow v e) : e.1.x ≠ e.2.x := by
  intro k
  obtain ⟨h1, h2, _⟩ := h
  rw [k] at h1 h2
  simp only [min_self, max_self] at h1 h2
  linarith

/-- The point of the edge over `z`. -/
theorem onSegment_over {e : Pt ℝ × Pt ℝ} (h : e.1.x < e.2.x) {z : ℝ} (h1 : e.1.x ≤ z) (h2 : z ≤ e.2.x) : OnSegment e ⟨z, heightAt e z⟩ := by
  have hd : 0 < e.2.x - e.1.x := by linarith
  refine ⟨(z - e.1.x) / (e.2.x - e.1.x), div_nonneg (by linarith) hd.le, ?_, ?_, ?_⟩
  · rw [div_le_one hd]; linarith
  · show z = _
    field_simp; ring
  · show heightAt e z = _
    unfold heightAt
    ring

theorem heightAt_on {e : Pt ℝ × Pt ℝ} (h : e.1.x < e.2.x) {p : Pt ℝ} (hp : OnSegment e p) : heightAt e p.x = p.y := by
  obtain ⟨t, _, _, hx, hy⟩ := hp
  have hd : e.2.x - e.1.x ≠ 0 := by linarith
  unfold heightAt
  rw [hx, hy]
  field_simp
  ring

theorem affine_zero {f : ℝ → ℝ} {m c : ℝ} (hf : ∀ u, f u = m * u + c) {x y : ℝ} (hx : 0 < f x) (hy : f y < 0) : ∃ z, f z = 0 ∧ Min.min x y < z ∧ z < Max.max x y := by
  have e1 := hf x
  have e2 := hf y
  have hd : 0 < f x - f y := by linarith
  have hz : ∃ z, z = (x * (-(f y)) + y * f x) / (f x - f y) := ⟨_, rfl⟩
  obtain ⟨z, hz⟩ := hz
  have hz' : z * (f x - f y) = x * (-(f y)) + y * f x := by rw [hz]; field_simp
  have hxy : x ≠ y := by rintro rfl; linarith
  have zx : (z - x) * (f x - f y) = (y - x) * f x := by linear_combination hz'
  have zy : (z - y) * (f x - f y) = (x - y) * (-(f y)) := by linear_combination hz'
  refine ⟨z, ?_, ?_, ?_⟩
  · have : f z * (f x - f y) = 0 := by
      rw [hf z]
      rw [e1, e2] at hz' ⊢
      linear_combination m * hz'
    exact (mul_eq_zero.1 this).resolve_right hd.ne'
  · rcases lt_or_gt_of_ne hxy with k | k
    · rw [min_eq_left k.le]
      have : 0 < (z - x) * (f x - f y) := by rw [zx]; exact mul_pos (by linarith) hx
      have := pos_of_mul_pos_left this hd.le
      linarith
    · rw [min_eq_right k.le]
      have : 0 < (z - y) * (f x - f y) := by rw [zy]; exact mul_pos (by linarith) (by linarith)
      have := pos_of_mul_pos_left this hd.le
      linarith
  · rcases lt_or_gt_of_ne hxy with k | k
    · rw [max_eq_right k.le]
      have : (z - y) * (f x - f y) < 0 := by rw [zy]; exact mul_neg_of_neg_of_pos (by linarith) (by linarith)
      have := neg_of_mul_neg_left this hd.le
      linarith
    · rw [max_eq_left k.le]
      have : (z - x) * (f x - f y) < 0 := by rw [zx]; exact mul_neg_of_neg_of_pos (by linarith) hx
      have := neg_of_mul_neg_left this hd.le
      linarith

variable {G : Net}

/-- A segment that is higher where the sweep line meets a corner is nowhere lower. -/
theorem higher {v : EndId} (hv : v.1 < G.N) {k k' : Nat} (hk : k < G.N) (hk' : k' < G.N) (hc : CrossesBelow (G.pt v) (G.lp k, G.rp k))
    (hc' : CrossesBelow (G.pt v) (G.lp k', G.rp k')) (hlt : G.h k' (G.time (G.pt v)) < G.h k (G.time (G.pt v))) {x : ℝ}
    (ho : Over (G.lp k, G.rp k) x) (ho' : Over (G.lp k', G.rp k') x) : heightAt (G.lp k', G.rp k') x ≤ heightAt (G.lp k, G.rp k) x := by
  have hne : k ≠ k' := by rintro rfl; exact lt_irrefl _ hlt
  obtain ⟨a1, a2, a3⟩ := (below_iff hv hk).2 hc
  obtain ⟨b1, b2, b3⟩ := (below_iff hv hk').2 hc'
  have lx : ∀ {i}, i < G.N → CrossesBelow (G.pt v) (G.lp i, G.rp i) → (G.lp i).x < (G.rp i).x ∧ (G.lp i).x ≤ (G.pt v).x := by
    intro i hi hc
    have h1 := crosses_x hc
    have h2 := G.wf i hi
    have h3 : (G.lp i).x < (G.rp i).x := by
      rcases h2 with h | h
      · exact h
      · exact absurd h.1 h1
    refine ⟨h3, ?_⟩
    have := hc.1
    rwa [min_eq_left (by exact h3.le)] at this
  obtain ⟨kx, kv⟩ := lx hk hc
  obtain ⟨kx', kv'⟩ := lx hk' hc'
  set T := G.time (G.pt v) with hT
  have hε := G.eps_pos
  have hTv : T = (G.pt v).x + G.eps * (G.pt v).y := rfl
  -- the points of the segments on the sweep line
  have on := G.at_on hk a1.le a2.le
  have on' := G.at_on hk' b1.le b2.le
  have px : (G.at_ k T).x = T - G.eps * G.h k T := rfl
  have py : (G.at_ k T).y = G.h k T := rfl
  have px' : (G.at_ k' T).x = T - G.eps * G.h k' T := rfl
  have m1 := mul_lt_mul_of_pos_left hlt hε
  have m2 := mul_lt_mul_of_pos_left a3 hε
  have q1 : (G.pt v).x < (G.at_ k T).x := by rw [px, hTv]; rw [hTv] at m2; linarith
  have q2 : (G.at_ k T).x < (G.at_ k' T).x := by rw [px, px']; linarith
  have range : ∀ {i}, (G.lp i).x < (G.rp i).x → ∀ {p}, OnSegment (G.lp i, G.rp i) p → p.x ≤ (G.rp i).x := by
    rintro i hi p ⟨t, t0, t1, hx, _⟩
    dsimp only at hx
    have := mul_le_mul_of_nonneg_right t1 (show 0 ≤ (G.rp i).x - (G.lp i).x by linarith)
    linarith
  have q3 := range kx' on'
  have q4 : (G.at_ k T).x < (G.rp k).x := by
    refine lt_of_le_of_ne (range kx on) ?_
    intro e
    obtain ⟨t, t0, t1, hx, hy⟩ := on
    dsimp only at hx hy
    have ht : t = 1 := by
      have : (t - 1) * ((G.rp k).x - (G.lp k).x) = 0 := by linarith
      have := (mul_eq_zero.1 this).resolve_right (by linarith)
      linarith
    rw [ht, py] at hy
    rw [px] at hx
    have : T = G.b k := by
      show T = (G.rp k).x + G.eps * (G.rp k).y
      rw [ht] at hx
      have hy : G.h k T = (G.rp k).y := by linarith
      rw [hy] at hx
      linarith
    linarith
  -- there, the other segment is below
  have low : heightAt (G.lp k', G.rp k') (G.at_ k T).x < heightAt (G.lp k, G.rp k) (G.at_ k T).x := by
    rw [heightAt_on (e := (G.lp k, G.rp k)) kx on, py]
    have ha := G.area_h' hk' (G.at_ k T)
    have ht : G.time (G.at_ k T) = T := by
      show (G.at_ k T).x + G.eps * (G.at_ k T).y = T
      rw [px, py]; ring
    rw [ht, py] at ha
    simp only [triangleSignedArea, FloatOps.sub, FloatOps.mul] at ha
    have hab := G.a_lt_b hk'
    have hneg : (G.b k' - G.a k') * (G.h k' T - G.h k T) < 0 := mul_neg_of_pos_of_neg (by linarith) (by linarith)
    have e : ((G.rp k').x - (G.lp k').x) * (heightAt (G.lp k', G.rp k') (G.at_ k T).x - G.h k T) = (G.b k' - G.a k') * (G.h k' T - G.h k T) := by
      unfold heightAt
      dsimp only
      have hd : (G.rp k').x - (G.lp k').x ≠ 0 := by linarith
      rw [← ha, py]
      field_simp
      ring
    rw [← e] at hneg
    have := neg_of_mul_neg_right hneg (by linarith)
    linarith
  by_contra hn
  rw [not_le] at hn
  obtain ⟨z, z0, z1, z2⟩ := affine_zero (f := fun x => heightAt (G.lp k', G.rp k') x - heightAt (G.lp k, G.rp k) x)
    (m := ((G.rp k').y - (G.lp k').y) / ((G.rp k').x - (G.lp k').x) - ((G.rp k).y - (G.lp k).y) / ((G.rp k).x - (G.lp k).x))
    (c := (G.lp k').y - (G.lp k').x * (((G.rp k').y - (G.lp k').y) / ((G.rp k').x - (G.lp k').x)) -
      ((G.lp k).y - (G.lp k).x * (((G.rp k).y - (G.lp k).y) / ((G.rp k).x - (G.lp k).x)))) (by intro u; unfold heightAt; ring)
    (x := x) (y := (G.at_ k T).x) (by linarith) (by linarith)
  unfold Over at ho ho'
  dsimp only at ho ho'
  rw [min_eq_left kx.le, max_eq_right kx.le] at ho
  rw [min_eq_left kx'.le, max_eq_right kx'.le] at ho'
  have zl : (G.lp k).x < z := lt_of_le_of_lt (le_min ho.1 (by linarith)) z1
  have zr : z < (G.rp k).x := lt_of_lt_of_le z2 (max_le ho.2 (by linarith))
  have zl' : (G.lp k').x < z := lt_of_le_of_lt (le_min ho'.1 (by linarith)) z1
  have zr' : z < (G.rp k').x := lt_of_lt_of_le z2 (max_le ho'.2 (by linarith))
  have o1 := onSegment_over (e := (G.lp k, G.rp k)) kx zl.le zr.le
  have o2 := onSegment_over (e := (G.lp k', G.rp k')) kx' zl'.le zr'.le
  rw [show heightAt (G.lp k', G.rp k') z = heightAt (G.lp k, G.rp k) z by linarith] at o2
  rcases (G.apart k hk k' hk' hne _ ⟨o1, o2⟩).1 with e | e
  · have : z = (G.lp k).x := congrArg Pt.x e
    linarith
  · have : z = (G.rp k).x := congrArg Pt.x e
    linarith

end Idc
