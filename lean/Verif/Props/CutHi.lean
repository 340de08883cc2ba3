import Verif.Props.CutNear
/-!
# What is above an edge does not change where it is split, for C84
-/

namespace Idc

namespace Cut

open Plan

variable {G : Plan} {C : Cut G}

theorem Joint.hi_eq {k m : ℕ} (hj : C.Joint k m) (honly : ∀ j ∈ G.S, G.rp j = G.rp k → j = k) (hfirst : ∀ v ∈ G.S, G.lp v = G.lp m → G.key (m, .left) ≤ G.key (v, .left)) (p : ℕ) :
    G.hi k p = G.hi m p := by
  have hk := hj.left
  have hm := hj.right
  have ht := hj.time
  have hpm : G.poly k = G.poly m := C.poly k hk m hm hj.own
  have hline := C.line k hk m hm hj.own
  have hhk : G.h k (G.b k) = (G.rp k).y := G.h_right hk
  have hhm : G.h m (G.b k) = (G.rp k).y := by rw [ht, G.h_left, hj.meet]
  obtain ⟨t, t1, t2⟩ := G.exists_before (G.b k)
  have hqt : G.Quiet t := by
    intro i hi
    constructor
    · intro e
      have := (t2 i hi).1 (by rw [e]; exact t1)
      rw [e] at this
      exact lt_irrefl _ this
    · intro e
      have := (t2 i hi).2 (by rw [e]; exact t1)
      rw [e] at this
      exact lt_irrefl _ this
  have hta : G.a k < t := (t2 k hk).1 (G.a_lt_b hk)
  have hu1 := G.a_lt_tau m
  have hu2 := G.tau_lt_b hm
  have hlo : G.lo k p = G.lo m p := by
    rw [← lo_eq hk p hqt hta t1]
    unfold lo par
    refine Finset.sum_congr rfl fun v hv => ?_
    have hvS : v ∈ G.S := (Finset.mem_filter.1 hv).1
    congr 1
    rw [eq_iff_iff]
    constructor
    · rintro ⟨v1, v2, v3⟩
      have hbv : G.b k ≤ G.b v := by
        by_contra hn
        rw [not_le] at hn
        have := (t2 v hvS).2 hn
        linarith
      have hbv' : G.b k < G.b v := by
        refine lt_of_le_of_ne hbv fun e => ?_
        obtain rfl := honly v hvS (G.time_inj (x := (v, .right)) (y := (k, .right)) hvS hk e.symm)
        exact lt_irrefl _ v3
      have hav : G.a v < G.b k := lt_trans v1 t1
      have hle := G.order_const hvS hk v1.le v2.le hta.le t1.le hav.le hbv (G.a_lt_b hk).le le_rfl v3
      have hne := G.h_ne hvS (x := (k, .right)) hk hav hbv'
      have hlt : G.h v (G.b k) < (G.rp k).y := lt_of_le_of_ne (by rw [← hhk]; exact hle) hne
      have hav2 : G.a v < G.tau m := by rw [ht] at hav; linarith
      have hbv2 : G.tau m < G.b v := G.tau_lt (x := (v, .right)) hvS (by rw [← ht]; exact hbv')
      exact ⟨hav2, hbv2, G.order_lift hvS hm hav.le hbv ht.ge (by rw [ht]; exact (G.a_lt_b hm).le) hav2 hbv2 hu1 hu2 (by rw [hhm]; exact hlt)⟩
    · rintro ⟨v1, v2, v3⟩
      obtain ⟨w1, w2⟩ := (G.alive_tau hvS).1 ⟨v1, v2⟩
      rw [← ht] at w1 w2
      have hav : G.a v < G.b k := by
        refine lt_of_le_of_ne w1 fun e => ?_
        have hlp : G.lp v = G.lp m := G.time_inj (x := (v, .left)) (y := (m, .left)) hvS hm (by rw [ht] at e; exact e)
        have h1 := hfirst v hvS hlp
        have h2 : G.key (v, .left) < G.key (m, .left) := by
          rw [key_iff (e := .left) hvS hm hlp]
          left
          rw [crs_left hvS hm hlp (u := G.tau m) v1]
          exact v3
        exact absurd h1 (not_le.2 h2)
      have hle := G.order_const hvS hm v1.le v2.le hu1.le hu2.le hav.le w2.le ht.ge (by rw [ht]; exact (G.a_lt_b hm).le) v3
      have hne := G.h_ne hvS (x := (k, .right)) hk hav w2
      have hlt : G.h v (G.b k) < (G.rp k).y := lt_of_le_of_ne (by rw [← hhm]; exact hle) hne
      have v4 := (t2 v hvS).1 hav
      exact ⟨v4, by linarith, G.order_lift hvS hk hav.le w2.le (G.a_lt_b hk).le le_rfl v4 (by linarith) hta t1 (by rw [hhk]; exact hlt)⟩
  unfold hi
  rw [hlo, grp_alone hk (fun j hjS hs => by rw [honly j hjS hs.2]), grp_alone hm (fun j hjS hs => by
    by_contra hn
    rw [not_le] at hn
    exact absurd (hfirst j hjS hs.1) (not_le.2 ((key_same .left hjS hm hs).2 hn))), hpm]

end Cut

end Idc
