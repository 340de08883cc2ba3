import Verif.Props.DoubleIntersect
/-!
# A segment and itself in double precision, for C82
-/

namespace Idc

namespace Double

open FloatOps

variable {F : Type} [FloatOps F] [Double F]

/-- A segment and itself: the common part is the segment. -/
theorem intersect_same {a b : ℤ × ℤ} (ha : Small a) (hb : Small b) (hab : a ≠ b) :
    ∃ p q, intersectSegments ((ofIntPt a : Pt F), ofIntPt b) (ofIntPt a, ofIntPt b) = .segment p q := by
  have pa : PtB (ofIntPt a : Pt F) a (2 ^ 15) := ha.pt
  have pb : PtB (ofIntPt b : Pt F) b (2 ^ 15) := hb.pt
  have h0 := pb.sub pa (by norm_num)
  have hs := pa.sub pa (by norm_num)
  have hk := h0.cross h0 (by norm_num) (by norm_num)
  rw [show (b.1 - a.1) * (b.2 - a.2) - (b.2 - a.2) * (b.1 - a.1) = 0 by ring] at hk
  have hl0 : IntB ((ofIntPt b : Pt F).sub (ofIntPt a)).sqLength (zLen a b) (2 ^ 33) := h0.dot h0 (by norm_num) (by norm_num)
  have hls : IntB ((ofIntPt a : Pt F).sub (ofIntPt a)).sqLength (zLen a a) (2 ^ 33) := hs.dot hs (by norm_num) (by norm_num)
  have hB := hs.cross h0 (by norm_num) (by norm_num)
  rw [show (a.1 - a.1) * (b.2 - a.2) - (a.2 - a.2) * (b.1 - a.1) = 0 by ring] at hB
  have hU : IntB (((ofIntPt b : Pt F).sub (ofIntPt a)).dot ((ofIntPt a : Pt F).sub (ofIntPt a))) ((b.1 - a.1) * (a.1 - a.1) + (b.2 - a.2) * (a.2 - a.2)) (2 ^ 33) :=
    h0.dot hs (by norm_num) (by norm_num)
  have hW : IntB (((ofIntPt b : Pt F).sub (ofIntPt a)).dot ((ofIntPt b : Pt F).sub (ofIntPt a))) (zLen a b) (2 ^ 33) :=
    h0.dot h0 (by norm_num) (by norm_num)
  have hL := zLen_pos hab
  unfold intersectSegments
  dsimp only
  rw [test_false hl0 hl0 hk.1 hL (zLen_nonneg _ _), if_neg (by decide), test_false hl0 hls hB.1 hL (zLen_nonneg _ _), if_neg (by decide)]
  obtain ⟨s1, s2, s3, s4, s5, s6⟩ := quot hU hl0 (by omega)
  obtain ⟨t1, t2, t3, t4, t5, t6⟩ := quot hW hl0 (by omega)
  have s7 := s5 (by ring)
  have t7 := t6 rfl
  obtain ⟨v1, v2⟩ := add_val _ _ s1 t1 (by rw [s7, t7]; norm_num)
  rw [s7, t7, zero_add, rd_one] at v2
  obtain ⟨mn1, mn2⟩ := min_val _ _ s1 v1
  obtain ⟨mx1, mx2⟩ := max_val _ _ s1 v1
  rw [s7, v2] at mn2 mx2
  rw [min_eq_left (by norm_num : (0 : ℚ) ≤ 1)] at mn2
  rw [max_eq_right (by norm_num : (0 : ℚ) ≤ 1)] at mx2
  have z0 : IntVal.isInt (ofInt 0 : F) 0 := IntVal.ofInt 0 (by norm_num)
  have z1 : IntVal.isInt (ofInt 1 : F) 1 := IntVal.ofInt 1 (by norm_num)
  have v0 : val (ofInt 0 : F) = 0 := by have := z0.2; exact_mod_cast this
  have v1' : val (ofInt 1 : F) = 1 := by have := z1.2; exact_mod_cast this
  obtain ⟨b1, b2⟩ := max_val _ _ z0.1 mn1
  obtain ⟨e1, e2⟩ := min_val _ _ z1.1 mx1
  rw [v0, mn2, max_self] at b2
  rw [v1', mx2, min_self] at e2
  unfold checkSpanOverlap
  rw [if_neg, if_pos, if_pos]
  · dsimp only
    rw [if_neg]
    · exact ⟨_, _, rfl⟩
    · rw [eq_val _ _ b1 e1, b2, e2]
      simp
  · rw [lt_val _ _ z0.1 mx1, v0, mx2]; simp
  · rw [lt_val _ _ mn1 z1.1, v1', mn2]; simp
  · rw [lt_val _ _ z1.1 mn1, lt_val _ _ mx1 z0.1, v0, v1', mn2, mx2]; simp

end Double

end Idc
