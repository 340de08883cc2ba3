import Verif.Props.IntVal
import Verif.Props.TidyCmp
/-!
# Intersecting segments that do not cross, in double precision, for C80
-/

namespace Idc

open FloatOps

namespace Double

variable {F : Type} [FloatOps F] [Double F]

open IntVal

theorem isInt_iff {x : F} {n : ℤ} : isInt x n ↔ fin x ∧ val x = n := Iff.rfl

theorem rd_nonneg {x : ℚ} (h : 0 ≤ x) : 0 ≤ rd F x := by
  have := rd_mono (F := F) h
  rwa [rd_zero] at this

theorem rd_pos {x : ℚ} (h0 : 1 / 2 ^ 200 ≤ x) (h1 : x ≤ 2 ^ 200) : 0 < rd F x := by
  have hx : 0 < x := lt_of_lt_of_le (by positivity) h0
  refine lt_of_lt_of_le ?_ (rd_between (F := F) h0 h1).1
  exact mul_pos hx (by norm_num)

theorem rd_of_neg {x : ℚ} (h0 : x ≤ -(1 / 2 ^ 200)) (h1 : -2 ^ 200 ≤ x) : rd F x < 0 := by
  have := rd_pos (F := F) (x := -x) (by linarith) (by linarith)
  rw [rd_neg] at this
  linarith

theorem rd_gt_one {x : ℚ} (h0 : 1 + 1 / 2 ^ 40 ≤ x) (h1 : x ≤ 2 ^ 200) : 1 < rd F x := by
  have hx : 1 / 2 ^ 200 ≤ x := le_trans (by norm_num) h0
  refine lt_of_lt_of_le ?_ (rd_between (F := F) hx h1).1
  nlinarith

/-- A quotient of whole numbers, compared with 0 and 1, is on the same side after rounding. -/
theorem quot {x k : F} {A K : ℤ} (hx : IntB x A (2 ^ 33)) (hk : IntB k K (2 ^ 33)) (hK : K ≠ 0) :
    fin (div x k) ∧ val (div x k) = rd F ((A : ℚ) / K) ∧ ((A : ℚ) / K < 0 → val (div x k) < 0) ∧ (1 < (A : ℚ) / K → 1 < val (div x k)) ∧
    (A = 0 → val (div x k) = 0) ∧ (A = K → val (div x k) = 1) := by
  have hKq : (K : ℚ) ≠ 0 := by exact_mod_cast hK
  have hK1 : (1 : ℚ) ≤ |(K : ℚ)| := by exact_mod_cast Int.one_le_abs hK
  have hK2 : |(K : ℚ)| ≤ 2 ^ 33 := by exact_mod_cast hk.2
  have hA2 : |(A : ℚ)| ≤ 2 ^ 33 := by exact_mod_cast hx.2
  have hb : |(A : ℚ) / K| ≤ 2 ^ 33 := by
    rw [abs_div]
    exact (div_le_self (abs_nonneg _) hK1).trans hA2
  have hb' : |(A : ℚ) / K| ≤ 2 ^ 200 := hb.trans (by norm_num)
  have hxv := hx.1.2
  have hkv := hk.1.2
  obtain ⟨h1, h2⟩ := div_val x k hx.1.1 hk.1.1 (by rw [hkv]; exact hKq) (by rw [hxv, hkv]; exact hb')
  rw [hxv, hkv] at h2
  refine ⟨h1, h2, ?_, ?_, ?_, ?_⟩
  · intro h
    rw [h2]
    have hA : A ≠ 0 := by rintro rfl; simp at h
    have hA1 : (1 : ℚ) ≤ |(A : ℚ)| := by exact_mod_cast Int.one_le_abs hA
    have hlow : 1 / 2 ^ 33 ≤ |(A : ℚ) / K| := by
      rw [abs_div]
      exact div_le_div₀ (abs_nonneg _) hA1 (by linarith) hK2
    rw [abs_of_neg h] at hlow hb
    refine rd_of_neg ?_ ?_
    · have : (1 : ℚ) / 2 ^ 200 ≤ 1 / 2 ^ 33 := by norm_num
      linarith
    · have : (2 : ℚ) ^ 33 ≤ 2 ^ 200 := by norm_num
      linarith
  · intro h
    rw [h2]
    rw [abs_le] at hb'
    refine rd_gt_one ?_ hb'.2
    -- the difference is a multiple of 1/K
    have e : (A : ℚ) / K - 1 = ((A - K : ℤ) : ℚ) / K := by push_cast; field_simp
    have hne : A - K ≠ 0 := by
      intro h0
      rw [h0] at e
      simp at e
      linarith
    have hp : 0 < ((A - K : ℤ) : ℚ) / K := by rw [← e]; linarith
    have hN1 : (1 : ℚ) ≤ |((A - K : ℤ) : ℚ)| := by exact_mod_cast Int.one_le_abs hne
    have hlow : 1 / 2 ^ 33 ≤ |((A - K : ℤ) : ℚ) / K| := by
      rw [abs_div]
      exact div_le_div₀ (abs_nonneg _) hN1 (by linarith) hK2
    rw [abs_of_pos hp, ← e] at hlow
    have : (1 : ℚ) / 2 ^ 40 ≤ 1 / 2 ^ 33 := by norm_num
    linarith
  · rintro rfl
    rw [h2]
    simp [rd_zero]
  · rintro rfl
    rw [h2, div_self hKq, rd_one]

/-- The left side of the tests for parallel lines. -/
theorem tolerance {l m : F} {L M : ℤ} (hl : IntB l L (2 ^ 33)) (hm : IntB m M (2 ^ 33)) (hL : 1 ≤ L) (hM : 0 ≤ M) :
    fin (mul (mul sqrEpsilon l) m) ∧ 0 ≤ val (mul (mul sqrEpsilon l) m) ∧
      (1 ≤ M → val (mul (mul sqrEpsilon l) m) ≤ 105 / 10 ^ 9 * L * M) := by
  have hLq : (1 : ℚ) ≤ L := by exact_mod_cast hL
  have hMq : (0 : ℚ) ≤ M := by exact_mod_cast hM
  have hL2 : (L : ℚ) ≤ 2 ^ 33 := by have := hl.2; rw [abs_of_nonneg (by omega)] at this; exact_mod_cast this
  have hM2 : (M : ℚ) ≤ 2 ^ 33 := by have := hm.2; rw [abs_of_nonneg (by omega)] at this; exact_mod_cast this
  obtain ⟨e1, e2⟩ := lit_val (F := F) 1 7 (by norm_num)
  have eb := rd_between (F := F) (x := ((1 : ℤ) : ℚ) / 10 ^ 7) (by norm_num) (by norm_num)
  rw [← e2] at eb
  set ε := val (lit 1 7 : F) with hε
  have ε1 : 1 / 10 ^ 8 ≤ ε := le_trans (by norm_num) eb.1
  have ε2 : ε ≤ 101 / 10 ^ 9 := eb.2.trans (by norm_num)
  have hlv := hl.1.2
  have hmv := hm.1.2
  have p1 : 1 / 10 ^ 8 ≤ ε * L := by nlinarith
  have p2 : ε * L ≤ 101 / 10 ^ 9 * L := by nlinarith
  have p3 : ε * L ≤ 2 ^ 33 := by nlinarith
  obtain ⟨f1, f2⟩ := mul_val (sqrEpsilon : F) l e1 hl.1.1 (by
    rw [show val (sqrEpsilon : F) = ε from rfl, hlv, abs_of_nonneg (by linarith)]
    exact p3.trans (by norm_num))
  rw [show val (sqrEpsilon : F) = ε from rfl, hlv] at f2
  have fb := rd_between (F := F) (x := ε * L) (le_trans (by norm_num) p1) (p3.trans (by norm_num))
  rw [← f2] at fb
  set y := val (mul (sqrEpsilon : F) l) with hy
  have y1 : 1 / 10 ^ 9 ≤ y := by nlinarith [fb.1]
  have y2 : y ≤ 102 / 10 ^ 9 * L := by nlinarith [fb.2]
  have y3 : y ≤ 2 ^ 34 := by nlinarith
  have y4 : y * M ≤ 2 ^ 67 := by
    calc y * M ≤ 2 ^ 34 * 2 ^ 33 := mul_le_mul y3 hM2 hMq (by norm_num)
      _ = 2 ^ 67 := by norm_num
  have y0 : 0 ≤ y * M := mul_nonneg (by linarith) hMq
  obtain ⟨g1, g2⟩ := mul_val (mul (sqrEpsilon : F) l) m f1 hm.1.1 (by
    rw [hmv, abs_of_nonneg y0]
    exact y4.trans (by norm_num))
  rw [hmv] at g2
  refine ⟨g1, by rw [g2]; exact rd_nonneg y0, fun hM1 => ?_⟩
  have hM1q : (1 : ℚ) ≤ M := by exact_mod_cast hM1
  have gb := rd_between (F := F) (x := y * M) (le_trans (by norm_num) (show 1 / 10 ^ 9 ≤ y * M by nlinarith)) (y4.trans (by norm_num))
  rw [g2]
  refine gb.2.trans ?_
  have : y * M ≤ 102 / 10 ^ 9 * L * M := mul_le_mul_of_nonneg_right y2 hMq
  nlinarith

/-- The test is passed by segments with a clear angle between them. -/
theorem test_true {l m k : F} {L M K : ℤ} (hl : IntB l L (2 ^ 33)) (hm : IntB m M (2 ^ 33)) (hk : IntB k K (2 ^ 33)) (hL : 1 ≤ L) (hM : 1 ≤ M)
    (h : 11 * L * M < 10 ^ 8 * K ^ 2) : lt (mul (mul sqrEpsilon l) m) (mul k k) = true := by
  obtain ⟨g1, _, g3⟩ := tolerance hl hm hL (by omega)
  have g3 := g3 hM
  have hkv := hk.1.2
  have hq : (11 : ℚ) * L * M < 10 ^ 8 * K ^ 2 := by exact_mod_cast h
  have hLM : (1 : ℚ) ≤ (L : ℚ) * M := by
    have h1 : (1 : ℚ) ≤ L := by exact_mod_cast hL
    have h2 : (1 : ℚ) ≤ M := by exact_mod_cast hM
    nlinarith
  have hK2 : |(K : ℚ)| ≤ 2 ^ 33 := by exact_mod_cast hk.2
  have hKK : (K : ℚ) * K ≤ 2 ^ 66 := by
    calc (K : ℚ) * K = |(K : ℚ)| * |(K : ℚ)| := (abs_mul_abs_self _).symm
      _ ≤ 2 ^ 33 * 2 ^ 33 := mul_le_mul hK2 hK2 (abs_nonneg _) (by norm_num)
      _ = 2 ^ 66 := by norm_num
  have hK1 : 1 / 10 ^ 8 ≤ (K : ℚ) * K := by nlinarith
  obtain ⟨k1, k2⟩ := mul_val k k hk.1.1 hk.1.1 (by
    rw [hkv, abs_of_nonneg (mul_self_nonneg _)]
    exact hKK.trans (by norm_num))
  rw [hkv] at k2
  have kb := rd_between (F := F) (x := (K : ℚ) * K) (le_trans (by norm_num) hK1) (hKK.trans (by norm_num))
  rw [lt_val _ _ g1 k1, decide_eq_true_iff, k2]
  refine lt_of_le_of_lt g3 (lt_of_lt_of_le ?_ kb.1)
  nlinarith

/-- The test is not passed by parallel segments. -/
theorem test_false {l m k : F} {L M : ℤ} (hl : IntB l L (2 ^ 33)) (hm : IntB m M (2 ^ 33)) (hk : isInt k 0) (hL : 1 ≤ L) (hM : 0 ≤ M) :
    lt (mul (mul sqrEpsilon l) m) (mul k k) = false := by
  obtain ⟨g1, g2, _⟩ := tolerance hl hm hL hM
  have hkk : isInt (mul k k) (0 * 0) := IntVal.mul hk hk (by norm_num)
  have hv := hkk.2
  rw [lt_val _ _ g1 hkk.1, hv, decide_eq_false_iff_not]
  simpa using g2

/-! ### The point -/

theorem PtB.mono {p : Pt F} {a : ℤ × ℤ} {m n : ℤ} (h : PtB p a m) (hmn : m ≤ n) : PtB p a n := ⟨⟨h.1.1, h.1.2.trans hmn⟩, ⟨h.2.1, h.2.2.trans hmn⟩⟩

theorem snap_int {z : ℤ × ℤ} : ∀ (es : List (Pt F)) (i : Pt F), PtB i z (2 ^ 17) → (∀ e ∈ es, ∃ a, PtB e a (2 ^ 15)) → PtB (snap i es) z (2 ^ 17)
  | [], i, h, _ => h
  | e :: es, i, h, he => by
    refine snap_int es _ ?_ fun e' h' => he e' (List.mem_cons_of_mem _ h')
    obtain ⟨a, ha⟩ := he e (List.mem_cons_self ..)
    split
    · rename_i hlt
      have hd := h.sub ha (by norm_num)
      have hq : IntB (i.sub e).sqLength _ _ := hd.dot hd (by norm_num) (by norm_num)
      obtain ⟨e1, e2⟩ := lit_val (F := F) 1 15 (by norm_num)
      have eb := rd_between (F := F) (x := ((1 : ℤ) : ℚ) / 10 ^ 15) (by norm_num) (by norm_num)
      rw [← e2] at eb
      unfold epsilon at hlt
      rw [lt_val _ _ hq.1.1 e1, decide_eq_true_iff, show val (i.sub e).sqLength = _ from hq.1.2] at hlt
      have h1 : val (lit 1 15 : F) < 1 := lt_of_le_of_lt eb.2 (by norm_num)
      have h2 : (z.1 - a.1) * (z.1 - a.1) + (z.2 - a.2) * (z.2 - a.2) < 1 := by exact_mod_cast hlt.trans h1
      have hx : z.1 = a.1 := by nlinarith [mul_self_nonneg (z.1 - a.1), mul_self_nonneg (z.2 - a.2)]
      have hy : z.2 = a.2 := by nlinarith [mul_self_nonneg (z.1 - a.1), mul_self_nonneg (z.2 - a.2)]
      rw [show z = a from Prod.ext hx hy]
      exact PtB.mono ha (by norm_num)
    · exact h

theorem roundCoord_int {x : F} {n : ℤ} (h : isInt x n) : isInt (roundCoord x) n := by
  unfold roundCoord
  split
  · exact round_val x n h.1 h.2
  · exact h

/-- Going from the start to the end of a segment, or staying at the start. -/
theorem walk {p d s : F} {a b n : ℤ} (hp : IntB p a (2 ^ 15)) (hd : IntB d b (2 ^ 15 + 2 ^ 15)) (hs : isInt s n) (hn : |n| ≤ 1) (hz : |a + b * n| ≤ 2 ^ 17) :
    IntB (add p (mul d s)) (a + b * n) (2 ^ 17) := by
  have h := hp.add (hd.mul ⟨hs, hn⟩ (by norm_num)) (by norm_num)
  exact ⟨h.1, hz⟩

theorem end_point {p d : Pt F} {s : F} {a b : ℤ × ℤ} {n : ℤ} (ha : Small a) (hb : Small b) (hp : PtB p a (2 ^ 15)) (hd : PtB d (b.1 - a.1, b.2 - a.2) (2 ^ 15 + 2 ^ 15))
    (hs : isInt s n) (hn : n = 0 ∨ n = 1) : PtB (p.add (d.scale s)) (if n = 0 then a else b) (2 ^ 17) := by
  have a1 := abs_le.1 ha.1
  have a2 := abs_le.1 ha.2
  have b1 := abs_le.1 hb.1
  have b2 := abs_le.1 hb.2
  have h1 : |n| ≤ 1 := by rcases hn with rfl | rfl <;> norm_num
  have x := walk hp.1 hd.1 hs h1 (by
    rw [abs_le]
    rcases hn with rfl | rfl <;> constructor <;> simp <;> omega)
  have y := walk hp.2 hd.2 hs h1 (by
    rw [abs_le]
    rcases hn with rfl | rfl <;> constructor <;> simp <;> omega)
  rcases hn with rfl | rfl
  · rw [if_pos rfl]
    simp only [mul_zero, add_zero] at x y
    exact ⟨x, y⟩
  · rw [if_neg (by norm_num)]
    simp only [mul_one, add_sub_cancel] at x y
    exact ⟨x, y⟩

/-! ### The segments -/

/-- The outcome for two segments: nothing, or a point that is an end of both. -/
def Touch (r : SegmentIntersection F) (a b c d : ℤ × ℤ) : Prop :=
  r = .none ∨ ∃ p z, r = .point p ∧ PtB p z (2 ^ 17) ∧ (z = a ∨ z = b) ∧ (z = c ∨ z = d)

/-- Two segments in the plane. -/
noncomputable abbrev seg (a b : ℤ × ℤ) : Pt ℝ × Pt ℝ := (ofIntPt a, ofIntPt b)

theorem ofIntPt_inj {a b : ℤ × ℤ} (h : (ofIntPt a : Pt ℝ) = ofIntPt b) : a = b := by
  have hx : ((a.1 : ℤ) : ℝ) = b.1 := congrArg Pt.x h
  have hy : ((a.2 : ℤ) : ℝ) = b.2 := congrArg Pt.y h
  exact Prod.ext (by exact_mod_cast hx) (by exact_mod_cast hy)

/-- The product of the directions. -/
def zKross (a b c d : ℤ × ℤ) : ℤ := (b.1 - a.1) * (d.2 - c.2) - (b.2 - a.2) * (d.1 - c.1)

/-- The square of the length. -/
def zLen (a b : ℤ × ℤ) : ℤ := (b.1 - a.1) * (b.1 - a.1) + (b.2 - a.2) * (b.2 - a.2)

theorem zLen_pos {a b : ℤ × ℤ} (h : a ≠ b) : 1 ≤ zLen a b := by
  unfold zLen
  by_contra hc
  push Not at hc
  have h1 := mul_self_nonneg (b.1 - a.1)
  have h2 := mul_self_nonneg (b.2 - a.2)
  apply h
  refine Prod.ext ?_ ?_
  · have : (b.1 - a.1) * (b.1 - a.1) = 0 := by omega
    have := mul_self_eq_zero.1 this
    omega
  · have : (b.2 - a.2) * (b.2 - a.2) = 0 := by omega
    have := mul_self_eq_zero.1 this
    omega

theorem zLen_nonneg (a b : ℤ × ℤ) : 0 ≤ zLen a b := by
  unfold zLen
  have h1 := mul_self_nonneg (b.1 - a.1)
  have h2 := mul_self_nonneg (b.2 - a.2)
  omega

section

variable {a b c d : ℤ × ℤ} (ha : Small a) (hb : Small b) (hc : Small c) (hd : Small d)

/-- Segments that meet only in their ends, as exact arithmetic sees it. -/
def Apart (a b c d : ℤ × ℤ) : Prop := ∀ q, CommonPoint (seg a b) (seg c d) q → EndOf (seg a b) q ∧ EndOf (seg c d) q

include ha hb hc hd in
theorem intersect_angle (hab : a ≠ b) (hcd : c ≠ d) (hang : 11 * zLen a b * zLen c d < 10 ^ 8 * zKross a b c d ^ 2) (hap : Apart a b c d) :
    Touch (intersectSegments ((ofIntPt a : Pt F), ofIntPt b) (ofIntPt c, ofIntPt d)) a b c d := by
  have pa : PtB (ofIntPt a : Pt F) a (2 ^ 15) := ha.pt
  have pb : PtB (ofIntPt b : Pt F) b (2 ^ 15) := hb.pt
  have pc : PtB (ofIntPt c : Pt F) c (2 ^ 15) := hc.pt
  have pd : PtB (ofIntPt d : Pt F) d (2 ^ 15) := hd.pt
  have h0 := pb.sub pa (by norm_num)
  have h1 := pd.sub pc (by norm_num)
  have hs := pc.sub pa (by norm_num)
  have hk : IntB (((ofIntPt b : Pt F).sub (ofIntPt a)).cross ((ofIntPt d : Pt F).sub (ofIntPt c))) (zKross a b c d) (2 ^ 33) := h0.cross h1 (by norm_num) (by norm_num)
  have hl0 : IntB ((ofIntPt b : Pt F).sub (ofIntPt a)).sqLength (zLen a b) (2 ^ 33) := h0.dot h0 (by norm_num) (by norm_num)
  have hl1 : IntB ((ofIntPt d : Pt F).sub (ofIntPt c)).sqLength (zLen c d) (2 ^ 33) := h1.dot h1 (by norm_num) (by norm_num)
  have hA : IntB (((ofIntPt c : Pt F).sub (ofIntPt a)).cross ((ofIntPt d : Pt F).sub (ofIntPt c))) ((c.1 - a.1) * (d.2 - c.2) - (c.2 - a.2) * (d.1 - c.1)) (2 ^ 33) :=
    hs.cross h1 (by norm_num) (by norm_num)
  have hB : IntB (((ofIntPt c : Pt F).sub (ofIntPt a)).cross ((ofIntPt b : Pt F).sub (ofIntPt a))) ((c.1 - a.1) * (b.2 - a.2) - (c.2 - a.2) * (b.1 - a.1)) (2 ^ 33) :=
    hs.cross h0 (by norm_num) (by norm_num)
  have hK : zKross a b c d ≠ 0 := by
    intro h
    rw [h] at hang
    have := mul_pos (lt_of_lt_of_le one_pos (zLen_pos hab)) (lt_of_lt_of_le one_pos (zLen_pos hcd))
    nlinarith
  set A := (c.1 - a.1) * (d.2 - c.2) - (c.2 - a.2) * (d.1 - c.1) with hAdef
  set B := (c.1 - a.1) * (b.2 - a.2) - (c.2 - a.2) * (b.1 - a.1) with hBdef
  set K := zKross a b c d with hKdef
  obtain ⟨s1, s2, s3, s4, s5, s6⟩ := quot hA hk hK
  obtain ⟨t1, t2, t3, t4, t5, t6⟩ := quot hB hk hK
  have z0 : isInt (ofInt 0 : F) 0 := IntVal.ofInt 0 (by norm_num)
  have z1 : isInt (ofInt 1 : F) 1 := IntVal.ofInt 1 (by norm_num)
  unfold intersectSegments
  dsimp only
  rw [if_pos (test_true hl0 hl1 hk (zLen_pos hab) (zLen_pos hcd) hang)]
  split
  · exact Or.inl rfl
  · rename_i n1
    split
    · exact Or.inl rfl
    · rename_i n2
      right
      rw [lt_val _ _ s1 z0.1, lt_val _ _ z1.1 s1, z0.2, z1.2] at n1
      rw [lt_val _ _ t1 z0.1, lt_val _ _ z1.1 t1, z0.2, z1.2] at n2
      simp only [Bool.or_eq_true, decide_eq_true_eq, not_or, not_lt, Int.cast_zero, Int.cast_one] at n1 n2
      have sA : 0 ≤ (A : ℚ) / K := by by_contra h; have := s3 (not_le.1 h); linarith [n1.1]
      have sB : (A : ℚ) / K ≤ 1 := by by_contra h; have := s4 (not_le.1 h); linarith [n1.2]
      have tA : 0 ≤ (B : ℚ) / K := by by_contra h; have := t3 (not_le.1 h); linarith [n2.1]
      have tB : (B : ℚ) / K ≤ 1 := by by_contra h; have := t4 (not_le.1 h); linarith [n2.2]
      have sA' : (0 : ℝ) ≤ (A : ℝ) / K := by exact_mod_cast sA
      have sB' : (A : ℝ) / K ≤ 1 := by exact_mod_cast sB
      have tA' : (0 : ℝ) ≤ (B : ℝ) / K := by exact_mod_cast tA
      have tB' : (B : ℝ) / K ≤ 1 := by exact_mod_cast tB
      have hKr : (K : ℝ) ≠ 0 := by exact_mod_cast hK
      -- the common point
      have ex : (a.1 : ℝ) + (A : ℝ) / K * (b.1 - a.1) = c.1 + (B : ℝ) / K * (d.1 - c.1) := by
        field_simp
        rw [hAdef, hBdef, hKdef]
        unfold zKross
        push_cast
        ring
      have ey : (a.2 : ℝ) + (A : ℝ) / K * (b.2 - a.2) = c.2 + (B : ℝ) / K * (d.2 - c.2) := by
        field_simp
        rw [hAdef, hBdef, hKdef]
        unfold zKross
        push_cast
        ring
      have hq := hap ⟨(a.1 : ℝ) + (A : ℝ) / K * (b.1 - a.1), (a.2 : ℝ) + (A : ℝ) / K * (b.2 - a.2)⟩
        ⟨⟨_, sA', sB', rfl, rfl⟩, ⟨_, tA', tB', ex, ey⟩⟩
      have ends : ∀ z : ℤ × ℤ, (⟨(a.1 : ℝ) + (A : ℝ) / K * (b.1 - a.1), (a.2 : ℝ) + (A : ℝ) / K * (b.2 - a.2)⟩ : Pt ℝ) = ofIntPt z →
          (a.1 : ℝ) + (A : ℝ) / K * (b.1 - a.1) = z.1 ∧ (a.2 : ℝ) + (A : ℝ) / K * (b.2 - a.2) = z.2 := fun z h =>
        ⟨congrArg Pt.x h, congrArg Pt.y h⟩
      -- so the quotient is 0 or 1
      have hor : A = 0 ∧ (⟨(a.1 : ℝ) + (A : ℝ) / K * (b.1 - a.1), (a.2 : ℝ) + (A : ℝ) / K * (b.2 - a.2)⟩ : Pt ℝ) = ofIntPt a ∨
          A = K ∧ (⟨(a.1 : ℝ) + (A : ℝ) / K * (b.1 - a.1), (a.2 : ℝ) + (A : ℝ) / K * (b.2 - a.2)⟩ : Pt ℝ) = ofIntPt b := by
        have key : ∀ n : ℤ, (A : ℝ) / K = n → A = n * K := fun n h => by
          rw [div_eq_iff hKr] at h
          exact_mod_cast h
        rcases hq.1 with h | h
        · left
          obtain ⟨e1, e2⟩ := ends a h
          refine ⟨?_, h⟩
          rw [key 0 ?_, zero_mul]
          by_contra hne
          push_cast at hne
          apply hab
          refine Prod.ext ?_ ?_
          · have : (b.1 : ℝ) - a.1 = 0 := by
              have : (A : ℝ) / K * (b.1 - a.1) = 0 := by linarith
              exact (mul_eq_zero.1 this).resolve_left hne
            have : (a.1 : ℝ) = b.1 := by linarith
            exact_mod_cast this
          · have : (b.2 : ℝ) - a.2 = 0 := by
              have : (A : ℝ) / K * (b.2 - a.2) = 0 := by linarith
              exact (mul_eq_zero.1 this).resolve_left hne
            have : (a.2 : ℝ) = b.2 := by linarith
            exact_mod_cast this
        · right
          obtain ⟨e1, e2⟩ := ends b h
          refine ⟨?_, h⟩
          rw [key 1 ?_, one_mul]
          by_contra hne
          push_cast at hne
          have hne : (A : ℝ) / K - 1 ≠ 0 := fun h0 => hne (by linarith)
          apply hab
          refine Prod.ext ?_ ?_
          · have : (b.1 : ℝ) - a.1 = 0 := by
              have : ((A : ℝ) / K - 1) * (b.1 - a.1) = 0 := by linarith
              exact (mul_eq_zero.1 this).resolve_left hne
            have : (a.1 : ℝ) = b.1 := by linarith
            exact_mod_cast this
          · have : (b.2 : ℝ) - a.2 = 0 := by
              have : ((A : ℝ) / K - 1) * (b.2 - a.2) = 0 := by linarith
              exact (mul_eq_zero.1 this).resolve_left hne
            have : (a.2 : ℝ) = b.2 := by linarith
            exact_mod_cast this
      obtain ⟨n, hn, hi, he⟩ : ∃ n : ℤ, (n = 0 ∨ n = 1) ∧ isInt (div (((ofIntPt c : Pt F).sub (ofIntPt a)).cross ((ofIntPt d : Pt F).sub (ofIntPt c)))
          (((ofIntPt b : Pt F).sub (ofIntPt a)).cross ((ofIntPt d : Pt F).sub (ofIntPt c)))) n ∧
          (⟨(a.1 : ℝ) + (A : ℝ) / K * (b.1 - a.1), (a.2 : ℝ) + (A : ℝ) / K * (b.2 - a.2)⟩ : Pt ℝ) = ofIntPt (if n = 0 then a else b) := by
        rcases hor with ⟨h, he⟩ | ⟨h, he⟩
        · exact ⟨0, Or.inl rfl, ⟨s1, by rw [s5 h]; norm_num⟩, he⟩
        · exact ⟨1, Or.inr rfl, ⟨s1, by rw [s6 h]; norm_num⟩, he⟩
      have := snap_int [(ofIntPt a : Pt F), ofIntPt b, ofIntPt c, ofIntPt d] _ (end_point ha hb pa h0 hi hn) (by
        intro e he
        simp only [List.mem_cons, List.not_mem_nil, or_false] at he
        rcases he with rfl | rfl | rfl | rfl
        · exact ⟨_, pa⟩
        · exact ⟨_, pb⟩
        · exact ⟨_, pc⟩
        · exact ⟨_, pd⟩)
      refine ⟨_, if n = 0 then a else b, rfl, ⟨⟨roundCoord_int this.1.1, this.1.2⟩, ⟨roundCoord_int this.2.1, this.2.2⟩⟩, ?_, ?_⟩
      · split
        · exact Or.inl rfl
        · exact Or.inr rfl
      · rcases hq.2 with h | h
        · exact Or.inl (ofIntPt_inj (he.symm.trans h))
        · exact Or.inr (ofIntPt_inj (he.symm.trans h))

include ha hb hc hd in
theorem intersect_off (hab : a ≠ b) (hpar : zKross a b c d = 0)
    (hoff : 11 * zLen a b * zLen a c < 10 ^ 8 * ((c.1 - a.1) * (b.2 - a.2) - (c.2 - a.2) * (b.1 - a.1)) ^ 2) :
    Touch (intersectSegments ((ofIntPt a : Pt F), ofIntPt b) (ofIntPt c, ofIntPt d)) a b c d := by
  have pa : PtB (ofIntPt a : Pt F) a (2 ^ 15) := ha.pt
  have pb : PtB (ofIntPt b : Pt F) b (2 ^ 15) := hb.pt
  have pc : PtB (ofIntPt c : Pt F) c (2 ^ 15) := hc.pt
  have pd : PtB (ofIntPt d : Pt F) d (2 ^ 15) := hd.pt
  have h0 := pb.sub pa (by norm_num)
  have h1 := pd.sub pc (by norm_num)
  have hs := pc.sub pa (by norm_num)
  have hk : IntB (((ofIntPt b : Pt F).sub (ofIntPt a)).cross ((ofIntPt d : Pt F).sub (ofIntPt c))) (zKross a b c d) (2 ^ 33) := h0.cross h1 (by norm_num) (by norm_num)
  have hl0 : IntB ((ofIntPt b : Pt F).sub (ofIntPt a)).sqLength (zLen a b) (2 ^ 33) := h0.dot h0 (by norm_num) (by norm_num)
  have hl1 : IntB ((ofIntPt d : Pt F).sub (ofIntPt c)).sqLength (zLen c d) (2 ^ 33) := h1.dot h1 (by norm_num) (by norm_num)
  have hls : IntB ((ofIntPt c : Pt F).sub (ofIntPt a)).sqLength (zLen a c) (2 ^ 33) := hs.dot hs (by norm_num) (by norm_num)
  have hB : IntB (((ofIntPt c : Pt F).sub (ofIntPt a)).cross ((ofIntPt b : Pt F).sub (ofIntPt a))) ((c.1 - a.1) * (b.2 - a.2) - (c.2 - a.2) * (b.1 - a.1)) (2 ^ 33) :=
    hs.cross h0 (by norm_num) (by norm_num)
  have hac : a ≠ c := by
    rintro rfl
    simp [zLen] at hoff
  rw [hpar] at hk
  unfold intersectSegments
  dsimp only
  rw [test_false hl0 hl1 hk.1 (zLen_pos hab) (zLen_nonneg _ _), if_neg (by decide), if_pos (test_true hl0 hls hB (zLen_pos hab) (zLen_pos hac) hoff)]
  exact Or.inl rfl

/-- Left, or below on the same vertical line. -/
def zLeftOf (a b : ℤ × ℤ) : Prop := a.1 < b.1 ∨ a.1 = b.1 ∧ a.2 < b.2

theorem zLeftOf.ne {a b : ℤ × ℤ} (h : zLeftOf a b) : a ≠ b := by
  rintro rfl
  rcases h with h | ⟨_, h⟩ <;> exact lt_irrefl _ h

/-- Parallel directions to the right point the same way. -/
theorem same_way (h : zLeftOf a b) (h' : zLeftOf c d) (hpar : zKross a b c d = 0) :
    0 < (b.1 - a.1) * (d.1 - c.1) + (b.2 - a.2) * (d.2 - c.2) := by
  unfold zKross at hpar
  have hx : 0 ≤ b.1 - a.1 := by rcases h with h | h <;> omega
  have hx' : 0 ≤ d.1 - c.1 := by rcases h' with h | h <;> omega
  generalize hX : b.1 - a.1 = x at *
  generalize hY : b.2 - a.2 = y at *
  generalize hX' : d.1 - c.1 = x' at *
  generalize hY' : d.2 - c.2 = y' at *
  have g : 0 < x ∨ x = 0 ∧ 0 < y := by rcases h with h | h <;> omega
  have g' : 0 < x' ∨ x' = 0 ∧ 0 < y' := by rcases h' with h | h <;> omega
  rcases g with g | ⟨g1, g2⟩
  · rcases g' with g' | ⟨g1', g2'⟩
    · have hp : 0 < x * x' := mul_pos g g'
      have : 0 ≤ y * y' := by
        have e : x * x' * (y * y') = (x * y') * (x * y') := by
          have : x * y' = y * x' := by linarith
          calc x * x' * (y * y') = (y * x') * (x * y') := by ring
            _ = (x * y') * (x * y') := by rw [this]
        by_contra hn
        push Not at hn
        have := mul_neg_of_pos_of_neg hp hn
        rw [e] at this
        exact absurd this (not_lt.2 (mul_self_nonneg _))
      linarith
    · subst g1'
      have := mul_pos g g2'
      rw [mul_zero, sub_zero] at hpar
      omega
  · subst g1
    rcases g' with g' | ⟨g1', g2'⟩
    · have := mul_pos g2 g'
      rw [zero_mul, zero_sub] at hpar
      omega
    · subst g1'
      have := mul_pos g2 g2'
      linarith

/-- Where `c` and `d` are on the line from `a` to `b`. -/
theorem positions (hpar : zKross a b c d = 0) (hon : (c.1 - a.1) * (b.2 - a.2) - (c.2 - a.2) * (b.1 - a.1) = 0) :
    zLen a b * (c.1 - a.1) = ((b.1 - a.1) * (c.1 - a.1) + (b.2 - a.2) * (c.2 - a.2)) * (b.1 - a.1) ∧
    zLen a b * (c.2 - a.2) = ((b.1 - a.1) * (c.1 - a.1) + (b.2 - a.2) * (c.2 - a.2)) * (b.2 - a.2) ∧
    zLen a b * (d.1 - c.1) = ((b.1 - a.1) * (d.1 - c.1) + (b.2 - a.2) * (d.2 - c.2)) * (b.1 - a.1) ∧
    zLen a b * (d.2 - c.2) = ((b.1 - a.1) * (d.1 - c.1) + (b.2 - a.2) * (d.2 - c.2)) * (b.2 - a.2) := by
  unfold zKross at hpar
  unfold zLen
  refine ⟨?_, ?_, ?_, ?_⟩
  · linear_combination (b.2 - a.2) * hon
  · linear_combination -(b.1 - a.1) * hon
  · linear_combination -(b.2 - a.2) * hpar
  · linear_combination (b.1 - a.1) * hpar

/-- Segments on one line that meet at most in their ends are one after the other. -/
theorem one_after (h : zLeftOf a b) (h' : zLeftOf c d) (hpar : zKross a b c d = 0)
    (hon : (c.1 - a.1) * (b.2 - a.2) - (c.2 - a.2) * (b.1 - a.1) = 0) (hap : Apart a b c d) :
    zLen a b ≤ (b.1 - a.1) * (c.1 - a.1) + (b.2 - a.2) * (c.2 - a.2) ∨
    (b.1 - a.1) * (c.1 - a.1) + (b.2 - a.2) * (c.2 - a.2) + ((b.1 - a.1) * (d.1 - c.1) + (b.2 - a.2) * (d.2 - c.2)) ≤ 0 := by
  have hw := same_way h h' hpar
  obtain ⟨p1, p2, p3, p4⟩ := positions hpar hon
  have hL := zLen_pos h.ne
  set L := zLen a b with hLdef
  set U := (b.1 - a.1) * (c.1 - a.1) + (b.2 - a.2) * (c.2 - a.2) with hU
  set W := (b.1 - a.1) * (d.1 - c.1) + (b.2 - a.2) * (d.2 - c.2) with hW
  by_contra hn
  push Not at hn
  have hLr : (1 : ℝ) ≤ L := by exact_mod_cast hL
  have hWr : (0 : ℝ) < W := by exact_mod_cast hw
  have hL0 : (L : ℝ) ≠ 0 := by positivity
  have q1 : (L : ℝ) * (c.1 - a.1) = U * (b.1 - a.1) := by exact_mod_cast p1
  have q2 : (L : ℝ) * (c.2 - a.2) = U * (b.2 - a.2) := by exact_mod_cast p2
  have q3 : (L : ℝ) * (d.1 - c.1) = W * (b.1 - a.1) := by exact_mod_cast p3
  have q4 : (L : ℝ) * (d.2 - c.2) = W * (b.2 - a.2) := by exact_mod_cast p4
  have u1 : (U : ℝ) < L := by exact_mod_cast hn.1
  have u2 : (0 : ℝ) < U + W := by exact_mod_cast hn.2
  -- a point strictly inside
  obtain ⟨τ, t1, t2⟩ := exists_between (show Max.max 0 ((U : ℝ) / L) < Min.min 1 (((U : ℝ) + W) / L) by
    rw [max_lt_iff, lt_min_iff, lt_min_iff]
    refine ⟨⟨one_pos, by positivity⟩, (div_lt_one (by positivity)).2 u1, ?_⟩
    exact div_lt_div_of_pos_right (by linarith) (by positivity))
  rw [max_lt_iff] at t1
  rw [lt_min_iff] at t2
  have t1' : (U : ℝ) < τ * L := (div_lt_iff₀ (by positivity)).1 t1.2
  have t2' : τ * L < (U : ℝ) + W := (lt_div_iff₀ (by positivity)).1 t2.2
  have hW0 : (W : ℝ) ≠ 0 := hWr.ne'
  have := (hap ⟨(a.1 : ℝ) + τ * (b.1 - a.1), (a.2 : ℝ) + τ * (b.2 - a.2)⟩ ⟨⟨τ, t1.1.le, t2.1.le, rfl, rfl⟩, ⟨(τ * L - U) / W, ?_, ?_, ?_, ?_⟩⟩).1
  · have key : ∀ x : ℝ, 0 ≤ x → (a.1 : ℝ) + τ * (b.1 - a.1) = a.1 + x * (b.1 - a.1) → (a.2 : ℝ) + τ * (b.2 - a.2) = a.2 + x * (b.2 - a.2) → τ = x := by
      intro x _ e1 e2
      by_contra hne
      have hne : τ - x ≠ 0 := sub_ne_zero.2 hne
      apply h.ne
      refine Prod.ext ?_ ?_
      · have : (τ - x) * ((b.1 : ℝ) - a.1) = 0 := by linarith
        have := (mul_eq_zero.1 this).resolve_left hne
        have : (a.1 : ℝ) = b.1 := by linarith
        exact_mod_cast this
      · have : (τ - x) * ((b.2 : ℝ) - a.2) = 0 := by linarith
        have := (mul_eq_zero.1 this).resolve_left hne
        have : (a.2 : ℝ) = b.2 := by linarith
        exact_mod_cast this
    rcases this with e | e
    · have e1 : (a.1 : ℝ) + τ * (b.1 - a.1) = a.1 := congrArg Pt.x e
      have e2 : (a.2 : ℝ) + τ * (b.2 - a.2) = a.2 := congrArg Pt.y e
      have := key 0 le_rfl (by linarith) (by linarith)
      linarith [t1.1]
    · have e1 : (a.1 : ℝ) + τ * (b.1 - a.1) = b.1 := congrArg Pt.x e
      have e2 : (a.2 : ℝ) + τ * (b.2 - a.2) = b.2 := congrArg Pt.y e
      have := key 1 zero_le_one (by linarith) (by linarith)
      linarith [t2.1]
  · exact div_nonneg (by linarith) hWr.le
  · rw [div_le_one hWr]; linarith
  · show (a.1 : ℝ) + τ * (b.1 - a.1) = c.1 + (τ * L - U) / W * (d.1 - c.1)
    have hd : (d.1 : ℝ) - c.1 = W * (b.1 - a.1) / L := by rw [eq_div_iff hL0]; linarith
    have hc : (c.1 : ℝ) = a.1 + U * (b.1 - a.1) / L := by
      have : (c.1 : ℝ) - a.1 = U * (b.1 - a.1) / L := by rw [eq_div_iff hL0]; linarith
      linarith
    rw [hd, show (τ * L - U) / (W : ℝ) * (W * (b.1 - a.1) / L) = (τ * L - U) * (b.1 - a.1) / L by field_simp, hc]
    field_simp
    ring
  · show (a.2 : ℝ) + τ * (b.2 - a.2) = c.2 + (τ * L - U) / W * (d.2 - c.2)
    have hd : (d.2 : ℝ) - c.2 = W * (b.2 - a.2) / L := by rw [eq_div_iff hL0]; linarith
    have hc : (c.2 : ℝ) = a.2 + U * (b.2 - a.2) / L := by
      have : (c.2 : ℝ) - a.2 = U * (b.2 - a.2) / L := by rw [eq_div_iff hL0]; linarith
      linarith
    rw [hd, show (τ * L - U) / (W : ℝ) * (W * (b.2 - a.2) / L) = (τ * L - U) * (b.2 - a.2) / L by field_simp, hc]
    field_simp
    ring

include ha hb hc hd in
theorem intersect_line (h : zLeftOf a b) (h' : zLeftOf c d) (hpar : zKross a b c d = 0)
    (hon : (c.1 - a.1) * (b.2 - a.2) - (c.2 - a.2) * (b.1 - a.1) = 0) (hap : Apart a b c d) :
    Touch (intersectSegments ((ofIntPt a : Pt F), ofIntPt b) (ofIntPt c, ofIntPt d)) a b c d := by
  have pa : PtB (ofIntPt a : Pt F) a (2 ^ 15) := ha.pt
  have pb : PtB (ofIntPt b : Pt F) b (2 ^ 15) := hb.pt
  have pc : PtB (ofIntPt c : Pt F) c (2 ^ 15) := hc.pt
  have pd : PtB (ofIntPt d : Pt F) d (2 ^ 15) := hd.pt
  have h0 := pb.sub pa (by norm_num)
  have h1 := pd.sub pc (by norm_num)
  have hs := pc.sub pa (by norm_num)
  have hk : IntB (((ofIntPt b : Pt F).sub (ofIntPt a)).cross ((ofIntPt d : Pt F).sub (ofIntPt c))) (zKross a b c d) (2 ^ 33) := h0.cross h1 (by norm_num) (by norm_num)
  have hl0 : IntB ((ofIntPt b : Pt F).sub (ofIntPt a)).sqLength (zLen a b) (2 ^ 33) := h0.dot h0 (by norm_num) (by norm_num)
  have hl1 : IntB ((ofIntPt d : Pt F).sub (ofIntPt c)).sqLength (zLen c d) (2 ^ 33) := h1.dot h1 (by norm_num) (by norm_num)
  have hls : IntB ((ofIntPt c : Pt F).sub (ofIntPt a)).sqLength (zLen a c) (2 ^ 33) := hs.dot hs (by norm_num) (by norm_num)
  have hB : IntB (((ofIntPt c : Pt F).sub (ofIntPt a)).cross ((ofIntPt b : Pt F).sub (ofIntPt a))) ((c.1 - a.1) * (b.2 - a.2) - (c.2 - a.2) * (b.1 - a.1)) (2 ^ 33) :=
    hs.cross h0 (by norm_num) (by norm_num)
  have hU : IntB (((ofIntPt b : Pt F).sub (ofIntPt a)).dot ((ofIntPt c : Pt F).sub (ofIntPt a))) ((b.1 - a.1) * (c.1 - a.1) + (b.2 - a.2) * (c.2 - a.2)) (2 ^ 33) :=
    h0.dot hs (by norm_num) (by norm_num)
  have hW : IntB (((ofIntPt b : Pt F).sub (ofIntPt a)).dot ((ofIntPt d : Pt F).sub (ofIntPt c))) ((b.1 - a.1) * (d.1 - c.1) + (b.2 - a.2) * (d.2 - c.2)) (2 ^ 33) :=
    h0.dot h1 (by norm_num) (by norm_num)
  have hw := same_way h h' hpar
  have hL := zLen_pos h.ne
  obtain ⟨p1, p2, p3, p4⟩ := positions hpar hon
  have hor := one_after h h' hpar hon hap
  rw [hpar] at hk
  rw [hon] at hB
  unfold intersectSegments
  dsimp only
  rw [test_false hl0 hl1 hk.1 hL (zLen_nonneg _ _), if_neg (by decide), test_false hl0 hls hB.1 hL (zLen_nonneg _ _), if_neg (by decide)]
  set L := zLen a b with hLdef
  set U := (b.1 - a.1) * (c.1 - a.1) + (b.2 - a.2) * (c.2 - a.2) with hUdef
  set W := (b.1 - a.1) * (d.1 - c.1) + (b.2 - a.2) * (d.2 - c.2) with hWdef
  generalize hxd : ((ofIntPt b : Pt F).sub (ofIntPt a)).dot ((ofIntPt c : Pt F).sub (ofIntPt a)) = xu at *
  generalize hxw : ((ofIntPt b : Pt F).sub (ofIntPt a)).dot ((ofIntPt d : Pt F).sub (ofIntPt c)) = xw at *
  generalize hxl : ((ofIntPt b : Pt F).sub (ofIntPt a)).sqLength = xl at *
  obtain ⟨s1, s2, s3, s4, s5, s6⟩ := quot hU hl0 (by omega)
  obtain ⟨t1, t2, t3, t4, t5, t6⟩ := quot hW hl0 (by omega)
  have hLq : (1 : ℚ) ≤ L := by exact_mod_cast hL
  have hLq0 : (L : ℚ) ≠ 0 := by positivity
  have hLq2 : (L : ℚ) ≤ 2 ^ 33 := by have := hl0.2; rw [abs_of_nonneg (by omega)] at this; exact_mod_cast this
  have hWq : (1 : ℚ) ≤ W := by exact_mod_cast hw
  have hWq2 : (W : ℚ) ≤ 2 ^ 33 := by have := hW.2; rw [abs_of_nonneg (by omega)] at this; exact_mod_cast this
  have hUq2 : |(U : ℚ)| ≤ 2 ^ 33 := by exact_mod_cast hU.2
  -- the rounded quotients
  have w0 : 1 / 2 ^ 33 ≤ (W : ℚ) / L := div_le_div₀ (by linarith) hWq (by linarith) hLq2
  have w1 : (W : ℚ) / L ≤ 2 ^ 33 := (div_le_self (by linarith) hLq).trans hWq2
  have wb := rd_between (F := F) (x := (W : ℚ) / L) (le_trans (by norm_num) w0) (w1.trans (by norm_num))
  rw [← t2] at wb
  have wpos : 0 ≤ val (div xw xl) := by rw [t2]; exact rd_nonneg (by positivity)
  have wle : val (div xw xl) ≤ 2 ^ 34 := by nlinarith [wb.2]
  have u1 : |(U : ℚ) / L| ≤ 2 ^ 33 := by
    rw [abs_div, abs_of_pos (by linarith : (0 : ℚ) < L)]
    exact (div_le_self (abs_nonneg _) hLq).trans hUq2
  have ule : |val (div xu xl)| ≤ 2 ^ 33 := by
    rw [s2]
    rw [abs_le] at u1 ⊢
    have i1 : rd F (2 ^ 33) = 2 ^ 33 := by have := rd_int (F := F) (2 ^ 33) (by norm_num); exact_mod_cast this
    have m1 := rd_mono (F := F) u1.1
    have m2 := rd_mono (F := F) u1.2
    rw [rd_neg] at m1
    rw [i1] at m1 m2
    exact ⟨m1, m2⟩
  obtain ⟨v1, v2⟩ := add_val (div xu xl) (div xw xl) s1 t1 (by
    refine (abs_add_le _ _).trans ?_
    rw [abs_of_nonneg wpos]
    have : (2 : ℚ) ^ 33 + 2 ^ 34 ≤ 2 ^ 200 := by norm_num
    linarith)
  obtain ⟨mn1, mn2⟩ := min_val (div xu xl) (add (div xu xl) (div xw xl)) s1 v1
  obtain ⟨mx1, mx2⟩ := max_val (div xu xl) (add (div xu xl) (div xw xl)) s1 v1
  have z0 : isInt (ofInt 0 : F) 0 := IntVal.ofInt 0 (by norm_num)
  have z1 : isInt (ofInt 1 : F) 1 := IntVal.ofInt 1 (by norm_num)
  have v0 : val (ofInt 0 : F) = 0 := by have := z0.2; exact_mod_cast this
  have v1' : val (ofInt 1 : F) = 1 := by have := z1.2; exact_mod_cast this
  have ends : ∀ e ∈ [(ofIntPt a : Pt F), ofIntPt b, ofIntPt c, ofIntPt d], ∃ z, PtB e z (2 ^ 15) := by
    intro e he
    simp only [List.mem_cons, List.not_mem_nil, or_false] at he
    rcases he with rfl | rfl | rfl | rfl
    · exact ⟨_, pa⟩
    · exact ⟨_, pb⟩
    · exact ⟨_, pc⟩
    · exact ⟨_, pd⟩
  have one : ∀ n : ℤ, (n = 0 ∨ n = 1) → Touch (if eq (ofInt n : F) (ofInt n) then
        SegmentIntersection.point (snap ((ofIntPt a : Pt F).add (((ofIntPt b : Pt F).sub (ofIntPt a)).scale (ofInt n))) [ofIntPt a, ofIntPt b, ofIntPt c, ofIntPt d])
      else SegmentIntersection.segment (snap ((ofIntPt a : Pt F).add (((ofIntPt b : Pt F).sub (ofIntPt a)).scale (ofInt n))) [ofIntPt a, ofIntPt b, ofIntPt c, ofIntPt d])
        ((ofIntPt a : Pt F).add (((ofIntPt b : Pt F).sub (ofIntPt a)).scale (ofInt n)))) a b c d ∨ ¬ ((if n = 0 then a else b) = c ∨ (if n = 0 then a else b) = d) := by
    intro n hn
    by_cases hcd : (if n = 0 then a else b) = c ∨ (if n = 0 then a else b) = d
    · left
      have zn : isInt (ofInt n : F) n := IntVal.ofInt n (by rcases hn with rfl | rfl <;> norm_num)
      rw [IntVal.eq zn zn, decide_eq_true rfl, if_pos rfl]
      refine Or.inr ⟨_, if n = 0 then a else b, rfl, snap_int _ _ (end_point ha hb pa h0 zn hn) ends, ?_, hcd⟩
      split
      · exact Or.inl rfl
      · exact Or.inr rfl
    · exact Or.inr hcd
  unfold checkSpanOverlap
  rcases hor with hor | hor
  · rcases hor.lt_or_eq with hlt | heq
    · -- behind
      have : 1 < (U : ℚ) / L := by
        rw [lt_div_iff₀ (by linarith), one_mul]
        exact_mod_cast hlt
      have su := s4 this
      have hge : 1 + 1 / 2 ^ 34 ≤ val (div xu xl) := by
        have e1 : 1 + 1 / 2 ^ 33 ≤ (U : ℚ) / L := by
          have : (U : ℚ) / L = 1 + (U - L) / L := by field_simp; ring
          rw [this]
          have h2 : (1 : ℚ) ≤ U - L := by
            have : (1 : ℤ) ≤ U - L := by omega
            exact_mod_cast this
          have := div_le_div₀ (by linarith) h2 (by linarith) hLq2
          linarith
        have ub := rd_between (F := F) (x := (U : ℚ) / L) (le_trans (by norm_num) e1) ((abs_le.1 u1).2.trans (by norm_num))
        rw [s2]
        refine le_trans ?_ ub.1
        nlinarith
      have sv : 1 < val (add (div xu xl) (div xw xl)) := by
        rw [v2]
        refine rd_gt_one ?_ ?_
        · have : (1 : ℚ) / 2 ^ 40 ≤ 1 / 2 ^ 34 := by norm_num
          linarith
        · have := (abs_le.1 ule).2
          have : (2 : ℚ) ^ 33 + 2 ^ 34 ≤ 2 ^ 200 := by norm_num
          linarith
      rw [if_pos]
      · exact Or.inl rfl
      · rw [lt_val _ _ z1.1 mn1, v1', mn2]
        simp [su, sv]
    · -- the start is the end of the other one
      have s7 := s6 heq.symm
      have sv : 1 ≤ val (add (div xu xl) (div xw xl)) := by
        rw [v2, s7]
        have := rd_mono (F := F) (show (1 : ℚ) ≤ 1 + val (div xw xl) by linarith)
        rwa [rd_one] at this
      have hbc : b = c := by
        rw [← heq] at p1 p2
        have e1 := mul_left_cancel₀ (by omega : L ≠ 0) p1
        have e2 := mul_left_cancel₀ (by omega : L ≠ 0) p2
        exact Prod.ext (by omega) (by omega)
      rw [if_neg, if_neg]
      · rcases one 1 (Or.inr rfl) with h | h
        · exact h
        · exact absurd (Or.inl (by rw [if_neg (by norm_num)]; exact hbc)) h
      · rw [lt_val _ _ mn1 z1.1, v1', mn2, s7, min_eq_left sv]
        simp
      · rw [lt_val _ _ z1.1 mn1, lt_val _ _ mx1 z0.1, v1', v0, mn2, mx2, s7, min_eq_left sv, max_eq_right sv]
        simp only [lt_irrefl, decide_false, Bool.false_or, decide_eq_true_eq, not_lt]
        linarith
  · have hUneg : (U : ℚ) / L < 0 := by
      refine div_neg_of_neg_of_pos ?_ (by linarith)
      have : U < 0 := by omega
      exact_mod_cast this
    have su := s3 hUneg
    rcases hor.lt_or_eq with hlt | heq
    · -- before
      have sv : val (add (div xu xl) (div xw xl)) < 0 := by
        rw [v2]
        have h2 : (W : ℚ) + 1 ≤ -U := by
          have : W + 1 ≤ -U := by omega
          exact_mod_cast this
        have y0 : (W + 1 : ℚ) / L ≤ -(U / L) := by
          rw [← neg_div]
          exact div_le_div_of_nonneg_right h2 (by linarith)
        have y1 : 1 / 2 ^ 33 ≤ -((U : ℚ) / L) := by
          refine le_trans ?_ y0
          exact div_le_div₀ (by linarith) (by linarith) (by linarith) hLq2
        have ub := rd_between (F := F) (x := -((U : ℚ) / L)) (le_trans (by norm_num) y1) (by
          have := (abs_le.1 u1).1
          have : (2 : ℚ) ^ 33 ≤ 2 ^ 200 := by norm_num
          linarith)
        rw [rd_neg, ← s2] at ub
        have key : val (div xu xl) + val (div xw xl) ≤ -(1 / (2 * L)) := by
          have k1 : (W + 1 : ℚ) / L * (1 - 1 / 2 ^ 53) ≤ -val (div xu xl) := le_trans (mul_le_mul_of_nonneg_right y0 (by norm_num)) ub.1
          have k2 := wb.2
          have k3 : (W : ℚ) / L * (1 + 1 / 2 ^ 53) - (W + 1 : ℚ) / L * (1 - 1 / 2 ^ 53) ≤ -(1 / (2 * L)) := by
            have e : (W : ℚ) / L * (1 + 1 / 2 ^ 53) - (W + 1 : ℚ) / L * (1 - 1 / 2 ^ 53) = (2 * W / 2 ^ 53 - 1 + 1 / 2 ^ 53) / L := by
              field_simp
              ring
            have e2 : -(1 / (2 * (L : ℚ))) = (-(1 / 2)) / L := by
              field_simp
            rw [e, e2]
            refine div_le_div_of_nonneg_right ?_ (by linarith)
            have : 2 * (W : ℚ) / 2 ^ 53 ≤ 2 * 2 ^ 33 / 2 ^ 53 := div_le_div_of_nonneg_right (by linarith) (by norm_num)
            have : (2 : ℚ) * 2 ^ 33 / 2 ^ 53 - 1 + 1 / 2 ^ 53 ≤ -(1 / 2) := by norm_num
            linarith
          linarith
        have l1 : 1 / 2 ^ 34 ≤ 1 / (2 * (L : ℚ)) := by
          refine one_div_le_one_div_of_le (by linarith) ?_
          linarith
        refine rd_of_neg ?_ ?_
        · have : (1 : ℚ) / 2 ^ 200 ≤ 1 / 2 ^ 34 := by norm_num
          linarith
        · have := (abs_le.1 ule).1
          have : (2 : ℚ) ^ 33 ≤ 2 ^ 200 := by norm_num
          linarith
      rw [if_pos]
      · exact Or.inl rfl
      · rw [lt_val _ _ mx1 z0.1, v0, mx2]
        simp [su, sv]
    · -- the end is the start of the other one
      have sv : val (add (div xu xl) (div xw xl)) = 0 := by
        rw [v2, s2, t2]
        have : (U : ℚ) / L = -((W : ℚ) / L) := by
          rw [← neg_div]
          congr 1
          have : U = -W := by omega
          exact_mod_cast this
        rw [this, rd_neg, neg_add_cancel, rd_zero]
      have had : a = d := by
        have e1 : L * (d.1 - a.1) = 0 := by
          have : L * (d.1 - a.1) = (U + W) * (b.1 - a.1) := by linear_combination p1 + p3
          rw [this, heq, zero_mul]
        have e2 : L * (d.2 - a.2) = 0 := by
          have : L * (d.2 - a.2) = (U + W) * (b.2 - a.2) := by linear_combination p2 + p4
          rw [this, heq, zero_mul]
        have e1 := (mul_eq_zero.1 e1).resolve_left (by omega)
        have e2 := (mul_eq_zero.1 e2).resolve_left (by omega)
        exact Prod.ext (by omega) (by omega)
      rw [if_neg, if_pos, if_neg]
      · rcases one 0 (Or.inl rfl) with h | h
        · exact h
        · exact absurd (Or.inr (by rw [if_pos rfl]; exact had)) h
      · rw [lt_val _ _ z0.1 mx1, v0, mx2, sv, max_eq_right su.le]
        simp
      · rw [lt_val _ _ mn1 z1.1, v1', mn2, sv, min_eq_left su.le, decide_eq_true_iff]
        linarith
      · rw [lt_val _ _ z1.1 mn1, lt_val _ _ mx1 z0.1, v1', v0, mn2, mx2, sv, min_eq_left su.le, max_eq_right su.le]
        simp only [lt_irrefl, decide_false, Bool.or_false, decide_eq_true_eq, not_lt]
        linarith

end

end Double

end Idc
