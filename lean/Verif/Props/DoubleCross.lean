import Verif.Props.DoubleIntersect
import Verif.Props.F64
/-!
# Intersecting segments that cross, in double precision, for C83
-/

namespace Idc

open FloatOps

namespace Double

variable {F : Type} [FloatOps F] [Double F]

open IntVal

theorem rd_near {x : ℚ} (h : |x| ≤ 2 ^ 200) : |rd F x - x| ≤ |x| / 2 ^ 53 + 1 / 2 ^ 198 := by
  by_cases h0 : 1 / 2 ^ 200 ≤ |x|
  · have := rd_close (F := F) x h0 h
    have h2 : (0 : ℚ) ≤ 1 / 2 ^ 198 := by positivity
    linarith
  · push Not at h0
    have hb := rd_between (F := F) (x := 1 / 2 ^ 200) (le_refl _) (by norm_num)
    have h1 : rd F x ≤ rd F (1 / 2 ^ 200) := rd_mono (by linarith [le_abs_self x])
    have h2 : rd F (-(1 / 2 ^ 200)) ≤ rd F x := rd_mono (by linarith [neg_abs_le x])
    rw [rd_neg] at h2
    have h3 := neg_abs_le x
    have h4 := le_abs_self x
    have h5 : (1 / 2 ^ 200 : ℚ) * (1 + 1 / 2 ^ 53) + 1 / 2 ^ 200 ≤ 1 / 2 ^ 198 := by norm_num
    have h6 : (0 : ℚ) ≤ |x| / 2 ^ 53 := by positivity
    rw [abs_le]
    constructor <;> linarith [hb.2]

/-- Rounding changes a number of at most `2^18` by at most `2^-34` or so. -/
theorem rd_near' {x : ℚ} {n : ℕ} (hn : n ≤ 53) (h : |x| ≤ 2 ^ n) : |rd F x - x| ≤ 2 ^ n / 2 ^ 53 + 1 / 2 ^ 198 := by
  have h1 := rd_near (F := F) (x := x) (h.trans (pow_le_pow_right₀ (by norm_num) (by omega)))
  have : |x| / 2 ^ 53 ≤ 2 ^ n / 2 ^ 53 := by gcongr
  linarith

/-- A part of the way along a segment. -/
theorem walk_close {p d s : F} {a b : ℤ} {t : ℚ} (hp : IntB p a (2 ^ 15)) (hd : IntB d b (2 ^ 15 + 2 ^ 15)) (hs : fin s) (hsv : val s = rd F t)
    (t0 : 0 ≤ t) (t1 : t ≤ 1) : fin (add p (mul d s)) ∧ |val (add p (mul d s)) - (a + b * t)| ≤ 1 / 2 ^ 34 := by
  have s0 : 0 ≤ val s := by rw [hsv]; exact rd_nonneg t0
  have s1 : val s ≤ 1 := by
    rw [hsv]
    have := rd_mono (F := F) t1
    have e := rd_int (F := F) 1 (by norm_num)
    norm_num at e
    rwa [e] at this
  have hb : |(b : ℚ)| ≤ 2 ^ 16 := by
    have := hd.2
    have : |b| ≤ 2 ^ 16 := this.trans (by norm_num)
    exact_mod_cast this
  have ha : |(a : ℚ)| ≤ 2 ^ 15 := by exact_mod_cast hp.2
  have hpv := hp.1.2
  have hdv := hd.1.2
  have e1 : |val s - t| ≤ 2 ^ 0 / 2 ^ 53 + 1 / 2 ^ 198 := by
    rw [hsv]
    exact rd_near' (by norm_num) (by rw [abs_of_nonneg t0]; simpa using t1)
  have hm : |(b : ℚ) * val s| ≤ 2 ^ 16 := by
    rw [abs_mul, abs_of_nonneg s0]
    calc |(b : ℚ)| * val s ≤ 2 ^ 16 * 1 := by gcongr
      _ = _ := mul_one _
  obtain ⟨m1, m2⟩ := mul_val d s hd.1.1 hs (by rw [hdv]; exact hm.trans (by norm_num))
  rw [hdv] at m2
  have e2 : |val (mul d s) - b * val s| ≤ 2 ^ 16 / 2 ^ 53 + 1 / 2 ^ 198 := by
    rw [m2]; exact rd_near' (by norm_num) hm
  have hsum : |(a : ℚ) + val (mul d s)| ≤ 2 ^ 17 := by
    have h1 := abs_le.1 e2
    have h2 := abs_le.1 hm
    have h3 := abs_le.1 ha
    norm_num at h1 h2 h3 ⊢
    rw [abs_le]
    constructor <;> linarith
  obtain ⟨x1, x2⟩ := add_val p (mul d s) hp.1.1 m1 (by rw [hpv]; exact hsum.trans (by norm_num))
  rw [hpv] at x2
  refine ⟨x1, ?_⟩
  have e3 : |val (add p (mul d s)) - (a + val (mul d s))| ≤ 2 ^ 17 / 2 ^ 53 + 1 / 2 ^ 198 := by
    rw [x2]; exact rd_near' (by norm_num) hsum
  have e4 : |(b : ℚ) * (val s - t)| ≤ 2 ^ 16 * (2 ^ 0 / 2 ^ 53 + 1 / 2 ^ 198) := by
    rw [abs_mul]
    gcongr
  rw [abs_le] at e2 e3 e4 ⊢
  norm_num at e2 e3 e4 ⊢
  constructor <;> linarith

/-- A small distance, as computed, is small. -/
theorem near_of_sq {x y u v : F} {a b : ℤ} {X Y : ℚ} (hx : fin x) (hy : fin y) (hu : IntB u a (2 ^ 15)) (hv : IntB v b (2 ^ 15)) (bx : |val x - X| ≤ 1 / 2 ^ 34)
    (by' : |val y - Y| ≤ 1 / 2 ^ 34) (hX : |X| ≤ 2 ^ 17) (hY : |Y| ≤ 2 ^ 17)
    (h : lt (add (mul (sub x u) (sub x u)) (mul (sub y v) (sub y v))) epsilon = true) :
    |(a : ℚ) - X| ≤ 4 / 10 ^ 8 ∧ |(b : ℚ) - Y| ≤ 4 / 10 ^ 8 := by
  have key : ∀ {x u : F} {a : ℤ} {X : ℚ}, fin x → IntB u a (2 ^ 15) → |val x - X| ≤ 1 / 2 ^ 34 → |X| ≤ 2 ^ 17 →
      fin (mul (sub x u) (sub x u)) ∧ 0 ≤ val (mul (sub x u) (sub x u)) ∧ val (mul (sub x u) (sub x u)) ≤ 2 ^ 40 ∧
      (12 / 10 ^ 16 < val (mul (sub x u) (sub x u)) ∨ |(a : ℚ) - X| ≤ 4 / 10 ^ 8) := by
    intro x u a X hx hu bx hX
    have ha : |(a : ℚ)| ≤ 2 ^ 15 := by exact_mod_cast hu.2
    have huv := hu.1.2
    have hd : |val x - a| ≤ 2 ^ 18 := by
      rw [abs_le] at bx hX ha ⊢
      norm_num at bx hX ha ⊢
      constructor <;> linarith
    obtain ⟨d1, d2⟩ := sub_val x u hx hu.1.1 (by rw [huv]; exact hd.trans (by norm_num))
    rw [huv] at d2
    have hw : |val (sub x u)| ≤ 2 ^ 19 := by
      have := rd_near' (F := F) (n := 18) (by norm_num) hd
      rw [← d2] at this
      rw [abs_le] at this hd ⊢
      norm_num at this hd ⊢
      constructor <;> linarith
    have hw2 : val (sub x u) * val (sub x u) ≤ 2 ^ 38 := by
      rw [← abs_mul_abs_self]
      calc |val (sub x u)| * |val (sub x u)| ≤ 2 ^ 19 * 2 ^ 19 := by gcongr
        _ = _ := by norm_num
    have hw0 := mul_self_nonneg (val (sub x u))
    obtain ⟨m1, m2⟩ := mul_val (sub x u) (sub x u) d1 d1 (by rw [abs_of_nonneg hw0]; exact hw2.trans (by norm_num))
    have m3 := rd_near' (F := F) (n := 38) (by norm_num) (by rw [abs_of_nonneg hw0]; exact hw2)
    rw [← m2] at m3
    refine ⟨m1, by rw [m2]; exact rd_nonneg hw0, ?_, ?_⟩
    · rw [abs_le] at m3
      norm_num at m3 hw2 ⊢
      linarith [m3.2]
    · by_contra hcon
      push Not at hcon
      obtain ⟨c1, c2⟩ := hcon
      have g1 : 39 / 10 ^ 9 ≤ |val x - a| := by
        have : |(a : ℚ) - X| ≤ |val x - a| + |val x - X| := by
          have := abs_sub_le (a : ℚ) (val x) X
          rwa [abs_sub_comm (a : ℚ) (val x)] at this
        norm_num at bx c2 ⊢
        linarith
      have g2 : 38 / 10 ^ 9 ≤ |val (sub x u)| := by
        have h1 := rd_close (F := F) (val x - a) (le_trans (by norm_num) g1) (hd.trans (by norm_num))
        rw [← d2] at h1
        have h2 : |val x - a| ≤ |val (sub x u)| + |val (sub x u) - (val x - a)| := by
          have := abs_sub_abs_le_abs_sub (val x - a) (val (sub x u))
          rw [abs_sub_comm (val x - a)] at this
          linarith
        norm_num at g1 h1 h2 ⊢
        linarith
      have g3 : (38 / 10 ^ 9) * (38 / 10 ^ 9) ≤ val (sub x u) * val (sub x u) := by
        rw [← abs_mul_abs_self (val (sub x u))]
        exact mul_le_mul g2 g2 (by norm_num) (abs_nonneg _)
      have g4 := (rd_between (F := F) (x := val (sub x u) * val (sub x u)) (le_trans (by norm_num) g3) (hw2.trans (by norm_num))).1
      rw [← m2] at g4
      norm_num at g3 g4 c1
      linarith
  obtain ⟨x1, x2, x3, x4⟩ := key hx hu bx hX
  obtain ⟨y1, y2, y3, y4⟩ := key hy hv by' hY
  obtain ⟨e1, e2⟩ := lit_val (F := F) 1 15 (by norm_num)
  have eb := rd_between (F := F) (x := ((1 : ℤ) : ℚ) / 10 ^ 15) (by norm_num) (by norm_num)
  rw [← e2] at eb
  generalize mul (sub x u) (sub x u) = m at *
  generalize mul (sub y v) (sub y v) = n at *
  have hsum : |val m + val n| ≤ 2 ^ 41 := by
    rw [abs_of_nonneg (by linarith)]
    norm_num at x3 y3 ⊢
    linarith
  obtain ⟨s1, s2⟩ := add_val m n x1 y1 (hsum.trans (by norm_num))
  unfold epsilon at h
  rw [lt_val _ _ s1 e1, decide_eq_true_iff, s2] at h
  have big : ∀ w : ℚ, 12 / 10 ^ 16 < w → w ≤ val m + val n → False := by
    intro w h1 h2
    have h3 := (rd_between (F := F) (x := val m + val n) (le_trans (by norm_num) (h1.le.trans h2)) (by linarith [le_abs_self (val m + val n), hsum, (by norm_num : (2 : ℚ) ^ 41 ≤ 2 ^ 200)])).1
    have h4 := eb.2
    norm_num at h1 h2 h3 h4
    linarith
  constructor
  · exact x4.resolve_left fun h' => big _ h' (by linarith)
  · exact y4.resolve_left fun h' => big _ h' (by linarith)

/-- `snap` leaves the point where it is or moves it to an end nearby. -/
theorem snap_close {X Y : ℚ} (hX : |X| ≤ 2 ^ 17) (hY : |Y| ≤ 2 ^ 17) : ∀ (es : List (Pt F)) (i : Pt F), fin i.x → fin i.y → |val i.x - X| ≤ 1 / 2 ^ 34 →
    |val i.y - Y| ≤ 1 / 2 ^ 34 → (∀ e ∈ es, ∃ a, PtB e a (2 ^ 15)) →
    (fin (snap i es).x ∧ fin (snap i es).y ∧ |val (snap i es).x - X| ≤ 1 / 2 ^ 34 ∧ |val (snap i es).y - Y| ≤ 1 / 2 ^ 34) ∨
    ∃ z : ℤ × ℤ, PtB (snap i es) z (2 ^ 17) ∧ |(z.1 : ℚ) - X| ≤ 4 / 10 ^ 8 ∧ |(z.2 : ℚ) - Y| ≤ 4 / 10 ^ 8
  | [], i, fx, fy, hx, hy, _ => Or.inl ⟨fx, fy, hx, hy⟩
  | e :: es, i, fx, fy, hx, hy, he => by
    unfold snap
    obtain ⟨a, ha⟩ := he e (List.mem_cons_self ..)
    split
    · rename_i hlt
      have h1 := near_of_sq fx fy ha.1 ha.2 hx hy hX hY hlt
      exact Or.inr ⟨a, snap_int es e (PtB.mono ha (by norm_num)) fun e' h' => he e' (List.mem_cons_of_mem _ h'), h1⟩
    · exact snap_close hX hY es i fx fy hx hy fun e' h' => he e' (List.mem_cons_of_mem _ h')

section

variable {a b c d : ℤ × ℤ} (ha : Small a) (hb : Small b) (hc : Small c) (hd : Small d)

/-- The parameters at which the lines meet, as exact quotients. -/
def zA (a c d : ℤ × ℤ) : ℤ := (c.1 - a.1) * (d.2 - c.2) - (c.2 - a.2) * (d.1 - c.1)

include ha hb hc hd in
/-- Segments at an angle, in rounded arithmetic. -/
theorem intersect_cross (hround : ∀ x : F, fin x → fin (roundCoord x) ∧ |val (roundCoord x) - val x| ≤ 2 / 10 ^ 9)
    (hab : a ≠ b) (hcd : c ≠ d) (hang : 11 * zLen a b * zLen c d < 10 ^ 8 * zKross a b c d ^ 2) :
    (((0 ≤ (zA a c d : ℚ) / zKross a b c d ∧ (zA a c d : ℚ) / zKross a b c d ≤ 1) ∧ (0 ≤ (zA a c b : ℚ) / zKross a b c d ∧ (zA a c b : ℚ) / zKross a b c d ≤ 1)) ∧
      ∃ p, intersectSegments ((ofIntPt a : Pt F), ofIntPt b) (ofIntPt c, ofIntPt d) = .point p ∧ fin p.x ∧ fin p.y ∧
        |val p.x - (a.1 + (b.1 - a.1) * ((zA a c d : ℚ) / zKross a b c d))| ≤ 1 / 10 ^ 7 ∧ |val p.y - (a.2 + (b.2 - a.2) * ((zA a c d : ℚ) / zKross a b c d))| ≤ 1 / 10 ^ 7) ∨
    (¬ ((0 ≤ (zA a c d : ℚ) / zKross a b c d ∧ (zA a c d : ℚ) / zKross a b c d ≤ 1) ∧ (0 ≤ (zA a c b : ℚ) / zKross a b c d ∧ (zA a c b : ℚ) / zKross a b c d ≤ 1)) ∧
      intersectSegments ((ofIntPt a : Pt F), ofIntPt b) (ofIntPt c, ofIntPt d) = .none) := by
  have pa : PtB (ofIntPt a : Pt F) a (2 ^ 15) := ha.pt
  have pb : PtB (ofIntPt b : Pt F) b (2 ^ 15) := hb.pt
  have pc : PtB (ofIntPt c : Pt F) c (2 ^ 15) := hc.pt
  have pd : PtB (ofIntPt d : Pt F) d (2 ^ 15) := hd.pt
  have h0 := pb.sub pa (by norm_num)
  have h1 := pd.sub pc (by norm_num)
  have hs := pc.sub pa (by norm_num)
  have hk : IntB (((ofIntPt b : Pt F).sub (ofIntPt a)).cross ((ofIntPt d : Pt F).sub (ofIntPt c))) (zKross a b c d) (2 ^ 33) := h0.cross h1 (by norm_num) (by norm_num)
  have hl0 : IntB ((ofIntPt b : Pt F).sub (ofIntPt a)).sqLength (zLen a b) (2 ^ 33) := h0.dot h0 (by norm_num) (by norm_num)
  have hl1 : IntB ((ofIntPt d : Pt F).sub (ofIntPt c)).sqLength (zLen c d) (2 ^ 33) := h1.dot h1 (by norm_num) (by norm_num)
  have hA : IntB (((ofIntPt c : Pt F).sub (ofIntPt a)).cross ((ofIntPt d : Pt F).sub (ofIntPt c))) (zA a c d) (2 ^ 33) := hs.cross h1 (by norm_num) (by norm_num)
  have hB : IntB (((ofIntPt c : Pt F).sub (ofIntPt a)).cross ((ofIntPt b : Pt F).sub (ofIntPt a))) ((c.1 - a.1) * (b.2 - a.2) - (c.2 - a.2) * (b.1 - a.1)) (2 ^ 33) :=
    hs.cross h0 (by norm_num) (by norm_num)
  have eB : (c.1 - a.1) * (b.2 - a.2) - (c.2 - a.2) * (b.1 - a.1) = zA a c b := by unfold zA; ring
  rw [eB] at hB
  have hK : zKross a b c d ≠ 0 := by
    intro h
    rw [h] at hang
    have := mul_pos (lt_of_lt_of_le one_pos (zLen_pos hab)) (lt_of_lt_of_le one_pos (zLen_pos hcd))
    nlinarith
  set A := zA a c d with hAdef
  set B := zA a c b with hBdef
  set K := zKross a b c d with hKdef
  obtain ⟨s1, s2, s3, s4, _, _⟩ := quot hA hk hK
  obtain ⟨t1, t2, t3, t4, _, _⟩ := quot hB hk hK
  have z0 : isInt (ofInt 0 : F) 0 := IntVal.ofInt 0 (by norm_num)
  have z1 : isInt (ofInt 1 : F) 1 := IntVal.ofInt 1 (by norm_num)
  have one : rd F 1 = 1 := by
    have e := rd_int (F := F) 1 (by norm_num)
    exact_mod_cast e
  have test : ∀ {s : F} {q : ℚ}, fin s → val s = rd F q → (q < 0 → val s < 0) → (1 < q → 1 < val s) →
      ((lt s (ofInt 0) || lt (ofInt 1) s) = true ↔ ¬ (0 ≤ q ∧ q ≤ 1)) := by
    intro s q f1 f2 f3 f4
    rw [lt_val _ _ f1 z0.1, lt_val _ _ z1.1 f1, z0.2, z1.2]
    simp only [Bool.or_eq_true, decide_eq_true_eq, Int.cast_zero, Int.cast_one]
    constructor
    · rintro (h | h) ⟨h', h''⟩
      · have := rd_nonneg (F := F) h'
        linarith
      · have := rd_mono (F := F) h''
        rw [one] at this
        linarith
    · intro h
      by_contra hcon
      push Not at hcon
      refine h ⟨?_, ?_⟩
      · by_contra h'; have := f3 (not_le.1 h'); linarith [hcon.1]
      · by_contra h'; have := f4 (not_le.1 h'); linarith [hcon.2]
  have T1 := test s1 s2 s3 s4
  have T2 := test t1 t2 t3 t4
  unfold intersectSegments
  dsimp only
  rw [if_pos (test_true hl0 hl1 hk (zLen_pos hab) (zLen_pos hcd) hang)]
  split
  · rename_i n1
    exact Or.inr ⟨fun h => T1.1 n1 h.1, rfl⟩
  · rename_i n1
    split
    · rename_i n2
      exact Or.inr ⟨fun h => T2.1 n2 h.2, rfl⟩
    · rename_i n2
      have u := not_not.1 fun h => n1 (T1.2 h)
      have v := not_not.1 fun h => n2 (T2.2 h)
      refine Or.inl ⟨⟨u, v⟩, _, rfl, ?_⟩
      dsimp only
      have wx := walk_close pa.1 h0.1 s1 s2 u.1 u.2
      have wy := walk_close pa.2 h0.2 s1 s2 u.1 u.2
      dsimp only at wx wy
      push_cast at wx wy
      have bound : ∀ {m n : ℤ}, |m| ≤ 2 ^ 15 → |n| ≤ 2 ^ 15 → |(m : ℚ) + (n - m) * ((A : ℚ) / K)| ≤ 2 ^ 17 := by
        intro m n hm hn
        have hm' := abs_le.1 hm
        have hn' := abs_le.1 hn
        have m1 : (-2 ^ 15 : ℚ) ≤ m := by exact_mod_cast hm'.1
        have m2 : (m : ℚ) ≤ 2 ^ 15 := by exact_mod_cast hm'.2
        have n1 : (-2 ^ 15 : ℚ) ≤ n := by exact_mod_cast hn'.1
        have n2 : (n : ℚ) ≤ 2 ^ 15 := by exact_mod_cast hn'.2
        rw [abs_le]
        norm_num at m1 m2 n1 n2 ⊢
        constructor <;> nlinarith [u.1, u.2]
      have := snap_close (F := F) (X := (a.1 : ℚ) + (b.1 - a.1) * ((A : ℚ) / K)) (Y := (a.2 : ℚ) + (b.2 - a.2) * ((A : ℚ) / K)) (bound ha.1 hb.1) (bound ha.2 hb.2)
        [(ofIntPt a : Pt F), ofIntPt b, ofIntPt c, ofIntPt d] ((ofIntPt a : Pt F).add (((ofIntPt b : Pt F).sub (ofIntPt a)).scale
          (div (((ofIntPt c : Pt F).sub (ofIntPt a)).cross ((ofIntPt d : Pt F).sub (ofIntPt c))) (((ofIntPt b : Pt F).sub (ofIntPt a)).cross ((ofIntPt d : Pt F).sub (ofIntPt c)))))) wx.1 wy.1 wx.2 wy.2 (by
        intro e he
        simp only [List.mem_cons, List.not_mem_nil, or_false] at he
        rcases he with rfl | rfl | rfl | rfl
        · exact ⟨_, pa⟩
        · exact ⟨_, pb⟩
        · exact ⟨_, pc⟩
        · exact ⟨_, pd⟩)
      rcases this with ⟨k1, k2, k3, k4⟩ | ⟨z, k1, k2, k3⟩
      · have r1 := hround _ k1
        have r2 := hround _ k2
        refine ⟨r1.1, r2.1, ?_, ?_⟩
        · refine (abs_sub_le _ _ _).trans ((add_le_add r1.2 k3).trans (by norm_num))
        · refine (abs_sub_le _ _ _).trans ((add_le_add r2.2 k4).trans (by norm_num))
      · have r1 := roundCoord_int k1.1.1
        have r2 := roundCoord_int k1.2.1
        refine ⟨r1.1, r2.1, ?_, ?_⟩
        · rw [r1.2]; exact k2.trans (by norm_num)
        · rw [r2.2]; exact k3.trans (by norm_num)

end

end Double

namespace F64

set_option linter.constructorNameAsVariable false in
/-- Rounding to a whole number happens only close to one. -/
theorem roundCoord_close (x : F64) (h : Fin x) : Fin (roundCoord x) ∧ |val (roundCoord x) - val x| ≤ 2 / 10 ^ 9 := by
  unfold roundCoord
  split
  · rename_i hlt
    obtain ⟨s, q, rfl, hq⟩ := h.num
    obtain ⟨e1, e2⟩ := Double.lit_val (F := F64) 1 9 (by norm_num)
    have eb := Double.rd_between (F := F64) (x := ((1 : ℤ) : ℚ) / 10 ^ 9) (by norm_num) (by norm_num)
    rw [← e2] at eb
    unfold fractEps at hlt
    clear e2
    generalize (FloatOps.lit 1 9 : F64) = w at *
    have e1 : Fin w := e1
    have hfe : q.floor = Int.floor q := rfl
    have hf0 : 0 ≤ q - q.floor := by have := Int.floor_le q; rw [hfe]; linarith
    have hfl : 0 ≤ Int.floor q := Int.floor_nonneg.2 hq
    have hfr : FloatOps.abs (FloatOps.fract (F64.num s q)) = .num false (q - q.floor) := by
      show abs (fract (F64.num s q)) = _
      unfold fract
      dsimp only
      split
      · rename_i h0; rw [h0]; rfl
      · rfl
    rw [hfr] at hlt
    have hlt' := F64.lt_val (.num false (q - q.floor)) w hf0 e1
    have hlt := hlt'.symm.trans hlt
    rw [decide_eq_true_iff] at hlt
    have hv : val (F64.num false (q - q.floor)) = q - q.floor := rfl
    rw [hv, hfe] at hlt
    have hlt : q - Int.floor q < Double.val w := hlt
    clear hlt'
    have h4 := eb.2
    have h5 : ((1 : ℤ) : ℚ) / 10 ^ 9 * (1 + 1 / 2 ^ 53) ≤ 2 / 10 ^ 9 := by norm_num
    have hsmall : q - Int.floor q ≤ 2 / 10 ^ 9 := by linarith
    have hr : Int.floor (q + 1 / 2) = Int.floor q := by
      rw [Int.floor_eq_iff]
      norm_num at hsmall
      constructor
      · have := Int.floor_le q; linarith
      · linarith
    have hround : FloatOps.round (F64.num s q) = .num s (Int.floor q : ℚ) := by
      show F64.num s ((q + 1 / 2).floor : ℚ) = _
      rw [show ((q + 1 / 2).floor) = Int.floor (q + 1 / 2) from rfl, hr]
    rw [hround]
    refine ⟨show (0 : ℚ) ≤ _ by exact_mod_cast hfl, ?_⟩
    have hf1 := Int.floor_le q
    unfold val
    cases s
    · simp only [Bool.false_eq_true, if_false]
      rw [abs_sub_comm, abs_of_nonneg (by linarith)]; exact hsmall
    · simp only [if_true]
      rw [show -((Int.floor q : ℤ) : ℚ) - -q = q - Int.floor q by ring, abs_of_nonneg (by linarith)]; exact hsmall
  · exact ⟨h, by rw [sub_self, abs_zero]; norm_num⟩

end F64

end Idc
