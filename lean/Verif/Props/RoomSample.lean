import Verif.Props.RealOfDouble
import Verif.Props.StretchedExample
import Verif.Props.RemovedExample
/-!
# C91: a room 100 wide and 100 high
-/

namespace Idc

open Plan

/-- The polygons for a room 100 wide and 100 high: the room itself, and the zones around its four walls. -/
def chamberSample : List (List (List ZPt) × PolygonMode) :=
  [([[(0, 0), (0, 100), (100, 100), (100, 0)]], .removeEdges),
    ([[(-16, 116), (16, 116), (16, 84), (16, -16), (-16, -16), (-16, 16)]], .removeInterior),
    ([[(84, 116), (116, 116), (116, 84), (16, 84), (-16, 84), (-16, 116)]], .removeInterior),
    ([[(84, 116), (116, 116), (116, 84), (116, -16), (84, -16), (84, 16)]], .removeInterior),
    ([[(-16, -16), (-16, 16), (16, 16), (116, 16), (116, -16), (84, -16)]], .removeInterior)]

/-- The same with the crossings as corners. -/
def chamberSampleCut : List (List (List ZPt) × PolygonMode) :=
  [([[(0, 0), (0, 16), (0, 84), (0, 100), (16, 100), (84, 100), (100, 100), (100, 84), (100, 16), (100, 0), (84, 0), (16, 0)]], .removeEdges),
    ([[(-16, 116), (16, 116), (16, 100), (16, 84), (16, 16), (16, 0), (16, -16), (-16, -16), (-16, 16), (-16, 84)]], .removeInterior),
    ([[(84, 116), (116, 116), (116, 84), (100, 84), (84, 84), (16, 84), (0, 84), (-16, 84), (-16, 116), (16, 116)]], .removeInterior),
    ([[(84, 116), (116, 116), (116, 84), (116, 16), (116, -16), (84, -16), (84, 0), (84, 16), (84, 84), (84, 100)]], .removeInterior),
    ([[(-16, -16), (-16, 16), (0, 16), (16, 16), (84, 16), (100, 16), (116, 16), (116, -16), (84, -16), (16, -16)]], .removeInterior)]

theorem chamber_crossed : Crossed (chamberSample.map fun p => (zPolygon p.1, p.2)) (chamberSampleCut.map fun p => (zPolygon p.1, p.2)) :=
  crossed_of_check (by decide +kernel)

theorem zPolygon_edges_flat (rs : List (List ZPt)) : (zPolygon rs).edges = (rs.flatMap zEdges).map fun e => (e.1.toPt, e.2.toPt) := by
  have := allEdges_z [(rs, .normal)]
  simpa [allEdges] using this

/-- A number of edges below a point, by calculation. -/
theorem evenOdd_z {rs : List (List ZPt)} {v : Pt ℝ} (l : List Bool) (hl : l.count true % 2 = 1)
    (h : List.Forall₂ (fun e b => CrossesBelow v (ZPt.toPt e.1, ZPt.toPt e.2) ↔ b = true) (rs.flatMap zEdges) l) : (zPolygon rs).evenOdd v := by
  classical
  unfold Polygon.evenOdd
  rw [zPolygon_edges_flat, List.countP_map]
  have : ∀ (es : List (ZPt × ZPt)) (l : List Bool), List.Forall₂ (fun e b => CrossesBelow v (ZPt.toPt e.1, ZPt.toPt e.2) ↔ b = true) es l →
      es.countP ((fun e => decide (CrossesBelow v e)) ∘ fun e => (ZPt.toPt e.1, ZPt.toPt e.2)) = l.count true := by
    intro es l h
    induction h with
    | nil => rfl
    | @cons e b es l h1 _ ih =>
      rw [List.countP_cons, List.count_cons, ih]
      congr 1
      simp only [Function.comp, decide_eq_true_iff, h1, beq_iff_eq]
  rw [this _ _ h, Nat.odd_iff]
  exact hl

theorem upright_no {v : Pt ℝ} {a b c : ℤ} : CrossesBelow v (ZPt.toPt (a, b), ZPt.toPt (a, c)) ↔ false = true := by
  unfold CrossesBelow ZPt.toPt
  simp only [min_self, max_self, Bool.false_eq_true, iff_false]
  rintro ⟨h1, h2, _⟩
  linarith

theorem level_iff {v : Pt ℝ} {a b c : ℤ} : CrossesBelow v (ZPt.toPt (a, c), ZPt.toPt (b, c)) ↔ ((a : ℝ) ≤ v.x ∨ (b : ℝ) ≤ v.x) ∧ (v.x < a ∨ v.x < b) ∧ (c : ℝ) < v.y := by
  unfold CrossesBelow ZPt.toPt
  simp

theorem level_yes {v : Pt ℝ} {a b c : ℤ} (h1 : (a : ℝ) ≤ v.x ∨ (b : ℝ) ≤ v.x) (h2 : v.x < a ∨ v.x < b) (h3 : (c : ℝ) < v.y) :
    CrossesBelow v (ZPt.toPt (a, c), ZPt.toPt (b, c)) ↔ true = true := by
  rw [level_iff]; exact iff_of_true ⟨h1, h2, h3⟩ rfl

theorem level_above {v : Pt ℝ} {a b c : ℤ} (h : v.y ≤ c) : CrossesBelow v (ZPt.toPt (a, c), ZPt.toPt (b, c)) ↔ false = true := by
  rw [level_iff]; exact iff_of_false (fun ⟨_, _, h'⟩ => by linarith) (by decide)

theorem level_right {v : Pt ℝ} {a b c : ℤ} (h1 : v.x < a) (h2 : v.x < b) : CrossesBelow v (ZPt.toPt (a, c), ZPt.toPt (b, c)) ↔ false = true := by
  rw [level_iff]; exact iff_of_false (fun ⟨h, _, _⟩ => by rcases h with h | h <;> linarith) (by decide)

theorem level_left {v : Pt ℝ} {a b c : ℤ} (h1 : a ≤ v.x) (h2 : b ≤ v.x) : CrossesBelow v (ZPt.toPt (a, c), ZPt.toPt (b, c)) ↔ false = true := by
  rw [level_iff]; exact iff_of_false (fun ⟨_, h, _⟩ => by rcases h with h | h <;> linarith) (by decide)

theorem chamber_left {v : Pt ℝ} (h1 : -16 < v.x) (h2 : v.x < 16) (h3 : -16 < v.y) (h4 : v.y < 116) :
    (zPolygon [[(-16, 116), (16, 116), (16, 84), (16, -16), (-16, -16), (-16, 16)]]).evenOdd v :=
  evenOdd_z [false, false, false, true, false, false] (by decide)
    (.cons (level_above (by push_cast; linarith)) (.cons upright_no (.cons upright_no (.cons (level_yes (.inr (by push_cast; linarith)) (.inl (by push_cast; linarith)) (by push_cast; linarith))
      (.cons upright_no (.cons upright_no .nil))))))

theorem chamber_top {v : Pt ℝ} (h1 : -16 < v.x) (h2 : v.x < 116) (h3 : 84 < v.y) (h4 : v.y < 116) :
    (zPolygon [[(84, 116), (116, 116), (116, 84), (16, 84), (-16, 84), (-16, 116)]]).evenOdd v := by
  rcases lt_or_ge v.x 16 with h | h
  · exact evenOdd_z [false, false, false, true, false, false] (by decide)
      (.cons (level_above (by push_cast; linarith)) (.cons upright_no (.cons (level_right (by push_cast; linarith) (by push_cast; linarith))
        (.cons (level_yes (.inr (by push_cast; linarith)) (.inl (by push_cast; linarith)) (by push_cast; linarith)) (.cons upright_no (.cons (level_above (by push_cast; linarith)) .nil))))))
  · exact evenOdd_z [false, false, true, false, false, false] (by decide)
      (.cons (level_above (by push_cast; linarith)) (.cons upright_no (.cons (level_yes (.inr (by push_cast; linarith)) (.inl (by push_cast; linarith)) (by push_cast; linarith))
        (.cons (level_left (by push_cast; linarith) (by push_cast; linarith)) (.cons upright_no (.cons (level_above (by push_cast; linarith)) .nil))))))

theorem chamber_right {v : Pt ℝ} (h1 : 84 < v.x) (h2 : v.x < 116) (h3 : -16 < v.y) (h4 : v.y < 116) :
    (zPolygon [[(84, 116), (116, 116), (116, 84), (116, -16), (84, -16), (84, 16)]]).evenOdd v :=
  evenOdd_z [false, false, false, true, false, false] (by decide)
    (.cons (level_above (by push_cast; linarith)) (.cons upright_no (.cons upright_no (.cons (level_yes (.inr (by push_cast; linarith)) (.inl (by push_cast; linarith)) (by push_cast; linarith))
      (.cons upright_no (.cons upright_no .nil))))))

theorem chamber_bottom {v : Pt ℝ} (h1 : -16 < v.x) (h2 : v.x < 116) (h3 : -16 < v.y) (h4 : v.y < 16) :
    (zPolygon [[(-16, -16), (-16, 16), (16, 16), (116, 16), (116, -16), (84, -16)]]).evenOdd v := by
  rcases lt_or_ge v.x 84 with h | h
  · exact evenOdd_z [false, false, false, false, false, true] (by decide)
      (.cons upright_no (.cons (level_above (by push_cast; linarith)) (.cons (level_above (by push_cast; linarith)) (.cons upright_no (.cons (level_right (by push_cast; linarith) (by push_cast; linarith))
        (.cons (level_yes (.inr (by push_cast; linarith)) (.inl (by push_cast; linarith)) (by push_cast; linarith)) .nil))))))
  · exact evenOdd_z [false, false, false, false, true, false] (by decide)
      (.cons upright_no (.cons (level_above (by push_cast; linarith)) (.cons (level_above (by push_cast; linarith)) (.cons upright_no
        (.cons (level_yes (.inr (by push_cast; linarith)) (.inl (by push_cast; linarith)) (by push_cast; linarith)) (.cons (level_left (by push_cast; linarith) (by push_cast; linarith)) .nil))))))

/-- Both ends of an edge are on the same wall. -/
def wallCheck (e : ZPt × ZPt) : Bool := decide (0 ≤ e.1.1 ∧ e.1.1 ≤ 100 ∧ 0 ≤ e.1.2 ∧ e.1.2 ≤ 100 ∧ 0 ≤ e.2.1 ∧ e.2.1 ≤ 100 ∧ 0 ≤ e.2.2 ∧ e.2.2 ≤ 100) &&
  decide ((e.1.1 = 0 ∧ e.2.1 = 0) ∨ (e.1.1 = 100 ∧ e.2.1 = 100) ∨ (e.1.2 = 0 ∧ e.2.2 = 0) ∨ (e.1.2 = 100 ∧ e.2.2 = 100))

/-- What is next to a wall is in the zone around it. -/
theorem chamber_dark {d : Pt ℝ × Pt ℝ} {f : List Bool} (hd : ∃ e : ZPt × ZPt, wallCheck e = true ∧ d = (e.1.toPt, e.2.toPt))
    (hf : AreaLeft (chamberSampleCut.map fun p => (zPolygon p.1, p.2)) d f) : ¬ FlagsOk (chamberSampleCut.map fun p => (zPolygon p.1, p.2)) f := by
  rintro ⟨-, -, hok⟩
  obtain ⟨-, δ₀, hδ, hf⟩ := hf
  have hpos : 0 < min δ₀ (1 / 10) / 2 := by positivity
  have hlt : min δ₀ (1 / 10) / 2 < δ₀ := by have := min_le_left δ₀ (1 / 10); linarith
  have hle : min δ₀ (1 / 10) / 2 ≤ 1 / 20 := by have := min_le_right δ₀ (1 / 10); linarith
  set δ := min δ₀ (1 / 10) / 2 with hδe
  have zone : ∀ (k : ℕ) (p p' : Polygon ℝ × PolygonMode), (chamberSample.map fun p => (zPolygon p.1, p.2))[k]? = some p →
      (chamberSampleCut.map fun p => (zPolygon p.1, p.2))[k]? = some p' → p.2 = .removeInterior → ¬ p.1.evenOdd (leftPoint d δ) := by
    intro k p p' h1 h2 hm hin
    obtain ⟨e1, e2⟩ := chamber_crossed.get h1 h2
    exact hok k p'.1 p'.2 h2 ((hf δ hpos hlt k p' h2).2 ((e2 _).2 hin)) (e1.trans hm)
  obtain ⟨⟨⟨a, b⟩, ⟨a', b'⟩⟩, hw, rfl⟩ := hd
  simp only [wallCheck, Bool.and_eq_true, decide_eq_true_iff] at hw
  obtain ⟨⟨w1, w2, w3, w4, w5, w6, w7, w8⟩, hw⟩ := hw
  have r1 : (0 : ℝ) ≤ a := by exact_mod_cast w1
  have r2 : (a : ℝ) ≤ 100 := by exact_mod_cast w2
  have r3 : (0 : ℝ) ≤ b := by exact_mod_cast w3
  have r4 : (b : ℝ) ≤ 100 := by exact_mod_cast w4
  have r5 : (0 : ℝ) ≤ a' := by exact_mod_cast w5
  have r6 : (a' : ℝ) ≤ 100 := by exact_mod_cast w6
  have r7 : (0 : ℝ) ≤ b' := by exact_mod_cast w7
  have r8 : (b' : ℝ) ≤ 100 := by exact_mod_cast w8
  have b1 : δ * (b' - b) ≤ 5 := by nlinarith
  have b2 : -5 ≤ δ * ((b' : ℝ) - b) := by nlinarith
  have b3 : δ * (a' - a) ≤ 5 := by nlinarith
  have b4 : -5 ≤ δ * ((a' : ℝ) - a) := by nlinarith
  rcases hw with ⟨rfl, rfl⟩ | ⟨rfl, rfl⟩ | ⟨rfl, rfl⟩ | ⟨rfl, rfl⟩
  · exact zone 1 _ _ rfl rfl rfl (by apply chamber_left <;> dsimp only [leftPoint, ZPt.toPt] <;> push_cast at * <;> linarith)
  · exact zone 3 _ _ rfl rfl rfl (by apply chamber_right <;> dsimp only [leftPoint, ZPt.toPt] <;> push_cast at * <;> linarith)
  · exact zone 4 _ _ rfl rfl rfl (by apply chamber_bottom <;> dsimp only [leftPoint, ZPt.toPt] <;> push_cast at * <;> linarith)
  · exact zone 2 _ _ rfl rfl rfl (by apply chamber_top <;> dsimp only [leftPoint, ZPt.toPt] <;> push_cast at * <;> linarith)

theorem chamber_removable : Removable (chamberSampleCut.map fun p => (zPolygon p.1, p.2)) := by
  refine ⟨hides_of_check (by decide +kernel), fun d f f' hd hk hf hf' => ?_⟩
  have hw : (∃ e : ZPt × ZPt, wallCheck e = true ∧ d = (e.1.toPt, e.2.toPt)) ∧ ∃ e : ZPt × ZPt, wallCheck e = true ∧ d.swap = (e.1.toPt, e.2.toPt) := by
    have : ∃ q ∈ chamberSampleCut, ∃ e ∈ zBoth q.1, d = (e.1.toPt, e.2.toPt) := by
      obtain ⟨_, hd⟩ := hd
      rcases hd with hd | hd <;> obtain ⟨q, h1, h2⟩ := List.mem_flatMap.1 hd <;> obtain ⟨w, hw, rfl⟩ := List.mem_map.1 h1
      · exact ⟨w, hw, both_z.1 (Or.inl h2)⟩
      · exact ⟨w, hw, both_z.1 (Or.inr h2)⟩
    obtain ⟨q, hq, e, he, rfl⟩ := this
    have hr : q.2 = .removeEdges := by
      by_contra hr
      apply hk
      refine ⟨hd.1, ?_⟩
      have hmem : (zPolygon q.1, q.2) ∈ keptPolygons (chamberSampleCut.map fun p => (zPolygon p.1, p.2)) := by
        unfold keptPolygons
        rw [List.mem_filter, decide_eq_true_iff]
        exact ⟨List.mem_map.2 ⟨q, hq, rfl⟩, hr⟩
      rcases both_z.2 ⟨e, he, rfl⟩ with h | h
      · exact Or.inl (List.mem_flatMap.2 ⟨_, hmem, h⟩)
      · exact Or.inr (List.mem_flatMap.2 ⟨_, hmem, h⟩)
    have hall : ∀ q ∈ chamberSampleCut, q.2 = .removeEdges → ∀ e ∈ zBoth q.1, wallCheck e = true ∧ wallCheck e.swap = true := by decide +kernel
    obtain ⟨h1, h2⟩ := hall q hq hr e he
    exact ⟨⟨e, h1, rfl⟩, ⟨e.swap, h2, rfl⟩⟩
  exact iff_of_false (chamber_dark hw.1 hf) (chamber_dark hw.2 hf')

/-- What is shown of a contour in double precision. -/
structure View64 where
  points : List (F64 × F64)
  from_polygons : List Bool
  neighbors : List Bool
  holes : List Nat
  external : Bool
  deriving DecidableEq

/-- A result, shown. -/
def view64 (r : Polygon F64) : List View64 :=
  r.contours.map fun c => ⟨c.points.map fun p => (p.x, p.y), c.from_polygons, c.neighbors, c.holes, c.external⟩

theorem chamber_run : (compute listLib 300 (asPolygons F64 (chamberSampleCut.map fun p => (wholePolygon p.1, p.2))) .union).map view64 =
    .ok [⟨[((16 : ℤ), (16 : ℤ)), (84, 16), (84, 84), (16, 84)].map (fun p => ((FloatOps.ofInt p.1 : F64), (FloatOps.ofInt p.2 : F64))), [true, false, false, false, false],
      [false], [], true⟩] := by
  decide +kernel

theorem ofInt_inj64 {m n : ℤ} (hm : |m| ≤ 2 ^ 15) (hn : |n| ≤ 2 ^ 15) (h : (FloatOps.ofInt m : F64) = FloatOps.ofInt n) : m = n := by
  have c : ∀ m : ℤ, |m| ≤ 2 ^ 15 → Double.val (FloatOps.ofInt m : F64) = m := by
    intro m hm
    have h' : |(m : ℚ)| ≤ 2 ^ 15 := by exact_mod_cast hm
    rw [(Double.ofInt_val (F := F64) m (h'.trans (by norm_num))).2, Double.rd_int (F := F64) m (hm.trans (by norm_num))]
  have := c m hm
  rw [h, c n hn] at this
  exact_mod_cast this.symm

/-- What `compute` has to return for the room. -/
theorem chamber_result : ∃ c : Contour ℝ, IsResult (chamberSampleCut.map fun p => (zPolygon p.1, p.2)) ⟨[c]⟩ ∧ c.points = [⟨16, 16⟩, ⟨84, 16⟩, ⟨84, 84⟩, ⟨16, 84⟩] ∧
    c.from_polygons = [true, false, false, false, false] ∧ c.neighbors = [false] ∧ c.holes = [] ∧ c.external = true := by
  have hw := asPolygons_whole chamberSampleCut
  have hP : Planar (asPolygons ℝ (chamberSampleCut.map fun p => (wholePolygon p.1, p.2))) := by rw [hw]; exact chamber_crossed.planar
  have hS : SharpPlan (asPolygons ℝ (chamberSampleCut.map fun p => (wholePolygon p.1, p.2))) := sharpPlan_of_check (by decide +kernel)
  have hR : Removable (asPolygons ℝ (chamberSampleCut.map fun p => (wholePolygon p.1, p.2))) := by rw [hw]; exact chamber_removable
  have run := chamber_run
  cases hr : compute listLib 300 (asPolygons F64 (chamberSampleCut.map fun p => (wholePolygon p.1, p.2))) .union with
  | err e => rw [hr] at run; cases run
  | panic p => rw [hr] at run; cases run
  | diverge => rw [hr] at run; cases run
  | ok r =>
    rw [hr] at run
    replace run : view64 r = _ := Res.ok.inj run
    obtain ⟨z, rfl, h⟩ := real_of_double listLib_lawful hP hS (by norm_num) hr
    have hf : 2 * (allCorners (asPolygons ℝ (chamberSampleCut.map fun p => (wholePolygon p.1, p.2)))).length < 300 := by
      rw [hw, show (allCorners (chamberSampleCut.map fun p => (zPolygon p.1, p.2))).length = 52 from rfl]
      norm_num
    have hz := compute_isResult listLib_lawful hP hR hf h
    obtain ⟨cs⟩ := z
    have hlen := congrArg List.length run
    simp only [view64, asPolygon, List.length_map, List.length_singleton] at hlen
    obtain ⟨c, rfl⟩ := List.length_eq_one_iff.1 hlen
    simp only [view64, asPolygon, List.map_singleton, List.cons.injEq, and_true, View64.mk.injEq] at run
    obtain ⟨e1, e2, e3, e4, e5⟩ := run
    have small : ∀ q ∈ c.points, |q.x| ≤ 2 ^ 15 ∧ |q.y| ≤ 2 ^ 15 := by
      intro q hq
      have := hS.box _ (result_corners hz (asContour ℝ c) (List.mem_singleton_self _) (asPt ℝ q) (List.mem_map_of_mem hq))
      have h1 : |(q.x : ℝ)| ≤ 2 ^ 15 := this.1
      have h2 : |(q.y : ℝ)| ≤ 2 ^ 15 := this.2
      exact ⟨by exact_mod_cast h1, by exact_mod_cast h2⟩
    have pts : c.points = [⟨16, 16⟩, ⟨84, 16⟩, ⟨84, 84⟩, ⟨16, 84⟩] := by
      have key : ∀ (l : List (Pt ℤ)) (l' : List (ℤ × ℤ)), (∀ q ∈ l, |q.x| ≤ 2 ^ 15 ∧ |q.y| ≤ 2 ^ 15) → (∀ q ∈ l', |q.1| ≤ 2 ^ 15 ∧ |q.2| ≤ 2 ^ 15) →
          (l.map (asPt F64)).map (fun p => (p.x, p.y)) = l'.map (fun p => ((FloatOps.ofInt p.1 : F64), (FloatOps.ofInt p.2 : F64))) → l = l'.map fun p => ⟨p.1, p.2⟩ := by
        intro l
        induction l with
        | nil => intro l' _ _ h; cases l' with
          | nil => rfl
          | cons => cases h
        | cons q l ih =>
          intro l' h1 h2 h
          cases l' with
          | nil => cases h
          | cons q' l' =>
            simp only [List.map_cons, List.cons.injEq, Prod.mk.injEq] at h
            obtain ⟨⟨ha, hb⟩, h⟩ := h
            have s1 := h1 q (List.mem_cons_self ..)
            have s2 := h2 q' (List.mem_cons_self ..)
            rw [List.map_cons, ← ih l' (fun q hq => h1 q (List.mem_cons_of_mem _ hq)) (fun q hq => h2 q (List.mem_cons_of_mem _ hq)) h,
              ← ofInt_inj64 s1.1 s2.1 ha, ← ofInt_inj64 s1.2 s2.2 hb]
      exact key c.points [(16, 16), (84, 16), (84, 84), (16, 84)] small (by decide) e1
    rw [hw] at hz
    refine ⟨asContour ℝ c, hz, ?_, e2, e3, e4, e5⟩
    show c.points.map (asPt ℝ) = _
    rw [pts]
    simp [asPt, FloatOps.ofInt]

end Idc
