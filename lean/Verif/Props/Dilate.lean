import Verif.Model.Route
import Verif.Spec.Dilate
import Mathlib.Analysis.Convex.Combination
import Mathlib.Tactic.Linarith
import Mathlib.Tactic.FieldSimp
/-!
# C64: the hexagon around a line
-/

namespace Idc

open FloatOps Pointwise

/-- A point of a triangle. -/
theorem mem_hull_of_comb {S : Set (ℝ × ℝ)} {a b c p : ℝ × ℝ} (ha : a ∈ S) (hb : b ∈ S) (hc : c ∈ S) {x y z : ℝ}
    (hx : 0 ≤ x) (hy : 0 ≤ y) (hz : 0 ≤ z) (hs : x + y + z = 1) (h1 : p.1 = x * a.1 + y * b.1 + z * c.1)
    (h2 : p.2 = x * a.2 + y * b.2 + z * c.2) : p ∈ convexHull ℝ S := by
  have hp : p = x • a + y • b + z • c := by
    ext
    · simp [h1]
    · simp [h2]
  rw [hp]
  have hconv := convex_convexHull ℝ S
  have ha' := subset_convexHull ℝ S ha
  have hb' := subset_convexHull ℝ S hb
  have hc' := subset_convexHull ℝ S hc
  have := hconv.sum_mem (t := Finset.univ) (w := ![x, y, z]) (z := ![a, b, c]) (by
    intro i _; fin_cases i <;> simpa) (by simp [Fin.sum_univ_three, hs]) (by intro i _; fin_cases i <;> simpa)
  simpa [Fin.sum_univ_three] using this

/-- The square as a convex hull. -/
theorem square_hull : convexHull ℝ (({-16, 16} : Set ℝ) ×ˢ ({-16, 16} : Set ℝ)) = Set.Icc (-16) 16 ×ˢ Set.Icc (-16) 16 := by
  rw [convexHull_prod, convexHull_pair, segment_eq_Icc (by norm_num)]

/-- The forbidden zone as a convex hull. -/
theorem touches_hull (a b : ℝ × ℝ) : {p | PlayerTouches a b p} = convexHull ℝ (({a, b} : Set (ℝ × ℝ)) + ({-16, 16} : Set ℝ) ×ˢ ({-16, 16} : Set ℝ)) := by
  rw [convexHull_add, convexHull_pair, square_hull]
  ext p
  rw [Set.mem_add]
  constructor
  · rintro ⟨q, hq, h1, h2⟩
    rw [abs_le] at h1 h2
    refine ⟨q, hq, p - q, ⟨⟨?_, ?_⟩, ⟨?_, ?_⟩⟩, by simp⟩ <;> simp <;> linarith
  · rintro ⟨q, hq, d, ⟨⟨h1, h2⟩, ⟨h3, h4⟩⟩, rfl⟩
    refine ⟨q, hq, ?_, ?_⟩ <;> simp [abs_le] <;> constructor <;> linarith

theorem hull_eq_of {S T : Set (ℝ × ℝ)} (h1 : S ⊆ T) (h2 : T ⊆ convexHull ℝ S) : convexHull ℝ T = convexHull ℝ S :=
  Set.Subset.antisymm (convexHull_min h2 (convex_convexHull ℝ S)) (convexHull_mono h1)

/-- The eight corners of the squares at the ends. -/
theorem corners (a b : ℝ × ℝ) (p : ℝ × ℝ) : p ∈ (({a, b} : Set (ℝ × ℝ)) + ({-16, 16} : Set ℝ) ×ˢ ({-16, 16} : Set ℝ)) ↔
    (p = (a.1 - 16, a.2 - 16) ∨ p = (a.1 - 16, a.2 + 16) ∨ p = (a.1 + 16, a.2 - 16) ∨ p = (a.1 + 16, a.2 + 16)) ∨
    (p = (b.1 - 16, b.2 - 16) ∨ p = (b.1 - 16, b.2 + 16) ∨ p = (b.1 + 16, b.2 - 16) ∨ p = (b.1 + 16, b.2 + 16)) := by
  rw [Set.mem_add]
  constructor
  · rintro ⟨q, hq, ⟨d1, d2⟩, ⟨h1, h2⟩, rfl⟩
    simp only [Set.mem_insert_iff, Set.mem_singleton_iff] at hq h1 h2
    rcases hq with rfl | rfl <;> rcases h1 with rfl | rfl <;> rcases h2 with rfl | rfl <;>
      simp [Prod.ext_iff, sub_eq_add_neg]
  · have key : ∀ (q : ℝ × ℝ) (d1 d2 : ℝ), q ∈ ({a, b} : Set (ℝ × ℝ)) → d1 ∈ ({-16, 16} : Set ℝ) → d2 ∈ ({-16, 16} : Set ℝ) →
        ∃ x ∈ ({a, b} : Set (ℝ × ℝ)), ∃ y ∈ ({-16, 16} : Set ℝ) ×ˢ ({-16, 16} : Set ℝ), x + y = (q.1 + d1, q.2 + d2) := by
      intro q d1 d2 h1 h2 h3
      exact ⟨q, h1, (d1, d2), ⟨h2, h3⟩, rfl⟩
    rintro ((rfl | rfl | rfl | rfl) | (rfl | rfl | rfl | rfl)) <;> (try simp only [sub_eq_add_neg]) <;> apply key <;> simp

/-- The ordered triples of a list of six. -/
theorem clockwise_six {v1 v2 v3 v4 v5 v6 : ℝ × ℝ}
    (h : ∀ t ∈ List.sublistsLen 3 [v1, v2, v3, v4, v5, v6], ∀ a b c, t = [a, b, c] → (b.1 - a.1) * (c.2 - a.2) - (b.2 - a.2) * (c.1 - a.1) ≤ 0) :
    ClockwiseConvex [v1, v2, v3, v4, v5, v6] :=
  fun a b c hs => h [a, b, c] (List.mem_sublistsLen.2 ⟨hs, rfl⟩) a b c rfl

/-- **C64.** The hexagon around a line: its vertices are in convex position, in clockwise order, and the points inside
it or on its boundary are exactly those where the player's square touches the line. -/
theorem C64_dilation (a b : Pt ℝ) :
    ClockwiseConvex ((dilateLine a b).map Pt.pair) ∧
    {p | PlayerTouches a.pair b.pair p} = convexHull ℝ {p | p ∈ (dilateLine a b).map Pt.pair} := by
  -- the ends by height
  suffices key : ∀ top bottom : Pt ℝ, bottom.y ≤ top.y →
      let l := if lt top.x bottom.x then
        ([⟨sub top.x (ofInt 16), sub top.y (ofInt 16)⟩, ⟨sub top.x (ofInt 16), add top.y (ofInt 16)⟩, ⟨add top.x (ofInt 16), add top.y (ofInt 16)⟩,
          ⟨add bottom.x (ofInt 16), add bottom.y (ofInt 16)⟩, ⟨add bottom.x (ofInt 16), sub bottom.y (ofInt 16)⟩, ⟨sub bottom.x (ofInt 16), sub bottom.y (ofInt 16)⟩] : List (Pt ℝ))
        else
        [⟨sub top.x (ofInt 16), add top.y (ofInt 16)⟩, ⟨add top.x (ofInt 16), add top.y (ofInt 16)⟩, ⟨add top.x (ofInt 16), sub top.y (ofInt 16)⟩,
          ⟨add bottom.x (ofInt 16), sub bottom.y (ofInt 16)⟩, ⟨sub bottom.x (ofInt 16), sub bottom.y (ofInt 16)⟩, ⟨sub bottom.x (ofInt 16), add bottom.y (ofInt 16)⟩]
      ClockwiseConvex (l.map Pt.pair) ∧ {p | PlayerTouches top.pair bottom.pair p} = convexHull ℝ {p | p ∈ l.map Pt.pair} by
    unfold dilateLine
    by_cases h : b.y < a.y
    · have : lt b.y a.y = true := by simpa [FloatOps.lt] using h
      simp only [this, if_true]
      exact key a b h.le
    · have : lt b.y a.y = false := by simpa [FloatOps.lt] using h
      simp only [this, Bool.false_eq_true, if_false]
      have hs : {p | PlayerTouches a.pair b.pair p} = {p | PlayerTouches b.pair a.pair p} := by
        ext p; simp only [Set.mem_ofPred_eq, PlayerTouches, segment_symm]
      rw [hs]
      exact key b a (by linarith)
  intro top bottom hy l
  have h16 : (ofInt 16 : ℝ) = 16 := by simp [ofInt]
  have hadd : ∀ x y : ℝ, add x y = x + y := fun _ _ => rfl
  have hsub : ∀ x y : ℝ, sub x y = x - y := fun _ _ => rfl
  obtain ⟨tx, ty⟩ := top
  obtain ⟨bx, b_y⟩ := bottom
  dsimp only at hy l
  by_cases hx : tx < bx
  · have hlt : lt tx bx = true := by simpa [FloatOps.lt] using hx
    simp only [l, hlt, if_true, h16, hadd, hsub, List.map_cons, List.map_nil, Pt.pair]
    have e1 : 0 ≤ bx - tx := by linarith
    have e2 : 0 ≤ ty - b_y := by linarith
    have e3 := mul_nonneg e1 e2
    constructor
    · apply clockwise_six
      simp only [List.sublistsLen, List.sublistsLenAux, List.forall_mem_cons, id, List.not_mem_nil, false_implies, implies_true, and_true]
      refine ⟨?_, ?_, ?_, ?_, ?_, ?_, ?_, ?_, ?_, ?_, ?_, ?_, ?_, ?_, ?_, ?_, ?_, ?_, ?_, ?_⟩ <;>
        (rintro a b c h; cases h; dsimp only; nlinarith)
    · rw [touches_hull]
      apply hull_eq_of
      · intro p hp
        simp only [Set.mem_ofPred_eq, List.mem_cons, List.not_mem_nil, or_false] at hp
        rw [corners]
        dsimp only
        tauto
      · intro p hp
        rw [corners] at hp
        dsimp only at hp
        have hpos : 0 < bx - tx + (ty - b_y) + 32 := by linarith
        rcases hp with (hp | hp | hp | hp) | (hp | hp | hp | hp)
        · exact subset_convexHull ℝ _ (by simp [hp])
        · exact subset_convexHull ℝ _ (by simp [hp])
        · subst hp
          refine mem_hull_of_comb (a := (tx + 16, ty + 16)) (b := (tx - 16, ty - 16)) (c := (bx + 16, b_y - 16)) (by simp) (by simp) (by simp)
            (x := (ty - b_y) / (bx - tx + (ty - b_y) + 32)) (y := (bx - tx) / (bx - tx + (ty - b_y) + 32)) (z := 32 / (bx - tx + (ty - b_y) + 32))
            (by positivity) (by positivity) (by positivity) ?_ ?_ ?_ <;> field_simp <;> ring
        · exact subset_convexHull ℝ _ (by simp [hp])
        · exact subset_convexHull ℝ _ (by simp [hp])
        · subst hp
          refine mem_hull_of_comb (a := (bx - 16, b_y - 16)) (b := (bx + 16, b_y + 16)) (c := (tx - 16, ty + 16)) (by simp) (by simp) (by simp)
            (x := (ty - b_y) / (bx - tx + (ty - b_y) + 32)) (y := (bx - tx) / (bx - tx + (ty - b_y) + 32)) (z := 32 / (bx - tx + (ty - b_y) + 32))
            (by positivity) (by positivity) (by positivity) ?_ ?_ ?_ <;> field_simp <;> ring
        · exact subset_convexHull ℝ _ (by simp [hp])
        · exact subset_convexHull ℝ _ (by simp [hp])
  · have hlt : lt tx bx = false := by simpa [FloatOps.lt] using hx
    simp only [l, hlt, Bool.false_eq_true, if_false, h16, hadd, hsub, List.map_cons, List.map_nil, Pt.pair]
    have e1 : 0 ≤ tx - bx := by linarith
    have e2 : 0 ≤ ty - b_y := by linarith
    have e3 := mul_nonneg e1 e2
    constructor
    · apply clockwise_six
      simp only [List.sublistsLen, List.sublistsLenAux, List.forall_mem_cons, List.not_mem_nil, false_implies, implies_true, and_true]
      refine ⟨?_, ?_, ?_, ?_, ?_, ?_, ?_, ?_, ?_, ?_, ?_, ?_, ?_, ?_, ?_, ?_, ?_, ?_, ?_, ?_⟩ <;>
        (rintro a b c h; cases h; dsimp only; nlinarith)
    · rw [touches_hull]
      apply hull_eq_of
      · intro p hp
        simp only [Set.mem_ofPred_eq, List.mem_cons, List.not_mem_nil, or_false] at hp
        rw [corners]
        dsimp only
        tauto
      · intro p hp
        rw [corners] at hp
        dsimp only at hp
        have hpos : 0 < tx - bx + (ty - b_y) + 32 := by linarith
        rcases hp with (hp | hp | hp | hp) | (hp | hp | hp | hp)
        · subst hp
          refine mem_hull_of_comb (a := (tx - 16, ty + 16)) (b := (tx + 16, ty - 16)) (c := (bx - 16, b_y - 16)) (by simp) (by simp) (by simp)
            (x := (ty - b_y) / (tx - bx + (ty - b_y) + 32)) (y := (tx - bx) / (tx - bx + (ty - b_y) + 32)) (z := 32 / (tx - bx + (ty - b_y) + 32))
            (by positivity) (by positivity) (by positivity) ?_ ?_ ?_ <;> field_simp <;> ring
        · exact subset_convexHull ℝ _ (by simp [hp])
        · exact subset_convexHull ℝ _ (by simp [hp])
        · exact subset_convexHull ℝ _ (by simp [hp])
        · exact subset_convexHull ℝ _ (by simp [hp])
        · exact subset_convexHull ℝ _ (by simp [hp])
        · exact subset_convexHull ℝ _ (by simp [hp])
        · subst hp
          refine mem_hull_of_comb (a := (bx + 16, b_y - 16)) (b := (bx - 16, b_y + 16)) (c := (tx + 16, ty + 16)) (by simp) (by simp) (by simp)
            (x := (ty - b_y) / (tx - bx + (ty - b_y) + 32)) (y := (tx - bx) / (tx - bx + (ty - b_y) + 32)) (z := 32 / (tx - bx + (ty - b_y) + 32))
            (by positivity) (by positivity) (by positivity) ?_ ?_ ?_ <;> field_simp <;> ring

end Idc
