import Verif.Props.Suite
import Verif.Props.SuiteRun
/-!
# C94: the polygons of two rooms, stretched from those of two rooms of the same size
-/

namespace Idc

variable {m : FullMap ℝ} {x y W V H : ℤ}

/-- The lines of two rooms. -/
theorem IsSuite.split (h : IsSuite m x y W V H) : ∃ l₀ l₁ l₂ l₃ l₄ l₅ l₆, m.lines = [l₀, l₁, l₂, l₃, l₄, l₅, l₆] ∧ (l₀.start = 0 ∧ l₀.stop = 1) ∧ (l₁.start = 1 ∧ l₁.stop = 2) ∧
    (l₂.start = 2 ∧ l₂.stop = 3) ∧ (l₃.start = 3 ∧ l₃.stop = 4) ∧ (l₄.start = 4 ∧ l₄.stop = 5) ∧ (l₅.start = 5 ∧ l₅.stop = 0) ∧ (l₆.start = 2 ∧ l₆.stop = 5) ∧
    (∀ l ∈ [l₀, l₁, l₅], l.back = none ∧ ∃ h sd, l.front = some h ∧ m.sides[h]? = some sd ∧ sd.sector = 0) ∧
    (∀ l ∈ [l₂, l₃, l₄], l.back = none ∧ ∃ h sd, l.front = some h ∧ m.sides[h]? = some sd ∧ sd.sector = 1) ∧
    ∃ h h' sd sd', l₆.front = some h ∧ m.sides[h]? = some sd ∧ sd.sector = 0 ∧ l₆.back = some h' ∧ m.sides[h']? = some sd' ∧ sd'.sector = 1 := by
  obtain ⟨l₀, l₁, l₂, l₃, l₄, l₅, l₆, e⟩ : ∃ l₀ l₁ l₂ l₃ l₄ l₅ l₆, m.lines = [l₀, l₁, l₂, l₃, l₄, l₅, l₆] := by
    have := h.lines
    match hm : m.lines, this with
    | [a, b, c, d, e, f, g], _ => exact ⟨a, b, c, d, e, f, g, rfl⟩
  have g := h.ends
  have g' := h.walls
  have g6 := h.opening
  rw [e] at g g' g6
  refine ⟨l₀, l₁, l₂, l₃, l₄, l₅, l₆, e, ?_, ?_, ?_, ?_, ?_, ?_, ?_, ?_, ?_, g6 l₆ rfl⟩
  · simpa using g 0 l₀ rfl
  · simpa using g 1 l₁ rfl
  · simpa using g 2 l₂ rfl
  · simpa using g 3 l₃ rfl
  · simpa using g 4 l₄ rfl
  · simpa using g 5 l₅ rfl
  · simpa using g 6 l₆ rfl
  · intro l hl
    simp only [List.mem_cons, List.not_mem_nil, or_false] at hl
    rcases hl with rfl | rfl | rfl
    · simpa using g' 0 _ rfl (by norm_num)
    · simpa using g' 1 _ rfl (by norm_num)
    · simpa using g' 5 _ rfl (by norm_num)
  · intro l hl
    simp only [List.mem_cons, List.not_mem_nil, or_false] at hl
    rcases hl with rfl | rfl | rfl
    · simpa using g' 2 _ rfl (by norm_num)
    · simpa using g' 3 _ rfl (by norm_num)
    · simpa using g' 4 _ rfl (by norm_num)

theorem IsSuite.edges (h : IsSuite m x y W V H) :
    sectorEdges m 0 = .ok ⟨[⟨0, 1, false⟩, ⟨1, 2, false⟩, ⟨5, 0, false⟩, ⟨2, 5, false⟩], [(0, [0, 2]), (1, [0, 1]), (2, [1, 3]), (5, [2, 3])]⟩ ∧
    sectorEdges m 1 = .ok ⟨[⟨2, 3, false⟩, ⟨3, 4, false⟩, ⟨4, 5, false⟩, ⟨2, 5, false⟩], [(2, [0, 3]), (3, [0, 1]), (4, [1, 2]), (5, [2, 3])]⟩ := by
  obtain ⟨l₀, l₁, l₂, l₃, l₄, l₅, l₆, e, ⟨s0, t0⟩, ⟨s1, t1⟩, ⟨s2, t2⟩, ⟨s3, t3⟩, ⟨s4, t4⟩, ⟨s5, t5⟩, ⟨s6, t6⟩, ha, hb, ⟨h6, h6', d6, d6', f6, g6, k6, f6', g6', k6'⟩⟩ := h.split
  obtain ⟨b0, h0, d0, f0, g0, k0⟩ := ha l₀ (by simp)
  obtain ⟨b1, h1, d1, f1, g1, k1⟩ := ha l₁ (by simp)
  obtain ⟨b5, h5, d5, f5, g5, k5⟩ := ha l₅ (by simp)
  obtain ⟨b2, h2, d2, f2, g2, k2⟩ := hb l₂ (by simp)
  obtain ⟨b3, h3, d3, f3, g3, k3⟩ := hb l₃ (by simp)
  obtain ⟨b4, h4, d4, f4, g4, k4⟩ := hb l₄ (by simp)
  have hv := h.vertices
  unfold sectorEdges
  rw [e]
  simp only [forEach]
  constructor
  · rw [pushLine_one b0 f0 g0 k0 (p := (⟨(x : ℝ), y⟩ : Pt ℝ)) (q := (⟨(x : ℝ), y + H⟩ : Pt ℝ)) (by rw [hv, s0]; rfl) (by rw [hv, t0]; rfl), Res.bind_ok,
      pushLine_one b1 f1 g1 k1 (p := (⟨(x : ℝ), y + H⟩ : Pt ℝ)) (q := (⟨(x : ℝ) + W, y + H⟩ : Pt ℝ)) (by rw [hv, s1]; rfl) (by rw [hv, t1]; rfl), Res.bind_ok,
      pushLine_other b2 f2 g2 (by omega), Res.bind_ok, pushLine_other b3 f3 g3 (by omega), Res.bind_ok, pushLine_other b4 f4 g4 (by omega), Res.bind_ok,
      pushLine_one b5 f5 g5 k5 (p := (⟨(x : ℝ) + W, y⟩ : Pt ℝ)) (q := (⟨(x : ℝ), y⟩ : Pt ℝ)) (by rw [hv, s5]; rfl) (by rw [hv, t5]; rfl), Res.bind_ok,
      pushLine_two (s := 0) f6 f6' g6 g6' (by omega) (.inl k6) (p := (⟨(x : ℝ) + W, y + H⟩ : Pt ℝ)) (q := (⟨(x : ℝ) + W, y⟩ : Pt ℝ)) (by rw [hv, s6]; rfl) (by rw [hv, t6]; rfl), Res.bind_ok,
      s0, s1, s5, s6, t0, t1, t5, t6]
    rfl
  · rw [pushLine_other b0 f0 g0 (by omega), Res.bind_ok, pushLine_other b1 f1 g1 (by omega), Res.bind_ok,
      pushLine_one b2 f2 g2 k2 (p := (⟨(x : ℝ) + W, y + H⟩ : Pt ℝ)) (q := (⟨(x : ℝ) + W + V, y + H⟩ : Pt ℝ)) (by rw [hv, s2]; rfl) (by rw [hv, t2]; rfl), Res.bind_ok,
      pushLine_one b3 f3 g3 k3 (p := (⟨(x : ℝ) + W + V, y + H⟩ : Pt ℝ)) (q := (⟨(x : ℝ) + W + V, y⟩ : Pt ℝ)) (by rw [hv, s3]; rfl) (by rw [hv, t3]; rfl), Res.bind_ok,
      pushLine_one b4 f4 g4 k4 (p := (⟨(x : ℝ) + W + V, y⟩ : Pt ℝ)) (q := (⟨(x : ℝ) + W, y⟩ : Pt ℝ)) (by rw [hv, s4]; rfl) (by rw [hv, t4]; rfl), Res.bind_ok,
      pushLine_other b5 f5 g5 (by omega), Res.bind_ok,
      pushLine_two (s := 1) f6 f6' g6 g6' (by omega) (.inr k6') (p := (⟨(x : ℝ) + W, y + H⟩ : Pt ℝ)) (q := (⟨(x : ℝ) + W, y⟩ : Pt ℝ)) (by rw [hv, s6]; rfl) (by rw [hv, t6]; rfl), Res.bind_ok,
      s2, s3, s4, s6, t2, t3, t4, t6]
    rfl

theorem IsSuite.outlines (h : IsSuite m x y W V H) (hW : 0 < W) (hV : 0 < V) (hH : 0 < H) {fuel : ℕ} (hf : 4 ≤ fuel) :
    m.sectorToPolygons 0 fuel = .ok [[⟨x, y⟩, ⟨x, y + H⟩, ⟨x + W, y + H⟩, ⟨x + W, y⟩]] ∧
    m.sectorToPolygons 1 fuel = .ok [[⟨x + W, y + H⟩, ⟨x + W + V, y + H⟩, ⟨x + W + V, y⟩, ⟨x + W, y⟩]] := by
  obtain ⟨n, rfl⟩ : ∃ n, fuel = n + 4 := ⟨fuel - 4, by omega⟩
  have w : (0 : ℝ) < W := by exact_mod_cast hW
  have w' : (0 : ℝ) < H := by exact_mod_cast hH
  have w'' : (0 : ℝ) < V := by exact_mod_cast hV
  unfold FullMap.sectorToPolygons
  rw [h.edges.1, h.edges.2, Res.bind_ok, Res.bind_ok, h.vertices]
  constructor
  · refine suite_outline_left ?_ ?_ ?_ n <;> intro e <;> obtain ⟨e1, e2⟩ := Pt.mk.inj e <;> linarith
  · refine suite_outline_right ?_ ?_ ?_ n <;> intro e <;> obtain ⟨e1, e2⟩ := Pt.mk.inj e <;> linarith

theorem line_two {l : Line} {v w : Pt ℝ} (hb : ∃ h, l.back = some h) (hf : ∃ h, l.front = some h) (hv : m.vertices[l.start]? = some v) (hw : m.vertices[l.stop]? = some w) :
    linePolygon m l = .ok (⟨[contourOf (dilateLine v w)]⟩, .normal) := by
  obtain ⟨h, hf⟩ := hf
  obtain ⟨h', hb⟩ := hb
  have i1 : m.lineStart l = .ok v := by unfold FullMap.lineStart FullMap.vertex index; rw [hv]
  have i2 : m.lineEnd l = .ok w := by unfold FullMap.lineEnd FullMap.vertex index; rw [hw]
  unfold linePolygon
  rw [i1, Res.bind_ok, i2, Res.bind_ok]
  simp [lineMode, Line.isOneSided, Line.isTwoSided, hf, hb]

/-- The coordinates of two rooms 100 wide, moved to those of two rooms `W` and `V` wide that begin at `x`. -/
def suiteMap (x W V t : ℤ) : ℤ := if t ≤ 50 then x + t else if t ≤ 150 then x + W + (t - 100) else x + W + V + (t - 200)

theorem IsSuite.polygons (h : IsSuite m x y W V H) (hW : 0 < W) (hV : 0 < V) (hH : 0 < H) {fuel : ℕ} (hf : 4 ≤ fuel) :
    routePolygons m fuel = .ok (asPolygons ℝ (stretchAll (suiteMap x W V) (zRoomMap y H) suitePolys)) := by
  obtain ⟨l₀, l₁, l₂, l₃, l₄, l₅, l₆, e, ⟨s0, t0⟩, ⟨s1, t1⟩, ⟨s2, t2⟩, ⟨s3, t3⟩, ⟨s4, t4⟩, ⟨s5, t5⟩, ⟨s6, t6⟩, ha, hb, ⟨h6, h6', d6, d6', f6, g6, k6, f6', g6', k6'⟩⟩ := h.split
  obtain ⟨b0, h0, d0, f0, g0, k0⟩ := ha l₀ (by simp)
  obtain ⟨b1, h1, d1, f1, g1, k1⟩ := ha l₁ (by simp)
  obtain ⟨b5, h5, d5, f5, g5, k5⟩ := ha l₅ (by simp)
  obtain ⟨b2, h2, d2, f2, g2, k2⟩ := hb l₂ (by simp)
  obtain ⟨b3, h3, d3, f3, g3, k3⟩ := hb l₃ (by simp)
  obtain ⟨b4, h4, d4, f4, g4, k4⟩ := hb l₄ (by simp)
  have hv := h.vertices
  have w : (0 : ℝ) < W := by exact_mod_cast hW
  have w' : (0 : ℝ) < H := by exact_mod_cast hH
  have w'' : (0 : ℝ) < V := by exact_mod_cast hV
  have p0 := line_one (v := ⟨x, y⟩) (w := ⟨x, y + H⟩) b0 ⟨_, f0⟩ (by rw [hv, s0]; rfl) (by rw [hv, t0]; rfl)
  have p1 := line_one (v := ⟨x, y + H⟩) (w := ⟨x + W, y + H⟩) b1 ⟨_, f1⟩ (by rw [hv, s1]; rfl) (by rw [hv, t1]; rfl)
  have p2 := line_one (v := ⟨x + W, y + H⟩) (w := ⟨x + W + V, y + H⟩) b2 ⟨_, f2⟩ (by rw [hv, s2]; rfl) (by rw [hv, t2]; rfl)
  have p3 := line_one (v := ⟨x + W + V, y + H⟩) (w := ⟨x + W + V, y⟩) b3 ⟨_, f3⟩ (by rw [hv, s3]; rfl) (by rw [hv, t3]; rfl)
  have p4 := line_one (v := ⟨x + W + V, y⟩) (w := ⟨x + W, y⟩) b4 ⟨_, f4⟩ (by rw [hv, s4]; rfl) (by rw [hv, t4]; rfl)
  have p5 := line_one (v := ⟨x + W, y⟩) (w := ⟨x, y⟩) b5 ⟨_, f5⟩ (by rw [hv, s5]; rfl) (by rw [hv, t5]; rfl)
  have p6 := line_two (v := ⟨x + W, y + H⟩) (w := ⟨x + W, y⟩) ⟨_, f6'⟩ ⟨_, f6⟩ (by rw [hv, s6]; rfl) (by rw [hv, t6]; rfl)
  rw [dilate_left _ _ _ (by linarith)] at p0
  rw [dilate_top _ _ _ (by linarith)] at p1
  rw [dilate_top _ _ _ (by linarith)] at p2
  rw [dilate_right _ _ _ (by linarith)] at p3
  rw [dilate_bottom _ _ _ (by linarith)] at p4
  rw [dilate_bottom _ _ _ (by linarith)] at p5
  rw [dilate_right _ _ _ (by linarith)] at p6
  unfold routePolygons
  rw [h.sectors, show List.range 2 = [0, 1] from rfl, e]
  simp only [Res.mapList, sectorPolygon, (h.outlines hW hV hH hf).1, (h.outlines hW hV hH hf).2, p0, p1, p2, p3, p4, p5, p6, Res.bind_ok, Res.pure_eq, List.map_singleton,
    List.singleton_append, List.cons_append, List.nil_append]
  refine congrArg Res.ok ?_
  simp only [asPolygons, asPolygon, asContour, asPt, FloatOps.ofInt, suitePolys, wholePolygon, stretchAll, List.map_cons, List.map_nil, stretchPolygon, stretchContour, contourOf, Contour.new,
    stretchPt, zRoomMap, suiteMap]
  norm_num [sub_eq_add_neg]

end Idc
