import Verif.Spec.Room
import Verif.Props.RoomSample
import Verif.Props.RouteMap
/-!
# C91: a rectangular room
-/

namespace Idc

section

variable {F : Type} [FloatOps F]

omit [FloatOps F] in
theorem pushLine_one {m : FullMap F} {s h : ℕ} {t : EdgeTable} {l : Line} {sd : Side} {p q : Pt F} (hb : l.back = none) (hf : l.front = some h) (hs : m.sides[h]? = some sd)
    (he : sd.sector = s) (hp : m.vertices[l.start]? = some p) (hq : m.vertices[l.stop]? = some q) :
    pushLineEdges m s t l = .ok ⟨t.edges ++ [⟨l.start, l.stop, false⟩], entryPush (entryPush t.byVertex l.start t.edges.length) l.stop t.edges.length⟩ := by
  have i1 : index m.sides h = .ok sd := by unfold index; rw [hs]
  have i2 : index m.vertices l.start = .ok p := by unfold index; rw [hp]
  have i3 : index m.vertices l.stop = .ok q := by unfold index; rw [hq]
  unfold pushLineEdges
  rw [hf, hb]
  simp only [Res.mapOption, i1, Res.bind_ok, Res.pure_eq, Bool.false_eq_true, if_false, pushSideEdge, he, if_true, i2, i3, List.length_append, List.length_singleton,
    Nat.add_sub_cancel]

theorem consider_first {vertices : List (Pt F)} {edges : List Edge} {i nextV e : ℕ} {nextP cur q : Pt F} {c : Closest F} {ed : Edge} (hc : c.best = none) (hc' : c.seenCcw = false)
    (hi : i ≠ e) (he : edges[e]? = some ed) (hd : ed.done = false) (ho : vertices[if ed.v0 = nextV then ed.v1 else ed.v0]? = some q) :
    ∃ c', considerEdge vertices edges i nextV nextP cur c e = .ok c' ∧ c'.best = some (e, if ed.v0 = nextV then ed.v1 else ed.v0) := by
  have i1 : index edges e = .ok ed := by unfold index; rw [he]
  have i2 : index vertices (if ed.v0 = nextV then ed.v1 else ed.v0) = .ok q := by unfold index; rw [ho]
  unfold considerEdge
  rw [if_neg hi, i1]
  simp only [Res.bind_ok, hd, Bool.false_eq_true, if_false, i2, hc, hc', Bool.not_false, Bool.and_true, Bool.and_false, Option.isNone_none, Bool.true_or, if_true]
  by_cases hw : FloatOps.lt (FloatOps.ofInt 0) (cur.cross (q.sub nextP)) = true
  · rw [if_pos hw]; exact ⟨_, rfl, rfl⟩
  · rw [if_neg hw]; exact ⟨_, rfl, rfl⟩

end

variable {m : FullMap ℝ} {x y W H : ℤ}

theorem IsRoom.split (h : IsRoom m x y W H) : ∃ l₀ l₁ l₂ l₃, m.lines = [l₀, l₁, l₂, l₃] ∧ (l₀.start = 0 ∧ l₀.stop = 1) ∧ (l₁.start = 1 ∧ l₁.stop = 2) ∧
    (l₂.start = 2 ∧ l₂.stop = 3) ∧ (l₃.start = 3 ∧ l₃.stop = 0) ∧ ∀ l ∈ [l₀, l₁, l₂, l₃], l.back = none ∧ ∃ h sd, l.front = some h ∧ m.sides[h]? = some sd ∧ sd.sector = 0 := by
  obtain ⟨l₀, l₁, l₂, l₃, e⟩ : ∃ l₀ l₁ l₂ l₃, m.lines = [l₀, l₁, l₂, l₃] := by
    have := h.lines
    match hm : m.lines, this with
    | [a, b, c, d], _ => exact ⟨a, b, c, d, rfl⟩
  have g := h.ends
  rw [e] at g
  refine ⟨l₀, l₁, l₂, l₃, e, g 0 l₀ rfl, g 1 l₁ rfl, g 2 l₂ rfl, g 3 l₃ rfl, fun l hl => ?_⟩
  obtain ⟨h1, k, h2, h3⟩ := h.sided l (e ▸ hl)
  exact ⟨h1, k, m.sides[k], h2, List.getElem?_eq_getElem h3, h.sides _ (List.getElem_mem h3)⟩

theorem IsRoom.edges (h : IsRoom m x y W H) :
    sectorEdges m 0 = .ok ⟨[⟨0, 1, false⟩, ⟨1, 2, false⟩, ⟨2, 3, false⟩, ⟨3, 0, false⟩], [(0, [0, 3]), (1, [0, 1]), (2, [1, 2]), (3, [2, 3])]⟩ := by
  obtain ⟨l₀, l₁, l₂, l₃, e, ⟨s0, t0⟩, ⟨s1, t1⟩, ⟨s2, t2⟩, ⟨s3, t3⟩, hl⟩ := h.split
  obtain ⟨b0, h0, d0, f0, g0, k0⟩ := hl l₀ (by simp)
  obtain ⟨b1, h1, d1, f1, g1, k1⟩ := hl l₁ (by simp)
  obtain ⟨b2, h2, d2, f2, g2, k2⟩ := hl l₂ (by simp)
  obtain ⟨b3, h3, d3, f3, g3, k3⟩ := hl l₃ (by simp)
  have hv := h.vertices
  unfold sectorEdges
  rw [e]
  simp only [forEach]
  rw [pushLine_one b0 f0 g0 k0 (p := (⟨(x : ℝ), y⟩ : Pt ℝ)) (q := (⟨(x : ℝ), y + H⟩ : Pt ℝ)) (by rw [hv, s0]; rfl) (by rw [hv, t0]; rfl), Res.bind_ok,
    pushLine_one b1 f1 g1 k1 (p := (⟨(x : ℝ), y + H⟩ : Pt ℝ)) (q := (⟨(x : ℝ) + W, y + H⟩ : Pt ℝ)) (by rw [hv, s1]; rfl) (by rw [hv, t1]; rfl), Res.bind_ok,
    pushLine_one b2 f2 g2 k2 (p := (⟨(x : ℝ) + W, y + H⟩ : Pt ℝ)) (q := (⟨(x : ℝ) + W, y⟩ : Pt ℝ)) (by rw [hv, s2]; rfl) (by rw [hv, t2]; rfl), Res.bind_ok,
    pushLine_one b3 f3 g3 k3 (p := (⟨(x : ℝ) + W, y⟩ : Pt ℝ)) (q := (⟨(x : ℝ), y⟩ : Pt ℝ)) (by rw [hv, s3]; rfl) (by rw [hv, t3]; rfl), Res.bind_ok, s0, s1, s2, s3, t0, t1, t2, t3]
  rfl

theorem room_walk_step {vertices : List (Pt ℝ)} {byVertex : List (ℕ × List ℕ)} {i fuel prev next e₁ e₂ : ℕ} {edges : List Edge} {outline : List (Pt ℝ)} {p a pp q : Pt ℝ} {d₁ ed : Edge}
    (hN : vertices[next]? = some p) (hF : outline[0]? = some a) (hne : p ≠ a) (hP : vertices[prev]? = some pp) (hE : entryGet byVertex next = some [e₁, e₂])
    (h1 : edges[e₁]? = some d₁) (hd : d₁.done = true) (hi : i ≠ e₂) (h2 : edges[e₂]? = some ed) (hd2 : ed.done = false) (hv : ed.v0 = next) (hq : vertices[ed.v1]? = some q) :
    walkOutline vertices byVertex i (fuel + 1) edges outline prev next =
      walkOutline vertices byVertex i fuel (edges.set e₂ { ed with done := true }) (outline ++ [p]) next ed.v1 := by
  have ho : vertices[if ed.v0 = next then ed.v1 else ed.v0]? = some q := by rw [if_pos hv]; exact hq
  obtain ⟨c1, e1, f1⟩ := consider_first (vertices := vertices) (edges := edges) (i := i) (nextV := next) (e := e₂) (nextP := p) (cur := p.sub pp) (q := q)
    (c := ⟨FloatOps.nan, none, false⟩) (ed := ed) rfl rfl hi h2 hd2 ho
  have skip : considerEdge vertices edges i next p (p.sub pp) ⟨FloatOps.nan, none, false⟩ e₁ = .ok ⟨FloatOps.nan, none, false⟩ := by
    unfold considerEdge
    split
    · rfl
    · have : index edges e₁ = .ok d₁ := by unfold index; rw [h1]
      rw [this, Res.bind_ok, if_pos hd]
  have i1 : index vertices next = .ok p := by unfold index; rw [hN]
  have i2 : index outline 0 = .ok a := by unfold index; rw [hF]
  have i3 : index vertices prev = .ok pp := by unfold index; rw [hP]
  have i4 : indexMut edges e₂ (fun x => { x with done := true }) = .ok (edges.set e₂ { ed with done := true }) := by unfold indexMut; rw [h2]
  have hb : p.beq a = false := Idc.beq_false_iff.2 hne
  rw [walkOutline, i1, Res.bind_ok, i2, Res.bind_ok, hb]
  simp only [Bool.false_eq_true, if_false]
  rw [i3, Res.bind_ok, hE]
  simp only [unwrap, Res.bind_ok, forEach]
  rw [skip, Res.bind_ok, e1, Res.bind_ok, Res.bind_ok, f1]
  simp only [if_pos hv]
  rw [i4, Res.bind_ok]

/-- Around a square of four edges. -/
theorem outline_four {a b c d : Pt ℝ} (hb : b ≠ a) (hc : c ≠ a) (hd : d ≠ a) (fuel : ℕ) :
    outlineLoop [a, b, c, d] [(0, [0, 3]), (1, [0, 1]), (2, [1, 2]), (3, [2, 3])] (fuel + 4) (List.range 4)
      [⟨0, 1, false⟩, ⟨1, 2, false⟩, ⟨2, 3, false⟩, ⟨3, 0, false⟩] [] = .ok [[a, b, c, d]] := by
  have w : walkOutline [a, b, c, d] [(0, [0, 3]), (1, [0, 1]), (2, [1, 2]), (3, [2, 3])] 0 (fuel + 4) [⟨0, 1, true⟩, ⟨1, 2, false⟩, ⟨2, 3, false⟩, ⟨3, 0, false⟩] [a] 0 1 =
      .ok ([⟨0, 1, true⟩, ⟨1, 2, true⟩, ⟨2, 3, true⟩, ⟨3, 0, true⟩], [a, b, c, d]) := by
    rw [show fuel + 4 = ((fuel + 1) + 1 + 1) + 1 from rfl,
      room_walk_step (p := b) (a := a) (pp := a) (q := c) (e₁ := 0) (e₂ := 1) (d₁ := ⟨0, 1, true⟩) (ed := ⟨1, 2, false⟩) rfl rfl hb rfl rfl rfl rfl (by decide) rfl rfl rfl rfl,
      room_walk_step (p := c) (a := a) (pp := b) (q := d) (e₁ := 1) (e₂ := 2) (d₁ := ⟨1, 2, true⟩) (ed := ⟨2, 3, false⟩) rfl rfl hc rfl rfl rfl rfl (by decide) rfl rfl rfl rfl,
      room_walk_step (p := d) (a := a) (pp := c) (q := a) (e₁ := 2) (e₂ := 3) (d₁ := ⟨2, 3, true⟩) (ed := ⟨3, 0, false⟩) rfl rfl hd rfl rfl rfl rfl (by decide) rfl rfl rfl rfl, walkOutline]
    have : a.beq a = true := Idc.beq_iff.2 rfl
    simp [index, this]
  have : List.range 4 = [0, 1, 2, 3] := rfl
  rw [this]
  simp only [outlineLoop, index, indexMut, List.getElem?_cons_zero, List.getElem?_cons_succ, List.set_cons_zero, Res.bind_ok, Bool.false_eq_true, if_false]
  rw [w, Res.bind_ok]
  simp

theorem IsRoom.outlines (h : IsRoom m x y W H) (hW : 0 < W) (hH : 0 < H) {fuel : ℕ} (hf : 4 ≤ fuel) :
    m.sectorToPolygons 0 fuel = .ok [[⟨x, y⟩, ⟨x, y + H⟩, ⟨x + W, y + H⟩, ⟨x + W, y⟩]] := by
  obtain ⟨n, rfl⟩ : ∃ n, fuel = n + 4 := ⟨fuel - 4, by omega⟩
  have w : (0 : ℝ) < W := by exact_mod_cast hW
  have w' : (0 : ℝ) < H := by exact_mod_cast hH
  unfold FullMap.sectorToPolygons
  rw [h.edges, Res.bind_ok, h.vertices]
  refine outline_four ?_ ?_ ?_ n <;> intro e <;> obtain ⟨e1, e2⟩ := Pt.mk.inj e <;> linarith

/-- The coordinates of the room 100 wide that begins at 0, moved to those of a room `W` wide that begins at `x`. -/
noncomputable def roomMap (x W : ℤ) (t : ℝ) : ℝ := if t ≤ 50 then x + t else x + W + (t - 100)

/-- The same for whole numbers. -/
def zRoomMap (x W t : ℤ) : ℤ := if t ≤ 50 then x + t else x + W + (t - 100)

theorem roomMap_cast (x W z : ℤ) : roomMap x W z = zRoomMap x W z := by
  unfold roomMap zRoomMap
  by_cases h : z ≤ 50
  · rw [if_pos h, if_pos (by exact_mod_cast h)]; push_cast; rfl
  · rw [if_neg h, if_neg (by exact_mod_cast h)]; push_cast; rfl

theorem dilate_left (a b c : ℝ) (h : b < c) : dilateLine (⟨a, b⟩ : Pt ℝ) ⟨a, c⟩ =
    [⟨a - 16, c + 16⟩, ⟨a + 16, c + 16⟩, ⟨a + 16, c - 16⟩, ⟨a + 16, b - 16⟩, ⟨a - 16, b - 16⟩, ⟨a - 16, b + 16⟩] := by
  simp [dilateLine, FloatOps.lt, FloatOps.sub, FloatOps.add, FloatOps.ofInt, not_lt.2 h.le]

theorem dilate_top (a b c : ℝ) (h : a < b) : dilateLine (⟨a, c⟩ : Pt ℝ) ⟨b, c⟩ =
    [⟨b - 16, c + 16⟩, ⟨b + 16, c + 16⟩, ⟨b + 16, c - 16⟩, ⟨a + 16, c - 16⟩, ⟨a - 16, c - 16⟩, ⟨a - 16, c + 16⟩] := by
  simp [dilateLine, FloatOps.lt, FloatOps.sub, FloatOps.add, FloatOps.ofInt, not_lt.2 h.le]

theorem dilate_right (a b c : ℝ) (h : b < c) : dilateLine (⟨a, c⟩ : Pt ℝ) ⟨a, b⟩ =
    [⟨a - 16, c + 16⟩, ⟨a + 16, c + 16⟩, ⟨a + 16, c - 16⟩, ⟨a + 16, b - 16⟩, ⟨a - 16, b - 16⟩, ⟨a - 16, b + 16⟩] := by
  simp [dilateLine, FloatOps.lt, FloatOps.sub, FloatOps.add, FloatOps.ofInt, h]

theorem dilate_bottom (a b c : ℝ) (h : a < b) : dilateLine (⟨b, c⟩ : Pt ℝ) ⟨a, c⟩ =
    [⟨a - 16, c - 16⟩, ⟨a - 16, c + 16⟩, ⟨a + 16, c + 16⟩, ⟨b + 16, c + 16⟩, ⟨b + 16, c - 16⟩, ⟨b - 16, c - 16⟩] := by
  simp [dilateLine, FloatOps.lt, FloatOps.sub, FloatOps.add, FloatOps.ofInt, h]

theorem line_one {l : Line} {v w : Pt ℝ} (hb : l.back = none) (hf : ∃ h, l.front = some h) (hv : m.vertices[l.start]? = some v) (hw : m.vertices[l.stop]? = some w) :
    linePolygon m l = .ok (⟨[contourOf (dilateLine v w)]⟩, .removeInterior) := by
  obtain ⟨h, hf⟩ := hf
  have i1 : m.lineStart l = .ok v := by unfold FullMap.lineStart FullMap.vertex index; rw [hv]
  have i2 : m.lineEnd l = .ok w := by unfold FullMap.lineEnd FullMap.vertex index; rw [hw]
  unfold linePolygon
  rw [i1, Res.bind_ok, i2, Res.bind_ok]
  simp [lineMode, Line.isOneSided, hb, hf]

/-- The polygons for a room are those for the room 100 wide and 100 high, stretched. -/
theorem IsRoom.polygons (h : IsRoom m x y W H) (hW : 0 < W) (hH : 0 < H) {fuel : ℕ} (hf : 4 ≤ fuel) :
    routePolygons m fuel = .ok (stretchAll (roomMap x W) (roomMap y H) (chamberSample.map fun p => (zPolygon p.1, p.2))) := by
  obtain ⟨l₀, l₁, l₂, l₃, e, ⟨s0, t0⟩, ⟨s1, t1⟩, ⟨s2, t2⟩, ⟨s3, t3⟩, hl⟩ := h.split
  obtain ⟨b0, h0, d0, f0, g0, k0⟩ := hl l₀ (by simp)
  obtain ⟨b1, h1, d1, f1, g1, k1⟩ := hl l₁ (by simp)
  obtain ⟨b2, h2, d2, f2, g2, k2⟩ := hl l₂ (by simp)
  obtain ⟨b3, h3, d3, f3, g3, k3⟩ := hl l₃ (by simp)
  have hv := h.vertices
  have w : (0 : ℝ) < W := by exact_mod_cast hW
  have w' : (0 : ℝ) < H := by exact_mod_cast hH
  have p0 := line_one (v := ⟨x, y⟩) (w := ⟨x, y + H⟩) b0 ⟨_, f0⟩ (by rw [hv, s0]; rfl) (by rw [hv, t0]; rfl)
  have p1 := line_one (v := ⟨x, y + H⟩) (w := ⟨x + W, y + H⟩) b1 ⟨_, f1⟩ (by rw [hv, s1]; rfl) (by rw [hv, t1]; rfl)
  have p2 := line_one (v := ⟨x + W, y + H⟩) (w := ⟨x + W, y⟩) b2 ⟨_, f2⟩ (by rw [hv, s2]; rfl) (by rw [hv, t2]; rfl)
  have p3 := line_one (v := ⟨x + W, y⟩) (w := ⟨x, y⟩) b3 ⟨_, f3⟩ (by rw [hv, s3]; rfl) (by rw [hv, t3]; rfl)
  rw [dilate_left _ _ _ (by linarith)] at p0
  rw [dilate_top _ _ _ (by linarith)] at p1
  rw [dilate_right _ _ _ (by linarith)] at p2
  rw [dilate_bottom _ _ _ (by linarith)] at p3
  unfold routePolygons
  rw [h.sectors, show List.range 1 = [0] from rfl, e]
  simp only [Res.mapList, sectorPolygon, h.outlines hW hH hf, p0, p1, p2, p3, Res.bind_ok, Res.pure_eq, List.map_singleton, List.singleton_append]
  refine congrArg Res.ok ?_
  simp only [stretchAll, chamberSample, List.map_cons, List.map_nil, zPolygon, stretchPolygon, stretchContour, contourOf, Contour.new, stretchPt, ZPt.toPt, roomMap]
  norm_num
  refine ⟨?_, ?_⟩ <;> ring_nf <;> simp

end Idc
