import Verif.Props.GridStretch
import Verif.Props.Lift
/-!
# Two runs of the sweep side by side, on the same grid drawn in two ways, for C92
-/

namespace Idc

open FloatOps

section

variable {F : Type} {T : Type}

/-- All segments, drawn. -/
def drawArena (h : Pt ℤ → Pt F) (A : Arena ℤ) : Arena F := A.map (drawSeg h)

/-- The state of the sweep, drawn. -/
def drawState (h : Pt ℤ → Pt F) (st : SweepState ℤ) : SweepState F := ⟨drawArena h st.arena, st.queue, st.active, st.swept⟩

/-- A contour, drawn. -/
def drawContour (h : Pt ℤ → Pt F) (c : Contour ℤ) : Contour F where
  points := c.points.map h
  holes := c.holes
  from_polygons := c.from_polygons
  neighbors := c.neighbors
  external := c.external
  is_clockwise := c.is_clockwise

/-- A polygon, drawn. -/
def drawPolygon (h : Pt ℤ → Pt F) (p : Polygon ℤ) : Polygon F := ⟨p.contours.map (drawContour h)⟩

end

/-- A segment on the grid. -/
structure GridS (X Y : Set ℤ) {T : Type} (s : SweepSegment ℤ T) : Prop where
  left : OnGrid X Y s.left_point
  right : OnGrid X Y s.right_point
  forth : Forth s.left_point s.right_point

/-- All segments. -/
def GridA (X Y : Set ℤ) (A : Arena ℤ) : Prop := ∀ s ∈ A, GridS X Y s

/-- The cosine, as computed. -/
def cosAt {F : Type} [FloatOps F] (h : Pt ℤ → Pt F) (p q a b : Pt ℤ) : F := div (((h p).sub (h q)).dot ((h a).sub (h b))) ((h a).sub (h b)).length

/-- The inner product of two vectors. -/
def ptDot (p q a b : Pt ℤ) : ℤ := (p.x - q.x) * (a.x - b.x) + (p.y - q.y) * (a.y - b.y)

/-- A way to draw the points of the grid on which all decisions are made alike. -/
structure Draws (X Y : Set ℤ) {F : Type} [FloatOps F] (h : Pt ℤ → Pt F) : Prop where
  beq : ∀ {p q}, OnGrid X Y p → OnGrid X Y q → (h p).beq (h q) = decide (p = q)
  before : ∀ {p q}, OnGrid X Y p → OnGrid X Y q → (lt (h p).x (h q).x || (eq (h p).x (h q).x && lt (h p).y (h q).y)) = decide (p.x < q.x ∨ (p.x = q.x ∧ p.y < q.y))
  vertical : ∀ {p q}, OnGrid X Y p → OnGrid X Y q → eq (h p).x (h q).x = decide (p.x = q.x)
  points : ∀ {p q}, OnGrid X Y p → OnGrid X Y q → comparePoints (h p) (h q) = .ok ((compare p.x q.x).then (compare p.y q.y))
  ends : ∀ {s t : BoolSegment ℤ}, GridS X Y s → GridS X Y t → ∀ e e', endpointCmp (drawSeg h s) e (drawSeg h t) e' =
    .ok (ptEndCmp (s.pointAt e) (s.otherPointAt e) e s.order (t.pointAt e') (t.otherPointAt e') e' t.order)
  segs : ∀ {s t : BoolSegment ℤ}, GridS X Y s → GridS X Y t → (drawSeg h s).cmp (drawSeg h t) =
    .ok (ptSegCmp s.index s.order s.left_point s.right_point t.index t.order t.left_point t.right_point)
  meet : ∀ {s t : BoolSegment ℤ}, GridS X Y s → GridS X Y t →
    (zMeet s.left_point s.right_point t.left_point t.right_point).Is h (intersectSegments (h s.left_point, h s.right_point) (h t.left_point, h t.right_point))
  turn : ∀ {s t : BoolSegment ℤ}, GridS X Y s → GridS X Y t → ∀ d e, lt (ofInt 0) (((h (s.otherPointAt d)).sub (h (s.pointAt d))).cross ((h (t.otherPointAt e)).sub (h (t.pointAt e)))) =
    decide (0 < zTurn (s.otherPointAt d) (s.pointAt d) (t.otherPointAt e) (t.pointAt e))
  cos : ∀ {s t u : BoolSegment ℤ}, GridS X Y s → GridS X Y t → GridS X Y u → ∀ d e e', lt (cosAt h (s.otherPointAt d) (s.pointAt d) (t.otherPointAt e) (t.pointAt e))
      (cosAt h (s.otherPointAt d) (s.pointAt d) (u.otherPointAt e') (u.pointAt e')) =
    decide ((ptDot (s.otherPointAt d) (s.pointAt d) (t.otherPointAt e) (t.pointAt e)).sign < (ptDot (s.otherPointAt d) (s.pointAt d) (u.otherPointAt e') (u.pointAt e')).sign)

/-! ### Basic steps -/

section

variable {E F : Type} {h1 : Pt ℤ → Pt E} {h2 : Pt ℤ → Pt F}

theorem sim_at (A : Arena ℤ) (i : Nat) : Sim (fun s => A[i]? = some s) (drawSeg h1) (drawSeg h2) (index (drawArena h1 A) i) (index (drawArena h2 A) i) := by
  unfold drawArena
  rw [index_lf, index_lf]
  cases h : A[i]? with
  | none => exact Sim.panic
  | some s => exact Sim.ok s rfl

theorem at_some {h : Pt ℤ → Pt F} {A : Arena ℤ} {i : Nat} {s : BoolSegment ℤ} (hs : A[i]? = some s) : index (drawArena h A) i = .ok (drawSeg h s) := by
  unfold drawArena; rw [index_lf, hs]

theorem at_none {h : Pt ℤ → Pt F} {A : Arena ℤ} {i : Nat} (hs : A[i]? = none) : index (drawArena h A) i = .panic .bounds := by
  unfold drawArena; rw [index_lf, hs]

/-- The segments are all still there, with the same ends. -/
def Keeps (A A' : Arena ℤ) : Prop := ∀ (i : Nat) (s : BoolSegment ℤ), A[i]? = some s → ∃ s' : BoolSegment ℤ, A'[i]? = some s' ∧ s'.left_point = s.left_point ∧ s'.right_point = s.right_point

theorem Keeps.refl (A : Arena ℤ) : Keeps A A := fun _ s hs => ⟨s, hs, rfl, rfl⟩

theorem Keeps.trans {A B C : Arena ℤ} (h : Keeps A B) (h' : Keeps B C) : Keeps A C := by
  intro i s hs
  obtain ⟨s', e, e1, e2⟩ := h i s hs
  obtain ⟨s'', e', e1', e2'⟩ := h' i s' e
  exact ⟨s'', e', e1'.trans e1, e2'.trans e2⟩

theorem keeps_set {A : Arena ℤ} {i : Nat} {s : BoolSegment ℤ} (hs : A[i]? = some s) (p : SegmentPacket) : Keeps A (A.set i { s with data := p }) := by
  intro j t ht
  by_cases hij : i = j
  · subst hij
    rw [hs] at ht; cases ht
    exact ⟨_, List.getElem?_set_self (List.getElem?_eq_some_iff.1 hs).1, rfl, rfl⟩
  · exact ⟨t, by rw [List.getElem?_set_ne hij]; exact ht, rfl, rfl⟩

theorem gridA_set {X Y : Set ℤ} {A : Arena ℤ} (hA : GridA X Y A) {i : Nat} {s : BoolSegment ℤ} (hs : A[i]? = some s) (p : SegmentPacket) : GridA X Y (A.set i { s with data := p }) := by
  intro t ht
  rcases List.mem_or_eq_of_mem_set ht with ht | rfl
  · exact hA t ht
  · have := hA s (List.mem_of_getElem? hs)
    exact ⟨this.left, this.right, this.forth⟩

theorem sim_packet {X Y : Set ℤ} {A : Arena ℤ} (hA : GridA X Y A) (i : Nat) (p : SegmentPacket) :
    Sim (fun A' => GridA X Y A' ∧ Keeps A A') (drawArena h1) (drawArena h2) ((drawArena h1 A).setPacket i p) ((drawArena h2 A).setPacket i p) := by
  unfold Arena.setPacket
  refine (sim_at A i).bind fun s hs => ?_
  have e : ∀ (K : Type) (h : Pt ℤ → Pt K), (drawArena h A).set i { drawSeg h s with data := p } = drawArena h (A.set i { s with data := p }) := fun K h => by
    unfold drawArena
    rw [List.map_set]
    rfl
  rw [e E, e F]
  exact Sim.ok _ ⟨gridA_set hA hs p, keeps_set hs p⟩

end

section

variable {E F : Type} [FloatOps E] [FloatOps F] {h1 : Pt ℤ → Pt E} {h2 : Pt ℤ → Pt F} {X Y : Set ℤ}

theorem endCmp_same (D1 : Draws X Y h1) (D2 : Draws X Y h2) {A : Arena ℤ} (h : GridA X Y A) : (drawArena h1 A).endCmp = (drawArena h2 A).endCmp := by
  funext a b
  unfold Arena.endCmp
  cases ha : A[a.1]? with
  | none => rw [at_none ha, at_none ha]; rfl
  | some s =>
    cases hb : A[b.1]? with
    | none => rw [at_none hb, at_none hb, at_some ha, at_some ha]; rfl
    | some t =>
      rw [at_some hb, at_some hb, at_some ha, at_some ha]
      have hs := h s (List.mem_of_getElem? ha)
      have ht := h t (List.mem_of_getElem? hb)
      simp only [Res.bind_ok]
      rw [D1.ends hs ht, D2.ends hs ht]

theorem segCmp_same (D1 : Draws X Y h1) (D2 : Draws X Y h2) {A : Arena ℤ} (h : GridA X Y A) : (drawArena h1 A).segCmp = (drawArena h2 A).segCmp := by
  funext a b
  unfold Arena.segCmp
  cases ha : A[a]? with
  | none => rw [at_none ha, at_none ha]; rfl
  | some s =>
    cases hb : A[b]? with
    | none => rw [at_none hb, at_none hb, at_some ha, at_some ha]; rfl
    | some t =>
      rw [at_some hb, at_some hb, at_some ha, at_some ha]
      have hs := h s (List.mem_of_getElem? ha)
      have ht := h t (List.mem_of_getElem? hb)
      simp only [Res.bind_ok]
      rw [D1.segs hs ht, D2.segs hs ht]

theorem sim_new (D1 : Draws X Y h1) (D2 : Draws X Y h2) {p q : Pt ℤ} (hp : OnGrid X Y p) (hq : OnGrid X Y q) (hst : p.y = q.y ∨ p.x = q.x) (i k : Nat) {T : Type} (d : T) :
    Sim (fun s : SweepSegment ℤ T => GridS X Y s ∧ s.data = d) (drawSeg h1) (drawSeg h2) (SweepSegment.new (h1 p) (h1 q) i k d) (SweepSegment.new (h2 p) (h2 q) i k d) := by
  have e : ∀ (K : Type) [FloatOps K] (h : Pt ℤ → Pt K), Draws X Y h → SweepSegment.new (h p) (h q) i k d =
      if p = q then .panic .explicit
      else if p.x < q.x ∨ (p.x = q.x ∧ p.y < q.y) then .ok (drawSeg h ⟨p, q, false, i, k, d⟩) else .ok (drawSeg h ⟨q, p, true, i, k, d⟩) := by
    intro K _ h D
    unfold SweepSegment.new
    rw [D.beq hp hq, D.before hp hq]
    simp only [decide_eq_true_eq]
    rfl
  rw [e E h1 D1, e F h2 D2]
  have hne : ¬ p = q → p.x ≠ q.x ∨ p.y ≠ q.y := by
    intro h
    by_contra hc
    push Not at hc
    apply h
    cases p; cases q
    simp only at hc
    rw [hc.1, hc.2]
  refine Sim.ite (fun _ => Sim.panic) fun hpq => Sim.ite (fun hb => Sim.ok _ ⟨⟨hp, hq, ?_⟩, rfl⟩) fun hb => Sim.ok _ ⟨⟨hq, hp, ?_⟩, rfl⟩
  · unfold Forth
    dsimp only
    have := hne hpq
    omega
  · unfold Forth
    dsimp only
    have := hne hpq
    omega

/-! ### Loading -/

/-- The state's segments are on the grid. -/
def GridSt (X Y : Set ℤ) (st : SweepState ℤ) : Prop := GridA X Y st.arena

theorem gridA_append {A B : Arena ℤ} (hA : GridA X Y A) (hB : GridA X Y B) : GridA X Y (A ++ B) := by
  intro s hs
  rcases List.mem_append.1 hs with hs | hs
  · exact hA s hs
  · exact hB s hs

theorem drawArena_append {K : Type} (h : Pt ℤ → Pt K) (A B : Arena ℤ) : drawArena h A ++ drawArena h B = drawArena h (A ++ B) := by simp [drawArena]

theorem sim_addSegments (D1 : Draws X Y h1) (D2 : Draws X Y h2) (lib : Lib) (n i : Nat) (mode : PolygonMode) : ∀ (segs : List (Pt ℤ × Pt ℤ)) (st : SweepState ℤ),
    (∀ e ∈ segs, OnGrid X Y e.1 ∧ OnGrid X Y e.2 ∧ (e.1.y = e.2.y ∨ e.1.x = e.2.x)) → GridSt X Y st →
    Sim (GridSt X Y) (drawState h1) (drawState h2) (addSegments lib n i mode (segs.map fun e => (h1 e.1, h1 e.2)) (drawState h1 st))
      (addSegments lib n i mode (segs.map fun e => (h2 e.1, h2 e.2)) (drawState h2 st))
  | [], st, _, hst => Sim.ok st hst
  | (p, q) :: rest, st, hs, hst => by
    obtain ⟨hp, hq, hpq⟩ := hs (p, q) (List.mem_cons_self ..)
    have hs' := fun e he => hs e (List.mem_cons_of_mem _ he)
    simp only [List.map_cons, addSegments]
    rw [D1.beq hp hq, D2.beq hp hq]
    refine Sim.ite (fun _ => sim_addSegments D1 D2 lib n i mode rest st hs' hst) fun _ => ?_
    have el : ∀ (K : Type) (h : Pt ℤ → Pt K), (drawState h st).arena.length = st.arena.length := fun K h => by simp [drawState, drawArena]
    rw [el E, el F]
    refine (sim_new D1 D2 hp hq hpq _ _ _).bind fun s hsm => ?_
    have ea : ∀ (K : Type) (h : Pt ℤ → Pt K), (drawState h st).arena ++ [drawSeg h s] = drawArena h (st.arena ++ [s]) := fun K h => by simp [drawState, drawArena]
    have hsm' : GridA X Y (st.arena ++ [s]) := gridA_append hst fun t ht => by rw [List.mem_singleton.1 ht]; exact hsm.1
    rw [ea E, ea F, endCmp_same D1 D2 hsm']
    refine (Sim.refl _).bind fun q1 _ => ?_
    refine (Sim.refl _).bind fun q2 _ => ?_
    exact sim_addSegments D1 D2 lib n i mode rest ⟨st.arena ++ [s], q2, st.active, st.swept⟩ hs' hsm'

end

/-- The edges of a contour. -/
theorem segments_draw {K : Type} [FloatOps K] (h : Pt ℤ → Pt K) (c : Contour ℤ) : (drawContour h c).segments = .ok ((c.points.zip (c.points.rotate 1)).map fun e => (h e.1, h e.2)) := by
  obtain ⟨segs, e, hl, hh⟩ := C52_segments (drawContour h c)
  rw [e]
  congr 1
  have hlen : (drawContour h c).points.length = c.points.length := by simp [drawContour]
  apply List.ext_getElem?
  intro j
  by_cases hj : j < c.points.length
  · have hm : (j + 1) % c.points.length < c.points.length := Nat.mod_lt _ (by omega)
    have h1 : (drawContour h c).points[j]? = some (h c.points[j]) := by
      simp only [drawContour, List.getElem?_map, List.getElem?_eq_getElem hj, Option.map_some]
    have h2 : (drawContour h c).points[(j + 1) % (drawContour h c).points.length]? = some (h c.points[(j + 1) % c.points.length]) := by
      rw [hlen]
      simp only [drawContour, List.getElem?_map, List.getElem?_eq_getElem hm, Option.map_some]
    rw [(hh j _ _).2 ⟨h1, h2⟩, List.getElem?_map, List.getElem?_zip_eq_some (z := (c.points[j], c.points[(j + 1) % c.points.length])) |>.2 ⟨List.getElem?_eq_getElem hj, ?_⟩]
    · rfl
    · rw [List.getElem?_rotate hj, List.getElem?_eq_getElem hm]
  · rw [List.getElem?_eq_none (by omega), List.getElem?_eq_none (by simp; omega)]

/-- A contour on the grid, with horizontal and vertical edges. -/
def GridC (X Y : Set ℤ) (c : Contour ℤ) : Prop := (∀ q ∈ c.points, OnGrid X Y q) ∧ ∀ e ∈ c.points.zip (c.points.rotate 1), e.1.y = e.2.y ∨ e.1.x = e.2.x

section

variable {E F : Type} [FloatOps E] [FloatOps F] {h1 : Pt ℤ → Pt E} {h2 : Pt ℤ → Pt F} {X Y : Set ℤ}

theorem sim_addContours (D1 : Draws X Y h1) (D2 : Draws X Y h2) (lib : Lib) (n i : Nat) (mode : PolygonMode) : ∀ (cs : List (Contour ℤ)) (st : SweepState ℤ), (∀ c ∈ cs, GridC X Y c) → GridSt X Y st →
    Sim (GridSt X Y) (drawState h1) (drawState h2) (addContours lib n i mode (cs.map (drawContour h1)) (drawState h1 st)) (addContours lib n i mode (cs.map (drawContour h2)) (drawState h2 st))
  | [], st, _, hst => Sim.ok st hst
  | c :: cs, st, hc, hst => by
    simp only [List.map_cons, addContours]
    rw [segments_draw h1, segments_draw h2, Res.bind_ok, Res.bind_ok]
    have h0 := hc c (List.mem_cons_self ..)
    refine (sim_addSegments D1 D2 lib n i mode _ st (fun e he => ?_) hst).bind fun st' hst' => ?_
    · have := List.of_mem_zip he
      exact ⟨h0.1 _ this.1, h0.1 _ (by simpa using this.2), h0.2 e he⟩
    · exact sim_addContours D1 D2 lib n i mode cs st' (fun c hc' => hc c (List.mem_cons_of_mem _ hc')) hst'

theorem sim_addPolygons (D1 : Draws X Y h1) (D2 : Draws X Y h2) (lib : Lib) (n : Nat) : ∀ (polys : List (Polygon ℤ × PolygonMode)) (i : Nat) (st : SweepState ℤ),
    (∀ p ∈ polys, ∀ c ∈ p.1.contours, GridC X Y c) → GridSt X Y st →
    Sim (GridSt X Y) (drawState h1) (drawState h2) (addPolygons lib n i (polys.map fun p => (drawPolygon h1 p.1, p.2)) (drawState h1 st))
      (addPolygons lib n i (polys.map fun p => (drawPolygon h2 p.1, p.2)) (drawState h2 st))
  | [], i, st, _, hst => Sim.ok st hst
  | (p, mode) :: polys, i, st, hc, hst => by
    simp only [List.map_cons, addPolygons]
    refine (sim_addContours D1 D2 lib n i mode p.contours st (hc (p, mode) (List.mem_cons_self ..)) hst).bind fun st' hst' => ?_
    exact sim_addPolygons D1 D2 lib n polys (i + 1) st' (fun p hp => hc p (List.mem_cons_of_mem _ hp)) hst'

end

end Idc
