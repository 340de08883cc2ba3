import Verif.Props.GridSim
/-!
# The sweep on a grid drawn in two ways, for C92
-/

namespace Idc

open FloatOps

/-- The point is on the line through the segment. -/
def AlongSeg (s : BoolSegment ℤ) (z : Pt ℤ) : Prop :=
  (s.left_point.y = s.right_point.y ∧ z.y = s.left_point.y) ∨ (s.left_point.x = s.right_point.x ∧ z.x = s.left_point.x)

/-- The point, if any, splits the segment. -/
def SplitOk (X Y : Set ℤ) (A : Arena ℤ) (oi : Option Nat) (o : Option (Pt ℤ)) : Prop :=
  ∀ z, o = some z → OnGrid X Y z ∧ ∃ (i : Nat) (s : BoolSegment ℤ), oi = some i ∧ A[i]? = some s ∧ AlongSeg s z

theorem SplitOk.none {X Y : Set ℤ} {A : Arena ℤ} {oi : Option Nat} : SplitOk X Y A oi none := fun _ h => by cases h

theorem SplitOk.keeps {X Y : Set ℤ} {A A' : Arena ℤ} {oi : Option Nat} {o : Option (Pt ℤ)} (h : SplitOk X Y A oi o) (hk : Keeps A A') : SplitOk X Y A' oi o := by
  intro z hz
  obtain ⟨h0, i, s, e, hs, hl⟩ := h z hz
  obtain ⟨s', hs', e1, e2⟩ := hk i s hs
  refine ⟨h0, i, s', e, hs', ?_⟩
  unfold AlongSeg
  rw [e1, e2]
  exact hl

/-- What `handleIntersections` returns, drawn. -/
def drawHandled {F : Type} (h : Pt ℤ → Pt F) (r : Arena ℤ × Nat × Option (Pt ℤ) × Option (Pt ℤ)) : Arena F × Nat × Option (Pt F) × Option (Pt F) :=
  (drawArena h r.1, r.2.1, r.2.2.1.map h, r.2.2.2.map h)

theorem meet_segment {a b a' b' : Pt ℤ} (hf : Forth a b) (hf' : Forth a' b') (h : zMeet a b a' b' = .segment) :
    (a.y = b.y ∧ a'.y = b'.y ∧ a.y = a'.y) ∨ (a.x = b.x ∧ a'.x = b'.x ∧ a.x = a'.x) := by
  unfold Forth at hf hf'
  unfold zMeet spanMeet at h
  split_ifs at h <;> omega

section

variable {E F : Type} [FloatOps E] [FloatOps F] {h1 : Pt ℤ → Pt E} {h2 : Pt ℤ → Pt F} {X Y : Set ℤ}

theorem sim_upperType {A : Arena ℤ} (hA : GridA X Y A) (i : Nat) (t : EdgeType) :
    Sim (fun A' => GridA X Y A' ∧ Keeps A A') (drawArena h1) (drawArena h2) (setUpperType (drawArena h1 A) i t) (setUpperType (drawArena h2 A) i t) := by
  unfold setUpperType
  refine (sim_at A i).bind fun s _ => ?_
  exact Sim.ite (fun _ => sim_packet hA i _) fun _ => Sim.ok A ⟨hA, Keeps.refl A⟩

theorem onLine_of_meet {s : BoolSegment ℤ} {z : Pt ℤ} (hf : Forth s.left_point s.right_point)
    (h : s.left_point.x ≤ z.x ∧ z.x ≤ s.right_point.x ∧ s.left_point.y ≤ z.y ∧ z.y ≤ s.right_point.y) : AlongSeg s z := by
  unfold Forth at hf
  unfold AlongSeg
  omega

theorem sim_handled (D1 : Draws X Y h1) (D2 : Draws X Y h2) {A : Arena ℤ} (hA : GridA X Y A) (oi oj : Option Nat) :
    Sim (fun r => GridA X Y r.1 ∧ Keeps A r.1 ∧ SplitOk X Y r.1 oi r.2.2.1 ∧ SplitOk X Y r.1 oj r.2.2.2) (drawHandled h1) (drawHandled h2)
      (handleIntersections (drawArena h1 A) oi oj) (handleIntersections (drawArena h2 A) oi oj) := by
  have stay : ∀ m, Sim (fun r => GridA X Y r.1 ∧ Keeps A r.1 ∧ SplitOk X Y r.1 oi r.2.2.1 ∧ SplitOk X Y r.1 oj r.2.2.2) (drawHandled h1) (drawHandled h2)
      (.ok (drawArena h1 A, m, none, none)) (.ok (drawArena h2 A, m, none, none)) := fun m =>
    Sim.ok (m1 := drawHandled h1) (m2 := drawHandled h2) (P := fun r => GridA X Y r.1 ∧ Keeps A r.1 ∧ SplitOk X Y r.1 oi r.2.2.1 ∧ SplitOk X Y r.1 oj r.2.2.2)
      (A, m, none, none) ⟨hA, Keeps.refl A, SplitOk.none, SplitOk.none⟩
  rcases oi with _ | i
  · exact stay 0
  rcases oj with _ | j
  · exact stay 0
  unfold handleIntersections
  dsimp only
  refine (sim_at A i).bind fun s hs => ?_
  refine (sim_at A j).bind fun t ht => ?_
  have gs := hA s (List.mem_of_getElem? hs)
  have gt := hA t (List.mem_of_getElem? ht)
  have l : ∀ (K : Type) (h : Pt ℤ → Pt K) (s : BoolSegment ℤ), (drawSeg h s).left_point = h s.left_point := fun _ _ _ => rfl
  have r : ∀ (K : Type) (h : Pt ℤ → Pt K) (s : BoolSegment ℤ), (drawSeg h s).right_point = h s.right_point := fun _ _ _ => rfl
  have d : ∀ (K : Type) (h : Pt ℤ → Pt K) (s : BoolSegment ℤ), (drawSeg h s).data = s.data := fun _ _ _ => rfl
  simp only [l, r, d]
  have m1 := D1.meet gs gt
  have m2 := D2.meet gs gt
  cases hz : zMeet s.left_point s.right_point t.left_point t.right_point with
  | none =>
    rw [hz] at m1 m2
    rw [show intersectSegments _ _ = _ from m1, show intersectSegments _ _ = _ from m2]
    exact stay 0
  | point z =>
    rw [hz] at m1 m2
    rw [show intersectSegments _ _ = _ from m1, show intersectSegments _ _ = _ from m2]
    have hzg : OnGrid X Y z := meet_onGrid gs.left gs.right gt.left hz
    obtain ⟨on1, on2⟩ := meet_on gs.forth gt.forth hz
    dsimp only
    rw [D1.beq gs.left gt.left, D2.beq gs.left gt.left, D1.beq gs.right gt.right, D2.beq gs.right gt.right, D1.beq gs.left hzg, D2.beq gs.left hzg, D1.beq gs.right hzg, D2.beq gs.right hzg,
      D1.beq gt.left hzg, D2.beq gt.left hzg, D1.beq gt.right hzg, D2.beq gt.right hzg]
    refine Sim.ite (fun _ => stay 0) fun _ => ?_
    have e : ∀ (K : Type) (h : Pt ℤ → Pt K), (Res.ok (drawArena h A, 1,
        (if (!decide (s.left_point = z) && !decide (s.right_point = z)) = true then some (h z) else none),
        (if (!decide (t.left_point = z) && !decide (t.right_point = z)) = true then some (h z) else none)) : Res (Arena K × Nat × Option (Pt K) × Option (Pt K))) =
        .ok (drawHandled h (A, 1, (if (!decide (s.left_point = z) && !decide (s.right_point = z)) = true then some z else none),
          (if (!decide (t.left_point = z) && !decide (t.right_point = z)) = true then some z else none))) := fun K h => by
      unfold drawHandled
      dsimp only
      split <;> split <;> rfl
    simp only [Res.pure_eq]
    rw [e E, e F]
    refine Sim.ok _ ⟨hA, Keeps.refl A, ?_, ?_⟩
    · intro z' hz'
      dsimp only at hz'
      rw [Option.ite_none_right_eq_some] at hz'
      cases hz'.2
      exact ⟨hzg, i, s, rfl, hs, onLine_of_meet gs.forth on1⟩
    · intro z' hz'
      dsimp only at hz'
      rw [Option.ite_none_right_eq_some] at hz'
      cases hz'.2
      exact ⟨hzg, j, t, rfl, ht, onLine_of_meet gt.forth on2⟩
  | segment =>
    rw [hz] at m1 m2
    obtain ⟨p1, q1, m1⟩ := m1
    obtain ⟨p2, q2, m2⟩ := m2
    rw [show intersectSegments _ _ = _ from m1, show intersectSegments _ _ = _ from m2]
    dsimp only
    refine Sim.ite (fun _ => Sim.panic) fun _ => ?_
    rw [D1.points gs.left gt.left, D2.points gs.left gt.left, D1.points gs.right gt.right, D2.points gs.right gt.right, D1.beq gs.left gt.left, D2.beq gs.left gt.left]
    simp only [Res.bind_ok]
    have hseg := meet_segment gs.forth gt.forth hz
    have fs := gs.forth
    have ft := gt.forth
    unfold Forth at fs ft
    refine Sim.ite (fun _ => ?_) fun _ => ?_
    · refine (sim_packet hA i _).bind fun A1 hA1 => ?_
      refine (sim_upperType hA1.1 j _).bind fun A2 hA2 => ?_
      have hk : Keeps A A2 := hA1.2.trans hA2.2
      have base1 : SplitOk X Y A (some i) (some t.right_point) := fun z' hz' => by
        cases hz'
        exact ⟨gt.right, i, s, rfl, hs, by unfold AlongSeg; omega⟩
      have base2 : SplitOk X Y A (some j) (some s.right_point) := fun z' hz' => by
        cases hz'
        exact ⟨gs.right, j, t, rfl, ht, by unfold AlongSeg; omega⟩
      cases (compare s.right_point.x t.right_point.x).then (compare s.right_point.y t.right_point.y) with
      | lt => exact Sim.ok (m1 := drawHandled h1) (m2 := drawHandled h2) (A2, 2, none, some s.right_point) ⟨hA2.1, hk, SplitOk.none, base2.keeps hk⟩
      | eq => exact Sim.ok (m1 := drawHandled h1) (m2 := drawHandled h2) (A2, 2, none, none) ⟨hA2.1, hk, SplitOk.none, SplitOk.none⟩
      | gt => exact Sim.ok (m1 := drawHandled h1) (m2 := drawHandled h2) (A2, 2, some t.right_point, none) ⟨hA2.1, hk, base1.keeps hk, SplitOk.none⟩
    · have base1 : SplitOk X Y A (some i) (some t.left_point) := fun z' hz' => by
        cases hz'
        exact ⟨gt.left, i, s, rfl, hs, by unfold AlongSeg; omega⟩
      have base2 : SplitOk X Y A (some j) (some s.left_point) := fun z' hz' => by
        cases hz'
        exact ⟨gs.left, j, t, rfl, ht, by unfold AlongSeg; omega⟩
      cases (compare s.left_point.x t.left_point.x).then (compare s.left_point.y t.left_point.y) with
      | lt => exact Sim.ok (m1 := drawHandled h1) (m2 := drawHandled h2) (A, 3, some t.left_point, none) ⟨hA, Keeps.refl A, base1, SplitOk.none⟩
      | eq => exact Sim.panic
      | gt => exact Sim.ok (m1 := drawHandled h1) (m2 := drawHandled h2) (A, 3, none, some s.left_point) ⟨hA, Keeps.refl A, SplitOk.none, base2⟩

/-! ### Splitting -/

theorem redirect_draw {K : Type} (h : Pt ℤ → Pt K) (A : Arena ℤ) (i j : Nat) : (drawArena h A).redirect i j = drawArena h (A.redirect i j) := by
  unfold Arena.redirect drawArena
  rw [List.map_map, List.map_map]
  apply List.map_congr_left
  intro s _
  simp only [Function.comp]
  have d : (drawSeg h s).data = s.data := rfl
  rw [d]
  split <;> rfl

theorem redirect_mem {A : Arena ℤ} {i j : Nat} (hA : GridA X Y A) : GridA X Y (A.redirect i j) := by
  intro s hs
  unfold Arena.redirect at hs
  obtain ⟨t, ht, rfl⟩ := List.mem_map.1 hs
  have := hA t ht
  split
  · exact ⟨this.left, this.right, this.forth⟩
  · exact this

theorem redirect_keeps (A : Arena ℤ) (i j : Nat) : Keeps A (A.redirect i j) := by
  intro k s hs
  unfold Arena.redirect
  rw [List.getElem?_map, hs]
  refine ⟨_, rfl, ?_, ?_⟩
  · dsimp only; split <;> rfl
  · dsimp only; split <;> rfl

theorem append_keeps (A B : Arena ℤ) : Keeps A (A ++ B) := by
  intro k s hs
  exact ⟨s, by rw [List.getElem?_append_left (List.getElem?_eq_some_iff.1 hs).1]; exact hs, rfl, rfl⟩

/-- A state and something else, drawn. -/
def drawWith {K Z : Type} (h : Pt ℤ → Pt K) (r : SweepState ℤ × Z) : SweepState K × Z := (drawState h r.1, r.2)

theorem sim_split (D1 : Draws X Y h1) (D2 : Draws X Y h2) (lib : Lib) (n : Nat) {st : SweepState ℤ} (hst : GridSt X Y st) {i : Nat} {z : Pt ℤ} (hz : SplitOk X Y st.arena (some i) (some z)) :
    Sim (fun r : SweepState ℤ × Nat => GridSt X Y r.1 ∧ Keeps st.arena r.1.arena) (drawWith h1) (drawWith h2)
      (splitSegment lib n (drawState h1 st) i (h1 z)) (splitSegment lib n (drawState h2 st) i (h2 z)) := by
  obtain ⟨hzg, i', s', ei, hs', hl⟩ := hz z rfl
  cases ei
  unfold splitSegment
  have ha : ∀ (K : Type) (h : Pt ℤ → Pt K), (drawState h st).arena = drawArena h st.arena := fun _ _ => rfl
  have hq : ∀ (K : Type) (h : Pt ℤ → Pt K), (drawState h st).queue = st.queue := fun _ _ => rfl
  have hv : ∀ (K : Type) (h : Pt ℤ → Pt K), (drawState h st).active = st.active := fun _ _ => rfl
  have hw : ∀ (K : Type) (h : Pt ℤ → Pt K), (drawState h st).swept = st.swept := fun _ _ => rfl
  have hlen : ∀ (K : Type) (h : Pt ℤ → Pt K), (drawArena h st.arena).length = st.arena.length := fun _ _ => by simp [drawArena]
  simp only [ha, hq, hv, hw, hlen]
  refine (sim_at st.arena i).bind fun s hs => ?_
  rw [hs'] at hs
  cases hs
  have gs := hst s' (List.mem_of_getElem? hs')
  have l : ∀ (K : Type) (h : Pt ℤ → Pt K) (s : BoolSegment ℤ), (drawSeg h s).left_point = h s.left_point := fun _ _ _ => rfl
  have r : ∀ (K : Type) (h : Pt ℤ → Pt K) (s : BoolSegment ℤ), (drawSeg h s).right_point = h s.right_point := fun _ _ _ => rfl
  have d : ∀ (K : Type) (h : Pt ℤ → Pt K) (s : BoolSegment ℤ), (drawSeg h s).data = s.data := fun _ _ _ => rfl
  simp only [l, r, d]
  have hl' := hl
  unfold AlongSeg at hl'
  refine (sim_new D1 D2 gs.left hzg (by omega) _ _ _).bind fun left hleft => ?_
  refine (sim_new D1 D2 hzg gs.right (by omega) _ _ _).bind fun right hright => ?_
  simp only [d]
  refine (Sim.refl _).bind fun lf _ => ?_
  refine (Sim.refl _).bind fun rf _ => ?_
  simp only [id]
  have ea : ∀ (K : Type) (h : Pt ℤ → Pt K), drawArena h st.arena ++ [drawSeg h left, { drawSeg h right with data := { right.data with left_faces_polygons := lf, right_faces_polygons := rf } }] =
      drawArena h (st.arena ++ [left, { right with data := { right.data with left_faces_polygons := lf, right_faces_polygons := rf } }]) := fun K h => by simp [drawArena]; rfl
  rw [ea E, ea F]
  have hA : GridA X Y (st.arena ++ [left, { right with data := { right.data with left_faces_polygons := lf, right_faces_polygons := rf } }]) := by
    refine gridA_append hst fun t ht => ?_
    rcases List.mem_cons.1 ht with rfl | ht
    · exact hleft.1
    · rw [List.mem_singleton.1 ht]
      exact ⟨hright.1.left, hright.1.right, hright.1.forth⟩
  rw [endCmp_same D1 D2 hA, segCmp_same D1 D2 hA]
  refine (Sim.refl _).bind fun x _ => ?_
  obtain ⟨found, active⟩ := x
  simp only [id]
  refine Sim.ite (fun _ => Sim.panic) fun _ => ?_
  refine (Sim.refl _).bind fun active' _ => ?_
  refine (Sim.refl _).bind fun q1 _ => ?_
  refine (Sim.refl _).bind fun q2 _ => ?_
  refine (Sim.refl _).bind fun q3 _ => ?_
  simp only [id, redirect_draw]
  exact Sim.ok (m1 := drawWith h1) (m2 := drawWith h2) (⟨Arena.redirect (st.arena ++ [left, { right with data := { right.data with left_faces_polygons := lf, right_faces_polygons := rf } }]) i st.arena.length, q3, active', st.swept⟩, st.arena.length)
    ⟨redirect_mem hA, (append_keeps _ _).trans (redirect_keeps _ _ _)⟩

theorem sim_splitIf (D1 : Draws X Y h1) (D2 : Draws X Y h2) (lib : Lib) (n : Nat) {st : SweepState ℤ} (hst : GridSt X Y st) {i : Nat} {o : Option (Pt ℤ)} (hz : SplitOk X Y st.arena (some i) o) :
    Sim (fun r : SweepState ℤ × Nat => GridSt X Y r.1 ∧ Keeps st.arena r.1.arena) (drawWith h1) (drawWith h2)
      (splitIf lib n (drawState h1 st) i (o.map h1)) (splitIf lib n (drawState h2 st) i (o.map h2)) := by
  cases o with
  | none => exact Sim.ok (m1 := drawWith h1) (m2 := drawWith h2) (st, i) ⟨hst, Keeps.refl _⟩
  | some z => exact sim_split D1 D2 lib n hst hz

theorem sim_splitIfOpt (D1 : Draws X Y h1) (D2 : Draws X Y h2) (lib : Lib) (n : Nat) {st : SweepState ℤ} (hst : GridSt X Y st) {oi : Option Nat} {o : Option (Pt ℤ)} (hz : SplitOk X Y st.arena oi o) :
    Sim (fun r : SweepState ℤ × Option Nat => GridSt X Y r.1 ∧ Keeps st.arena r.1.arena) (drawWith h1) (drawWith h2)
      (splitIfOpt lib n (drawState h1 st) oi (o.map h1)) (splitIfOpt lib n (drawState h2 st) oi (o.map h2)) := by
  cases o with
  | none => exact Sim.ok (m1 := drawWith h1) (m2 := drawWith h2) (st, oi) ⟨hst, Keeps.refl _⟩
  | some z =>
    obtain ⟨_, i, s, rfl, _, _⟩ := hz z rfl
    simp only [Option.map_some, splitIfOpt, unwrap, Res.bind_ok]
    refine (sim_split D1 D2 lib n hst hz).bind fun r hr => ?_
    exact Sim.ok (m1 := drawWith h1) (m2 := drawWith h2) (r.1, some r.2) hr

/-! ### Facing -/

theorem sim_borrow {E F : Type} {h1 : Pt ℤ → Pt E} {h2 : Pt ℤ → Pt F} (A : Arena ℤ) (i : Nat) (o : Option Nat) :
    Sim (fun b : Option (BoolSegment ℤ) => ∀ s, b = some s → s ∈ A) (Option.map (drawSeg h1)) (Option.map (drawSeg h2)) (borrowBelow (drawArena h1 A) i o) (borrowBelow (drawArena h2 A) i o) := by
  cases o with
  | none => exact Sim.ok (m1 := Option.map (drawSeg h1)) (m2 := Option.map (drawSeg h2)) none (fun s hs => by cases hs)
  | some b =>
    unfold borrowBelow
    refine Sim.ite (fun _ => Sim.panic) fun _ => (sim_at A b).bind fun s hs => ?_
    refine Sim.ok (m1 := Option.map (drawSeg h1)) (m2 := Option.map (drawSeg h2)) (some s) fun s' hs' => ?_
    cases hs'
    exact List.mem_of_getElem? hs

theorem facing_same (D1 : Draws X Y h1) (D2 : Draws X Y h2) (p : SegmentPacket) {b : Option (BoolSegment ℤ)} (hb : ∀ s, b = some s → GridS X Y s) :
    facingPacket p (b.map (drawSeg h1)) = facingPacket p (b.map (drawSeg h2)) := by
  cases b with
  | none => rfl
  | some s =>
    have hv : (drawSeg h1 s).vertical = (drawSeg h2 s).vertical := by
      have := hb s rfl
      exact (D1.vertical this.left this.right).trans (D2.vertical this.left this.right).symm
    simp only [Option.map_some, facingPacket, facingUp]
    rw [hv]
    rfl

theorem sim_face (D1 : Draws X Y h1) (D2 : Draws X Y h2) {A : Arena ℤ} (hA : GridA X Y A) (i : Nat) (o : Option Nat) :
    Sim (fun A' => GridA X Y A' ∧ Keeps A A') (drawArena h1) (drawArena h2) (updatePolygonFacing (drawArena h1 A) i o) (updatePolygonFacing (drawArena h2 A) i o) := by
  unfold updatePolygonFacing
  refine (sim_at A i).bind fun s hs => ?_
  refine (sim_borrow A i o).bind fun b hb => ?_
  rw [facing_same D1 D2 (drawSeg h1 s).data fun s hs => hA s (hb s hs)]
  refine (Sim.refl (facingPacket s.data (b.map (drawSeg h2)))).bind fun p _ => ?_
  exact sim_packet hA i _

theorem sim_after (D1 : Draws X Y h1) (D2 : Draws X Y h2) {st : SweepState ℤ} (hst : GridSt X Y st) (i : Nat) (below above : Option Nat) (m : Nat) :
    Sim (GridSt X Y) (drawState h1) (drawState h2) (updateAfter m (drawState h1 st) i below above) (updateAfter m (drawState h2 st) i below above) := by
  unfold updateAfter
  refine Sim.ite (fun _ => ?_) fun _ => Sim.ok st hst
  refine (sim_face D1 D2 hst i below).bind fun A1 hA1 => ?_
  refine (Sim.refl (unwrap above)).bind fun a _ => ?_
  refine (sim_face D1 D2 hA1.1 a (some i)).bind fun A2 hA2 => ?_
  exact Sim.ok (m1 := drawState h1) (m2 := drawState h2) (⟨A2, st.queue, st.active, st.swept⟩ : SweepState ℤ) hA2.1

/-! ### The loop -/

theorem sim_right (D1 : Draws X Y h1) (D2 : Draws X Y h2) (lib : Lib) (n : Nat) {st : SweepState ℤ} (hst : GridSt X Y st) (i : Nat) :
    Sim (GridSt X Y) (drawState h1) (drawState h2) (sweepRight lib n (drawState h1 st) i) (sweepRight lib n (drawState h2 st) i) := by
  unfold sweepRight
  have e : (drawState h1 st).arena.segCmp = (drawState h2 st).arena.segCmp := segCmp_same D1 D2 hst
  rw [e]
  refine (Sim.refl (SweepLine2.removeAndGetNeighbors lib (drawState h2 st).arena.segCmp i st.active)).bind fun r _ => ?_
  obtain ⟨⟨found, below, above⟩, active⟩ := r
  simp only [id]
  refine Sim.ite (fun _ => ?_) fun _ => Sim.ok (m1 := drawState h1) (m2 := drawState h2) (⟨st.arena, st.queue, active, st.swept⟩ : SweepState ℤ) hst
  have plain : Sim (GridSt X Y) (drawState h1) (drawState h2) (.ok ⟨drawArena h1 st.arena, st.queue, active, st.swept ++ [i]⟩) (.ok ⟨drawArena h2 st.arena, st.queue, active, st.swept ++ [i]⟩) :=
    Sim.ok (m1 := drawState h1) (m2 := drawState h2) (⟨st.arena, st.queue, active, st.swept ++ [i]⟩ : SweepState ℤ) hst
  rcases above with _ | above <;> rcases below with _ | below <;> dsimp only
  · exact plain
  · exact plain
  · exact plain
  · refine (sim_handled D1 D2 hst _ _).bind fun r hr => ?_
    obtain ⟨A, m, o1, o2⟩ := r
    obtain ⟨hA, hk, k1, k2⟩ := hr
    simp only [drawHandled]
    refine (sim_splitIf D1 D2 lib n (st := ⟨A, st.queue, active, st.swept ++ [i]⟩) hA k1).bind fun r1 hr1 => ?_
    refine (sim_splitIf D1 D2 lib n hr1.1 (k2.keeps hr1.2)).bind fun r2 hr2 => ?_
    exact Sim.ok (m1 := drawState h1) (m2 := drawState h2) r2.1 hr2.1

theorem sim_left (D1 : Draws X Y h1) (D2 : Draws X Y h2) (lib : Lib) (n : Nat) {st : SweepState ℤ} (hst : GridSt X Y st) (i : Nat) :
    Sim (GridSt X Y) (drawState h1) (drawState h2) (sweepLeft lib n (drawState h1 st) i) (sweepLeft lib n (drawState h2 st) i) := by
  unfold sweepLeft
  have e : (drawState h1 st).arena.segCmp = (drawState h2 st).arena.segCmp := segCmp_same D1 D2 hst
  rw [e]
  refine (Sim.refl (SweepLine2.insertAndGetNeighbors lib (drawState h2 st).arena.segCmp i st.active)).bind fun r _ => ?_
  obtain ⟨⟨below, above⟩, active⟩ := r
  simp only [id]
  refine (sim_face D1 D2 hst i below).bind fun A hA => ?_
  refine (sim_handled D1 D2 hA.1 _ _).bind fun r hr => ?_
  obtain ⟨A1, m, o1, o2⟩ := r
  obtain ⟨hA1, -, k1, k2⟩ := hr
  simp only [drawHandled]
  refine (sim_splitIf D1 D2 lib n (st := ⟨A1, st.queue, active, st.swept⟩) hA1 k1).bind fun r1 hr1 => ?_
  obtain ⟨st1, i1⟩ := r1
  simp only [drawWith]
  refine (sim_splitIfOpt D1 D2 lib n hr1.1 (k2.keeps hr1.2)).bind fun r2 hr2 => ?_
  obtain ⟨st2, above2⟩ := r2
  simp only [drawWith]
  refine (sim_after D1 D2 hr2.1 i1 below above2 m).bind fun st3 hst3 => ?_
  refine (sim_handled D1 D2 hst3 _ _).bind fun r hr => ?_
  obtain ⟨A4, m', o1', o2'⟩ := r
  obtain ⟨hA4, -, k1', k2'⟩ := hr
  simp only [drawHandled]
  refine (sim_splitIfOpt D1 D2 lib n (st := ⟨A4, st3.queue, st3.active, st3.swept⟩) hA4 k1').bind fun r5 hr5 => ?_
  obtain ⟨st5, below5⟩ := r5
  simp only [drawWith]
  refine (sim_splitIf D1 D2 lib n hr5.1 (k2'.keeps hr5.2)).bind fun r6 hr6 => ?_
  obtain ⟨st6, i6⟩ := r6
  simp only [drawWith]
  refine Sim.ite (fun _ => ?_) fun _ => Sim.ok st6 hr6.1
  refine (Sim.refl (unwrap below5)).bind fun b _ => ?_
  have e : (drawState h1 st6).arena.segCmp = (drawState h2 st6).arena.segCmp := segCmp_same D1 D2 hr6.1
  rw [e]
  refine (Sim.refl (SweepLine2.getPrevious lib (drawState h2 st6).arena.segCmp b st6.active)).bind fun prev _ => ?_
  refine (sim_face D1 D2 hr6.1 b prev).bind fun A7 hA7 => ?_
  refine (sim_face D1 D2 hA7.1 i6 below5).bind fun A8 hA8 => ?_
  exact Sim.ok (m1 := drawState h1) (m2 := drawState h2) (⟨A8, st6.queue, st6.active, st6.swept⟩ : SweepState ℤ) hA8.1

theorem sim_loop (D1 : Draws X Y h1) (D2 : Draws X Y h2) (lib : Lib) (n : Nat) : ∀ (fuel : Nat) {st : SweepState ℤ}, GridSt X Y st →
    Sim (GridSt X Y) (drawState h1) (drawState h2) (sweepLoop lib n fuel (drawState h1 st)) (sweepLoop lib n fuel (drawState h2 st))
  | 0, st, _ => fun y hy => by cases hy
  | fuel + 1, st, hst => by
    unfold sweepLoop
    have e : (drawState h1 st).arena.endCmp = (drawState h2 st).arena.endCmp := endCmp_same D1 D2 hst
    rw [e]
    refine (Sim.refl (lib.heapPop (drawState h2 st).arena.endCmp st.queue)).bind fun r _ => ?_
    rcases r with _ | ⟨⟨i, d⟩, queue⟩
    · exact Sim.ok st hst
    · simp only [id]
      have : GridSt X Y ⟨st.arena, queue, st.active, st.swept⟩ := hst
      refine Sim.bind (P := GridSt X Y) (m1 := drawState h1) (m2 := drawState h2) ?_ fun st' hst' => sim_loop D1 D2 lib n fuel hst'
      cases d
      · exact sim_left D1 D2 lib n this i
      · exact sim_right D1 D2 lib n this i

end

end Idc
