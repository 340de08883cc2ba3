import Verif.Props.GridSweep
/-!
# Tracing on a grid drawn in two ways, for C92
-/

namespace Idc

open FloatOps

section

variable {E F : Type} [FloatOps E] [FloatOps F] {h1 : Pt ℤ → Pt E} {h2 : Pt ℤ → Pt F} {X Y : Set ℤ}

theorem GridS.pointAt {T : Type} {s : SweepSegment ℤ T} (h : GridS X Y s) (e : SegmentEnd) : OnGrid X Y (s.pointAt e) := by
  cases e
  · exact h.left
  · exact h.right

theorem GridS.otherPointAt {T : Type} {s : SweepSegment ℤ T} (h : GridS X Y s) (e : SegmentEnd) : OnGrid X Y (s.otherPointAt e) := by
  cases e
  · exact h.right
  · exact h.left

theorem include_same {E F : Type} {h1 : Pt ℤ → Pt E} {h2 : Pt ℤ → Pt F} (modes : List PolygonMode) (A : Arena ℤ) : ∀ (l segs : List Nat) (ends : List (Nat × SegmentEnd)),
    includeSegments modes (drawArena h1 A) l segs ends = includeSegments modes (drawArena h2 A) l segs ends
  | [], _, _ => rfl
  | i :: l, segs, ends => by
    unfold includeSegments
    cases h : A[i]? with
    | none => rw [at_none h, at_none h]; rfl
    | some s =>
      rw [at_some h, at_some h]
      simp only [Res.bind_ok, include_same (h1 := h1) (h2 := h2) modes A l]
      rfl

theorem sim_record : ∀ (l : List (Nat × SegmentEnd)) (i : Nat) {A : Arena ℤ}, GridA X Y A →
    Sim (GridA X Y) (drawArena h1) (drawArena h2) (recordIndices i l (drawArena h1 A)) (recordIndices i l (drawArena h2 A))
  | [], _, A, hA => Sim.ok A hA
  | (j, e) :: l, i, A, hA => by
    unfold recordIndices
    refine (sim_at A j).bind fun s _ => ?_
    exact (sim_packet hA j _).bind fun A' hA' => sim_record l (i + 1) hA'.1

theorem first_same (D1 : Draws X Y h1) (D2 : Draws X Y h2) {A : Arena ℤ} (hA : GridA X Y A) {p : Pt ℤ} (hp : OnGrid X Y p) : ∀ (l : List (Nat × SegmentEnd)) (i : Nat),
    firstAt (drawArena h1 A) (h1 p) i l = firstAt (drawArena h2 A) (h2 p) i l
  | [], _ => rfl
  | (j, e) :: l, i => by
    unfold firstAt
    cases h : A[j]? with
    | none => rw [at_none h, at_none h]; rfl
    | some s =>
      have hs := (hA s (List.mem_of_getElem? h)).pointAt e
      rw [at_some h, at_some h]
      simp only [Res.bind_ok, drawSeg_pointAt, D1.beq hs hp, D2.beq hs hp, first_same D1 D2 hA hp l]

/-- The state of the search: nothing found yet, or the endpoint at position `pos`, which leads from `b` to `a`. -/
def nextDraw {F : Type} [FloatOps F] (h : Pt ℤ → Pt F) (p q : Pt ℤ) : Option (Nat × Pt ℤ × Pt ℤ) → NextState F
  | none => ⟨nan, none, false⟩
  | some (pos, a, b) => ⟨cosAt h p q a b, some pos, lt (ofInt 0) (((h p).sub (h q)).cross ((h a).sub (h b)))⟩

theorem draw_first {F : Type} [FloatOps F] (h : Pt ℤ → Pt F) (p q a b : Pt ℤ) (pos : Nat) :
    considerNext ((h p).sub (h q)) ((h a).sub (h b)) pos (nextDraw h p q none) = nextDraw h p q (some (pos, a, b)) := by
  unfold considerNext nextDraw cosAt
  dsimp only
  cases lt (ofInt 0) (((h p).sub (h q)).cross ((h a).sub (h b))) <;> rfl

/-- Which of two candidates is taken. -/
def pickNext (p q : Pt ℤ) (pos : Nat) (a b : Pt ℤ) (pos' : Nat) (a' b' : Pt ℤ) : Option (Nat × Pt ℤ × Pt ℤ) :=
  if 0 < zTurn p q a b ∧ ¬ 0 < zTurn p q a' b' then some (pos, a, b)
  else if ¬ 0 < zTurn p q a b ∧ 0 < zTurn p q a' b' then some (pos', a', b')
  else if (0 < zTurn p q a b ∧ (ptDot p q a b).sign < (ptDot p q a' b').sign) ∨ (¬ 0 < zTurn p q a b ∧ (ptDot p q a' b').sign < (ptDot p q a b).sign) then some (pos, a, b)
  else some (pos', a', b')

theorem pickNext_or (p q : Pt ℤ) (pos : Nat) (a b : Pt ℤ) (pos' : Nat) (a' b' : Pt ℤ) :
    pickNext p q pos a b pos' a' b' = some (pos, a, b) ∨ pickNext p q pos a b pos' a' b' = some (pos', a', b') := by
  unfold pickNext
  split_ifs <;> simp

theorem consider_next {F : Type} [FloatOps F] {h : Pt ℤ → Pt F} (D : Draws X Y h) {c s u : BoolSegment ℤ} (hc : GridS X Y c) (hs : GridS X Y s) (hu : GridS X Y u) (d e e' : SegmentEnd) (pos pos' : Nat) :
    considerNext ((h (c.otherPointAt d)).sub (h (c.pointAt d))) ((h (s.otherPointAt e)).sub (h (s.pointAt e))) pos
        (nextDraw h (c.otherPointAt d) (c.pointAt d) (some (pos', u.otherPointAt e', u.pointAt e'))) =
      nextDraw h (c.otherPointAt d) (c.pointAt d) (pickNext (c.otherPointAt d) (c.pointAt d) pos (s.otherPointAt e) (s.pointAt e) pos' (u.otherPointAt e') (u.pointAt e')) := by
  have t1 := D.turn hc hs d e
  have t2 := D.turn hc hu d e'
  have c1 := D.cos hc hs hu d e e'
  have c2 := D.cos hc hu hs d e' e
  unfold considerNext pickNext
  generalize c.otherPointAt d = p at *
  generalize c.pointAt d = q at *
  generalize s.otherPointAt e = a at *
  generalize s.pointAt e = b at *
  generalize u.otherPointAt e' = a' at *
  generalize u.pointAt e' = b' at *
  have e1 : nextDraw h p q (some (pos', a', b')) = ⟨cosAt h p q a' b', some pos', decide (0 < zTurn p q a' b')⟩ := by simp only [nextDraw, t2]
  have e2 : nextDraw h p q (some (pos, a, b)) = ⟨cosAt h p q a b, some pos, decide (0 < zTurn p q a b)⟩ := by simp only [nextDraw, t1]
  rw [apply_ite (nextDraw h p q), apply_ite (nextDraw h p q), apply_ite (nextDraw h p q), e1, e2]
  dsimp only
  rw [t1, show div (((h p).sub (h q)).dot ((h a).sub (h b))) ((h a).sub (h b)).length = cosAt h p q a b from rfl, c1, c2]
  by_cases x : 0 < zTurn p q a b <;> by_cases y : 0 < zTurn p q a' b' <;> simp [x, y]

theorem sim_search (D1 : Draws X Y h1) (D2 : Draws X Y h2) {A : Arena ℤ} (hA : GridA X Y A) (cur : Nat) {i : Nat} {d : SegmentEnd} {c : BoolSegment ℤ} (hc : A[i]? = some c) :
    ∀ (l : List (Nat × SegmentEnd)) (pos : Nat) (w : Option (Nat × Pt ℤ × Pt ℤ)),
      (∀ pos a b, w = some (pos, a, b) → ∃ (u : BoolSegment ℤ) (e : SegmentEnd), GridS X Y u ∧ a = u.otherPointAt e ∧ b = u.pointAt e) →
      Sim (fun _ => True) (nextDraw h1 (c.otherPointAt d) (c.pointAt d)) (nextDraw h2 (c.otherPointAt d) (c.pointAt d))
        (searchNext (drawArena h1 A) cur (i, d) ((h1 (c.otherPointAt d)).sub (h1 (c.pointAt d))) (h1 (c.otherPointAt d)) pos l (nextDraw h1 (c.otherPointAt d) (c.pointAt d) w))
        (searchNext (drawArena h2 A) cur (i, d) ((h2 (c.otherPointAt d)).sub (h2 (c.pointAt d))) (h2 (c.otherPointAt d)) pos l (nextDraw h2 (c.otherPointAt d) (c.pointAt d) w))
  | [], pos, w, _ => Sim.ok w trivial
  | (j, e) :: l, pos, w, hw => by
    unfold searchNext
    cases h : A[j]? with
    | none => rw [at_none h, at_none h]; exact Sim.panic
    | some s =>
      have hs := hA s (List.mem_of_getElem? h)
      have hcs := hA c (List.mem_of_getElem? hc)
      rw [at_some h, at_some h]
      dsimp only
      rw [at_some hc, at_some hc]
      simp only [Res.bind_ok]
      have hd : ∀ (K : Type) (h : Pt ℤ → Pt K), (drawSeg h s).data = s.data := fun K _ => rfl
      rw [hd E, hd F]
      refine Sim.ite (fun _ => sim_search D1 D2 hA cur hc l (pos + 1) w hw) fun _ => ?_
      have ho : endpointOrder (pos = cur) (drawSeg h1 s) e (drawSeg h1 c) d = endpointOrder (pos = cur) (drawSeg h2 s) e (drawSeg h2 c) d := by
        unfold endpointOrder
        rw [D1.ends hs hcs, D2.ends hs hcs]
      rw [ho]
      refine (Sim.refl _).bind fun o _ => ?_
      refine Sim.ite (fun _ => sim_search D1 D2 hA cur hc l (pos + 1) w hw) fun _ => ?_
      rw [D1.segs hs hcs, D2.segs hs hcs]
      simp only [Res.bind_ok]
      refine Sim.ite (fun _ => sim_search D1 D2 hA cur hc l (pos + 1) w hw) fun hne => ?_
      simp only [drawSeg_pointAt, drawSeg_otherPointAt]
      rw [D1.beq (hcs.otherPointAt d) (hs.pointAt e), D2.beq (hcs.otherPointAt d) (hs.pointAt e)]
      refine Sim.ite (fun heq => ?_) fun _ => Sim.ok w trivial
      rcases w with _ | ⟨pos', a, b⟩
      · rw [draw_first, draw_first]
        exact sim_search D1 D2 hA cur hc l (pos + 1) _ (by
          rintro _ _ _ ⟨⟩
          exact ⟨s, e, hs, rfl, rfl⟩)
      · obtain ⟨u, e', hu, rfl, rfl⟩ := hw _ _ _ rfl
        rw [consider_next D1 hcs hs hu, consider_next D2 hcs hs hu]
        exact sim_search D1 D2 hA cur hc l (pos + 1) _ (by
          rcases pickNext_or (c.otherPointAt d) (c.pointAt d) pos (s.otherPointAt e) (s.pointAt e) pos' (u.otherPointAt e') (u.pointAt e') with hp | hp
          · rw [hp]
            rintro _ _ _ ⟨⟩
            exact ⟨s, e, hs, rfl, rfl⟩
          · rw [hp]
            exact hw)

theorem sim_find (D1 : Draws X Y h1) (D2 : Draws X Y h2) {A : Arena ℤ} (hA : GridA X Y A) (included : List (Nat × SegmentEnd)) (cur : Nat) :
    Sim (fun _ => True) id id (findNextSegment (drawArena h1 A) included cur) (findNextSegment (drawArena h2 A) included cur) := by
  unfold findNextSegment
  refine (Sim.refl (index included cur)).bind fun x _ => ?_
  obtain ⟨i, d⟩ := x
  refine (sim_at A i).bind fun c hc => ?_
  have hcs := hA c (List.mem_of_getElem? hc)
  simp only [drawSeg_pointAt, drawSeg_otherPointAt, id]
  rw [first_same D1 D2 hA (hcs.otherPointAt d)]
  refine (Sim.refl _).bind fun start _ => ?_
  refine (sim_search D1 D2 hA cur hc (included.drop start) start none (by simp)).bind fun w _ => ?_
  rcases w with _ | ⟨pos, a, b⟩
  · exact Sim.panic
  · exact Sim.ok (m1 := id) (m2 := id) pos trivial

/-- What is traced: the segments and a contour. -/
def drawWalk {F : Type} (h : Pt ℤ → Pt F) (r : Arena ℤ × Contour ℤ × Nat) : Arena F × Contour F × Nat := (drawArena h r.1, drawContour h r.2.1, r.2.2)

theorem sim_walk (D1 : Draws X Y h1) (D2 : Draws X Y h2) (included : List (Nat × SegmentEnd)) (id' : Nat) {p : Pt ℤ} (hp : OnGrid X Y p) : ∀ (fuel : Nat) {A : Arena ℤ} {c : Contour ℤ} (cur : Nat),
    GridA X Y A → c.is_clockwise = none →
    Sim (fun r => GridA X Y r.1 ∧ r.2.1.is_clockwise = none) (drawWalk h1) (drawWalk h2)
      (traceContour included id' (h1 p) fuel (drawArena h1 A) (drawContour h1 c) cur) (traceContour included id' (h2 p) fuel (drawArena h2 A) (drawContour h2 c) cur)
  | 0, A, c, cur, _, _ => fun y hy => by cases hy
  | fuel + 1, A, c, cur, hA, hn => by
    unfold traceContour
    refine (Sim.refl (index included cur)).bind fun x _ => ?_
    obtain ⟨i, d⟩ := x
    simp only [id]
    refine (sim_at A i).bind fun s hs => ?_
    have hss := hA s (List.mem_of_getElem? hs)
    have hd : ∀ (K : Type) (h : Pt ℤ → Pt K), (drawSeg h s).data = s.data := fun K _ => rfl
    have hf : ∀ (K : Type) (h : Pt ℤ → Pt K), (drawContour h c).from_polygons = c.from_polygons := fun K _ => rfl
    rw [hd E, hd F, hf E, hf F]
    refine (Sim.refl _).bind fun flags _ => ?_
    refine (sim_packet hA i _).bind fun A' hA' => ?_
    simp only [drawSeg_otherPointAt, id]
    rw [D1.beq (hss.otherPointAt d) hp, D2.beq (hss.otherPointAt d) hp]
    refine Sim.ite (fun _ => Sim.ok (m1 := drawWalk h1) (m2 := drawWalk h2) (A', { c with from_polygons := flags }, cur) ⟨hA'.1, hn⟩) fun _ => ?_
    refine (sim_find D1 D2 hA'.1 included cur).bind fun next _ => ?_
    have e : ∀ (K : Type) (h : Pt ℤ → Pt K), Contour.add { drawContour h c with from_polygons := flags } (h (s.otherPointAt d)) =
        drawContour h (⟨c.points ++ [s.otherPointAt d], c.holes, flags, c.neighbors, c.external, c.is_clockwise⟩) := fun K _ => by
      simp [Contour.add, drawContour]
    rw [e E, e F]
    exact sim_walk D1 D2 included id' hp fuel next hA'.1 hn

/-! ### The area -/

/-- The area has the same sign in both drawings. -/
def AreaSame (h1 : Pt ℤ → Pt E) (h2 : Pt ℤ → Pt F) (pts : List (Pt ℤ)) : Prop :=
  ∀ a, areaOf (pts.map h1) = .ok a → ∃ b, areaOf (pts.map h2) = .ok b ∧ lt a (ofInt 0) = lt b (ofInt 0)

theorem sim_orient {c : Contour ℤ} (hc : AreaSame h1 h2 c.points) (hn : c.is_clockwise = none) :
    Sim (fun r : Bool × Contour ℤ => r.2.points = c.points) (fun r => (r.1, drawContour h1 r.2)) (fun r => (r.1, drawContour h2 r.2)) (drawContour h1 c).clockwise (drawContour h2 c).clockwise := by
  have hk : ∀ (K : Type) (h : Pt ℤ → Pt K), (drawContour h c).is_clockwise = none := fun K _ => hn
  unfold Contour.clockwise
  rw [hk E, hk F]
  dsimp only
  intro y hy
  obtain ⟨a, ha, hy⟩ := Res.bind_eq_ok hy
  obtain ⟨b, hb, e⟩ := hc a ha
  cases hy
  refine ⟨(lt a (ofInt 0), { c with is_clockwise := some (lt a (ofInt 0)) }), rfl, rfl, ?_⟩
  rw [show areaOf (drawContour h2 c).points = .ok b from hb, Res.bind_ok, ← e]
  rfl

theorem sim_mod {E F : Type} {h1 : Pt ℤ → Pt E} {h2 : Pt ℤ → Pt F} {f1 : Contour E → Res (Contour E)} {f2 : Contour F → Res (Contour F)} (cs : List (Contour ℤ)) (i : Nat)
    (h : ∀ c : Contour ℤ, Sim (fun c' : Contour ℤ => c'.points = c.points) (drawContour h1) (drawContour h2) (f1 (drawContour h1 c)) (f2 (drawContour h2 c))) :
    Sim (fun cs' : List (Contour ℤ) => cs'.map (·.points) = cs.map (·.points)) (List.map (drawContour h1)) (List.map (drawContour h2))
      (modifyContour (cs.map (drawContour h1)) i f1) (modifyContour (cs.map (drawContour h2)) i f2) := by
  unfold modifyContour
  rw [index_lf, index_lf]
  cases hc : cs[i]? with
  | none => exact Sim.panic
  | some c =>
    simp only [Res.bind_ok]
    refine (h c).bind fun c' hc' => ?_
    have e : ∀ (K : Type) (h : Pt ℤ → Pt K), (cs.map (drawContour h)).set i (drawContour h c') = (cs.set i c').map (drawContour h) := fun K _ => by rw [List.map_set]
    rw [e E, e F]
    refine Sim.ok (m1 := List.map (drawContour h1)) (m2 := List.map (drawContour h2)) (cs.set i c') ?_
    show (cs.set i c').map (·.points) = _
    rw [List.map_set, hc']
    exact map_set_again _ hc

/-- The segments and the contours. -/
def drawTraced {F : Type} (h : Pt ℤ → Pt F) (r : Arena ℤ × List (Contour ℤ)) : Arena F × List (Contour F) := (drawArena h r.1, r.2.map (drawContour h))

/-- Changes that leave the points alone. -/
theorem mod_points {E : Type} {l l' : List (Contour E)} {i : Nat} {f : Contour E → Contour E} (hf : ∀ c, (f c).points = c.points) (hm : modifyContour l i (fun c => .ok (f c)) = .ok l') :
    l'.map (·.points) = l.map (·.points) := by
  unfold modifyContour at hm
  obtain ⟨c0, h0, hm⟩ := Res.bind_eq_ok hm
  rw [Res.bind_ok] at hm
  cases hm
  rw [List.map_set, hf]
  exact map_set_again _ (index_eq_ok h0)

theorem sim_step (D1 : Draws X Y h1) (D2 : Draws X Y h2) (fuel : Nat) (included : List (Nat × SegmentEnd)) {A : Arena ℤ} (hA : GridA X Y A) (cs : List (Contour ℤ)) (x : Nat × SegmentEnd)
    (hb : ∀ y, traceStep fuel included (drawArena h1 A) (cs.map (drawContour h1)) x = .ok y → ∀ pts : List (Pt ℤ), pts.map h1 ∈ y.2.map (·.points) → AreaSame h1 h2 pts) :
    Sim (fun r => GridA X Y r.1) (drawTraced h1) (drawTraced h2)
      (traceStep fuel included (drawArena h1 A) (cs.map (drawContour h1)) x) (traceStep fuel included (drawArena h2 A) (cs.map (drawContour h2)) x) := by
  revert hb
  unfold traceStep
  intro hb y hy
  have hb := hb y hy
  revert hb
  revert y
  cases h : A[x.1]? with
  | none =>
    intro y hy
    rw [at_none h] at hy
    cases hy
  | some s =>
    have hs := hA s (List.mem_of_getElem? h)
    rw [at_some h, at_some h]
    simp only [Res.bind_ok]
    have hd : ∀ (K : Type) (h : Pt ℤ → Pt K), (drawSeg h s).data = s.data := fun K _ => rfl
    have hl : ∀ (K : Type) (h : Pt ℤ → Pt K), (drawSeg h s).left_point = h s.left_point := fun K _ => rfl
    have hcl : ∀ (K : Type) (h : Pt ℤ → Pt K), (cs.map (drawContour h)).length = cs.length := fun K _ => List.length_map ..
    rw [hd E, hd F, hl E, hl F, hcl E, hcl F]
    by_cases hp : s.data.isProcessed x.2 = true
    · rw [if_pos hp, if_pos hp]
      intro y hy _
      exact Sim.ok (m1 := drawTraced h1) (m2 := drawTraced h2) (P := fun r => GridA X Y r.1) (A, cs) hA y hy
    · rw [if_neg hp, if_neg hp]
      have e0 : ∀ (K : Type) [FloatOps K] (h : Pt ℤ → Pt K), Contour.add { (Contour.new : Contour K) with from_polygons := s.data.faces x.2 } (h s.left_point) =
          drawContour h ⟨[s.left_point], [], s.data.faces x.2, [], true, none⟩ := fun K _ _ => rfl
      rw [e0 E, e0 F]
      intro y hy hb
      obtain ⟨r, hr, hy⟩ := Res.bind_eq_ok hy
      obtain ⟨⟨A1, c, last⟩, ⟨hA1, hn⟩, rfl, hr2⟩ := sim_walk D1 D2 included cs.length hs.left fuel s.data.left_index hA
        (c := ⟨[s.left_point], [], s.data.faces x.2, [], true, none⟩) rfl r hr
      rw [hr2, Res.bind_ok]
      simp only [drawWalk] at hy ⊢
      obtain ⟨⟨cw, c1⟩, hcw, hy⟩ := Res.bind_eq_ok hy
      have hpts : c1.points = (drawContour h1 c).points := by
        revert hcw
        unfold Contour.clockwise
        rw [show (drawContour h1 c).is_clockwise = none from hn]
        dsimp only
        intro hcw
        obtain ⟨a, _, hcw⟩ := Res.bind_eq_ok hcw
        cases hcw
        rfl
      -- its points are in the result
      have harea : AreaSame h1 h2 c.points := by
        have hin : c1.points ∈ y.2.map (·.points) := by
          have base : c1.points ∈ (List.map (drawContour h1) cs ++ [c1]).map (·.points) := by simp
          dsimp only at hy
          by_cases hcw' : cw = true
          · rw [if_pos hcw'] at hy
            obtain ⟨z, _, hy⟩ := Res.bind_eq_ok hy
            obtain ⟨s', _, hy⟩ := Res.bind_eq_ok hy
            cases hbr : s'.data.below_in_result with
            | none =>
              rw [hbr] at hy
              cases hy
              exact base
            | some b =>
              rw [hbr] at hy
              obtain ⟨below, _, hy⟩ := Res.bind_eq_ok hy
              obtain ⟨parent, _, hy⟩ := Res.bind_eq_ok hy
              obtain ⟨l1, g1, hy⟩ := Res.bind_eq_ok hy
              obtain ⟨l2, g2, hy⟩ := Res.bind_eq_ok hy
              cases hy
              dsimp only
              rw [mod_points (f := fun c => c.setExternal false) (fun _ => rfl) g2, mod_points (f := fun c => c.addHole cs.length) (fun _ => rfl) g1]
              exact base
          · rw [if_neg hcw'] at hy
            cases hy
            exact base
        rw [hpts] at hin
        exact hb c.points hin
      obtain ⟨⟨cw', c2⟩, hc2, e2, hcw2⟩ := sim_orient harea hn _ hcw
      simp only [Prod.mk.injEq] at e2
      obtain ⟨rfl, rfl⟩ := e2
      rw [hcw2, Res.bind_ok]
      dsimp only at hy ⊢
      have e1 : ∀ (K : Type) (h : Pt ℤ → Pt K), cs.map (drawContour h) ++ [drawContour h c2] = (cs ++ [c2]).map (drawContour h) := fun K _ => by simp
      rw [e1 E] at hy
      rw [e1 F]
      suffices hsim : Sim (fun r => GridA X Y r.1) (drawTraced h1) (drawTraced h2) _ _ from hsim y hy
      refine Sim.ite (fun _ => ?_) (fun _ => ?_)
      · refine (Sim.refl (index included last)).bind fun z _ => ?_
        refine (sim_at A1 z.1).bind fun s' _ => ?_
        rw [show (drawSeg h1 s').data = s'.data from rfl, show (drawSeg h2 s').data = s'.data from rfl]
        cases s'.data.below_in_result with
        | none => exact Sim.ok (m1 := drawTraced h1) (m2 := drawTraced h2) (A1, cs ++ [c2]) hA1
        | some b =>
          dsimp only
          refine (sim_at A1 b).bind fun below _ => ?_
          rw [show (drawSeg h1 below).data = below.data from rfl, show (drawSeg h2 below).data = below.data from rfl]
          refine (Sim.refl (unwrap below.data.left_contour_id)).bind fun parent _ => ?_
          refine (sim_mod (h1 := h1) (h2 := h2) (f1 := fun c => .ok (c.addHole cs.length)) (f2 := fun c => .ok (c.addHole cs.length)) (cs ++ [c2]) parent fun c0 =>
            Sim.ok (m1 := drawContour h1) (m2 := drawContour h2) (P := fun c' : Contour ℤ => c'.points = c0.points) (c0.addHole cs.length) rfl).bind fun l1 _ => ?_
          refine (sim_mod (h1 := h1) (h2 := h2) (f1 := fun c => .ok (c.setExternal false)) (f2 := fun c => .ok (c.setExternal false)) l1 cs.length fun c0 =>
            Sim.ok (m1 := drawContour h1) (m2 := drawContour h2) (P := fun c' : Contour ℤ => c'.points = c0.points) (c0.setExternal false) rfl).bind fun l2 _ => ?_
          exact Sim.ok (m1 := drawTraced h1) (m2 := drawTraced h2) (A1, l2) hA1
      · exact Sim.ok (m1 := drawTraced h1) (m2 := drawTraced h2) (A1, cs ++ [c2]) hA1

theorem sim_all (D1 : Draws X Y h1) (D2 : Draws X Y h2) (fuel : Nat) (included : List (Nat × SegmentEnd)) : ∀ (l : List (Nat × SegmentEnd)) {A : Arena ℤ}, GridA X Y A → ∀ cs : List (Contour ℤ),
    (∀ y, traceAll fuel included l (drawArena h1 A) (cs.map (drawContour h1)) = .ok y → ∀ pts : List (Pt ℤ), pts.map h1 ∈ y.2.map (·.points) → AreaSame h1 h2 pts) →
    Sim (fun r => GridA X Y r.1) (drawTraced h1) (drawTraced h2) (traceAll fuel included l (drawArena h1 A) (cs.map (drawContour h1))) (traceAll fuel included l (drawArena h2 A) (cs.map (drawContour h2)))
  | [], A, hA, cs, _ => Sim.ok (m1 := drawTraced h1) (m2 := drawTraced h2) (A, cs) hA
  | x :: l, A, hA, cs, hb => by
    intro y hy
    have hb := hb y hy
    unfold traceAll at hy ⊢
    obtain ⟨y1, g1, hy⟩ := Res.bind_eq_ok hy
    have hb1 : ∀ z, traceStep fuel included (drawArena h1 A) (cs.map (drawContour h1)) x = .ok z → ∀ pts : List (Pt ℤ), pts.map h1 ∈ z.2.map (·.points) → AreaSame h1 h2 pts := by
      intro z hz pts hpts
      rw [g1] at hz
      cases hz
      exact hb pts ((traceAll_points l (cs := y1.2) (cs' := y.2) (A := y1.1) (A' := y.1) hy).subset hpts)
    obtain ⟨⟨A1, cs1⟩, hA1, rfl, g2⟩ := sim_step D1 D2 fuel included hA cs x hb1 y1 g1
    rw [g2, Res.bind_ok]
    exact sim_all D1 D2 fuel included l hA1 cs1 (fun z hz => by
      have hz' : traceAll fuel included l (drawArena h1 A1) (cs1.map (drawContour h1)) = .ok y := hy
      rw [hz'] at hz
      cases hz
      exact hb) y hy

theorem sim_neighbor {E F : Type} {h1 : Pt ℤ → Pt E} {h2 : Pt ℤ → Pt F} (cs : List (Contour ℤ)) (i j : Nat) :
    Sim (fun _ => True) (List.map (drawContour h1)) (List.map (drawContour h2)) (setNeighbor (cs.map (drawContour h1)) i j) (setNeighbor (cs.map (drawContour h2)) i j) := by
  unfold setNeighbor
  refine (sim_mod cs i fun c => ?_).mono fun _ _ => trivial
  refine (Sim.refl (bvSet c.neighbors j true)).bind fun n _ => ?_
  exact Sim.ok (m1 := drawContour h1) (m2 := drawContour h2) { c with neighbors := n } rfl

theorem sim_neighbors {E F : Type} {h1 : Pt ℤ → Pt E} {h2 : Pt ℤ → Pt F} (A : Arena ℤ) : ∀ (l : List (Nat × SegmentEnd)) (cs : List (Contour ℤ)),
    Sim (fun _ => True) (List.map (drawContour h1)) (List.map (drawContour h2)) (assignNeighbors (drawArena h1 A) l (cs.map (drawContour h1))) (assignNeighbors (drawArena h2 A) l (cs.map (drawContour h2)))
  | [], cs => Sim.ok (m1 := List.map (drawContour h1)) (m2 := List.map (drawContour h2)) cs trivial
  | (i, e) :: l, cs => by
    unfold assignNeighbors
    refine (sim_at A i).bind fun s _ => ?_
    rw [show (drawSeg h1 s).data = s.data from rfl, show (drawSeg h2 s).data = s.data from rfl]
    cases s.data.right_contour_id with
    | none => exact sim_neighbors A l cs
    | some r =>
      cases s.data.left_contour_id with
      | none => exact sim_neighbors A l cs
      | some k =>
        dsimp only
        refine (sim_neighbor cs k r).bind fun cs1 _ => ?_
        refine (sim_neighbor cs1 r k).bind fun cs2 _ => ?_
        exact sim_neighbors A l cs2

/-- **The whole of `compute`**, on a grid drawn in two ways. -/
theorem sim_draw (D1 : Draws X Y h1) (D2 : Draws X Y h2) (lib : Lib) (fuel : Nat) (polys : List (Polygon ℤ × PolygonMode)) (op : BooleanOpType) (hs : ∀ p ∈ polys, ∀ c ∈ p.1.contours, GridC X Y c)
    (hb : ∀ r, compute lib fuel (polys.map fun p => (drawPolygon h1 p.1, p.2)) op = .ok r → ∀ pts : List (Pt ℤ), pts.map h1 ∈ r.contours.map (·.points) → AreaSame h1 h2 pts) :
    Sim (fun _ => True) (drawPolygon h1) (drawPolygon h2) (compute lib fuel (polys.map fun p => (drawPolygon h1 p.1, p.2)) op) (compute lib fuel (polys.map fun p => (drawPolygon h2 p.1, p.2)) op) := by
  intro y hy
  have hb := hb y hy
  unfold compute at hy ⊢
  dsimp only at hy ⊢
  have el : ∀ (K : Type) (h : Pt ℤ → Pt K), (polys.map fun p => (drawPolygon h p.1, p.2)).length = polys.length := fun K _ => List.length_map ..
  have em : ∀ (K : Type) (h : Pt ℤ → Pt K), ((polys.map fun p => (drawPolygon h p.1, p.2)).map fun p => p.2) = polys.map fun p => p.2 := fun K _ => by simp [Function.comp_def]
  rw [el E, em E] at hy
  rw [el F, em F]
  obtain ⟨y1, g1, hy⟩ := Res.bind_eq_ok hy
  have s0 : GridSt X Y (⟨[], [], [], []⟩ : SweepState ℤ) := fun s hs => by cases hs
  obtain ⟨st, hst, rfl, g1'⟩ := sim_addPolygons D1 D2 lib polys.length polys 0 ⟨[], [], [], []⟩ hs s0 y1 g1
  rw [show (⟨[], [], [], []⟩ : SweepState F) = drawState h2 ⟨[], [], [], []⟩ from rfl, g1', Res.bind_ok]
  obtain ⟨y2, g2, hy⟩ := Res.bind_eq_ok hy
  obtain ⟨st2, hst2, rfl, g2'⟩ := sim_loop D1 D2 lib polys.length fuel hst y2 g2
  rw [g2', Res.bind_ok]
  obtain ⟨⟨segs, ends⟩, g3, hy⟩ := Res.bind_eq_ok hy
  have g3' : includeSegments (polys.map fun p => p.2) (drawArena h2 st2.arena) st2.swept [] [] = .ok (segs, ends) :=
    (include_same (h1 := h1) (h2 := h2) _ _ _ _ _).symm.trans g3
  rw [show includeSegments (polys.map fun p => p.2) (drawState h2 st2).arena (drawState h2 st2).swept [] [] = .ok (segs, ends) from g3', Res.bind_ok]
  obtain ⟨sorted, g4, hy⟩ := Res.bind_eq_ok hy
  have c1 : (drawState h1 st2).arena.segCmp = (drawState h2 st2).arena.segCmp := segCmp_same D1 D2 hst2
  have c2 : (drawState h1 st2).arena.endCmp = (drawState h2 st2).arena.endCmp := endCmp_same D1 D2 hst2
  rw [c1] at g4
  dsimp only at g4 hy ⊢
  rw [g4, Res.bind_ok]
  obtain ⟨included, g5, hy⟩ := Res.bind_eq_ok hy
  rw [c2] at g5
  rw [g5, Res.bind_ok]
  obtain ⟨y6, g6, hy⟩ := Res.bind_eq_ok hy
  obtain ⟨A, hA, rfl, g6'⟩ := sim_record (h1 := h1) (h2 := h2) included 0 hst2 y6 g6
  rw [show recordIndices 0 included (drawState h2 st2).arena = .ok (drawArena h2 A) from g6', Res.bind_ok]
  obtain ⟨y7, g7, hy⟩ := Res.bind_eq_ok hy
  obtain ⟨cs, g8, hy⟩ := Res.bind_eq_ok hy
  cases hy
  have hb7 : ∀ pts : List (Pt ℤ), pts.map h1 ∈ y7.2.map (·.points) → AreaSame h1 h2 pts := by
    intro pts hpts
    apply hb
    show _ ∈ cs.map (·.points)
    rw [assignNeighbors_points _ g8, List.map_map]
    exact hpts
  obtain ⟨⟨A2, cs2⟩, hA2, rfl, g7'⟩ := sim_all D1 D2 fuel included included hA [] (fun z hz => by
    rw [show traceAll fuel included included (drawArena h1 A) (List.map (drawContour h1) []) = .ok y7 from g7] at hz
    cases hz
    exact hb7) y7 g7
  rw [show traceAll fuel included included (drawArena h2 A) [] = .ok (drawTraced h2 (A2, cs2)) from g7', Res.bind_ok]
  simp only [drawTraced] at g8 ⊢
  have eg : ∀ (K : Type) (h : Pt ℤ → Pt K), ((cs2.map (drawContour h)).map fun c => { c with neighbors := bvGrow c.neighbors (cs2.map (drawContour h)).length false }) =
      (cs2.map fun c => { c with neighbors := bvGrow c.neighbors cs2.length false }).map (drawContour h) := fun K _ => by
    rw [List.map_map, List.map_map, List.length_map]
    rfl
  rw [eg E] at g8
  rw [eg F]
  obtain ⟨cs3, _, rfl, g8'⟩ := sim_neighbors (h1 := h1) (h2 := h2) A2 included _ cs g8
  rw [g8', Res.bind_ok]
  exact ⟨⟨cs3⟩, trivial, rfl, rfl⟩

end

end Idc
