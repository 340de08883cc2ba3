import Verif.Props.DoubleIntersect
import Verif.Props.Shape
import Verif.Spec.Sharp
/-!
# Two arithmetics side by side: `compute` on whole numbers, for C80

The same code run with two arithmetics `E` and `F` on the same whole numbers: if the run with `E` succeeds, the run with
`F` gives the same result.
-/

namespace Idc

open FloatOps

variable {T : Type}

section

variable (F : Type) [FloatOps F]

/-- A segment. -/
def asSeg (s : SweepSegment ℤ T) : SweepSegment F T where
  left_point := asPt F s.left_point
  right_point := asPt F s.right_point
  faces_outwards := s.faces_outwards
  index := s.index
  order := s.order
  data := s.data

/-- All segments. -/
def asArena (A : Arena ℤ) : Arena F := A.map (asSeg F)

/-- The state of the sweep. -/
def asState (st : SweepState ℤ) : SweepState F := ⟨asArena F st.arena, st.queue, st.active, st.swept⟩

end

/-- If `f1` succeeds, `f2` does, with the same result, which has the property `P`. -/
def Sim {Z A B : Type} (P : Z → Prop) (m1 : Z → A) (m2 : Z → B) (f1 : Res A) (f2 : Res B) : Prop :=
  ∀ y, f1 = .ok y → ∃ z, P z ∧ y = m1 z ∧ f2 = .ok (m2 z)

theorem Sim.ok {Z A B : Type} {P : Z → Prop} {m1 : Z → A} {m2 : Z → B} (z : Z) (h : P z) : Sim P m1 m2 (.ok (m1 z)) (.ok (m2 z)) := by
  intro y hy
  cases hy
  exact ⟨z, h, rfl, rfl⟩

theorem Sim.refl {A : Type} (f : Res A) : Sim (fun _ => True) id id f f := fun y hy => ⟨y, trivial, rfl, hy⟩

theorem Sim.refl' {A : Type} {f g : Res A} (h : f = g) : Sim (fun y => f = .ok y) id id f g := fun y hy => ⟨y, hy, rfl, h ▸ hy⟩

theorem Sim.bind {Z A B Z' A' B' : Type} {P : Z → Prop} {m1 : Z → A} {m2 : Z → B} {P' : Z' → Prop} {m1' : Z' → A'} {m2' : Z' → B'}
    {f1 : Res A} {f2 : Res B} {g1 : A → Res A'} {g2 : B → Res B'} (h : Sim P m1 m2 f1 f2) (hg : ∀ z, P z → Sim P' m1' m2' (g1 (m1 z)) (g2 (m2 z))) :
    Sim P' m1' m2' (f1 >>= g1) (f2 >>= g2) := by
  intro y hy
  obtain ⟨a, ha, hy⟩ := Res.bind_eq_ok hy
  obtain ⟨z, hz, rfl, h2⟩ := h a ha
  obtain ⟨z', hz', e, h2'⟩ := hg z hz y hy
  exact ⟨z', hz', e, by rw [h2, Res.bind_ok, h2']⟩

theorem Sim.mono {Z A B : Type} {P Q : Z → Prop} {m1 : Z → A} {m2 : Z → B} {f1 : Res A} {f2 : Res B} (h : Sim P m1 m2 f1 f2) (hPQ : ∀ z, P z → Q z) :
    Sim Q m1 m2 f1 f2 := by
  intro y hy
  obtain ⟨z, hz, e⟩ := h y hy
  exact ⟨z, hPQ z hz, e⟩

theorem Sim.panic {Z A B : Type} {P : Z → Prop} {m1 : Z → A} {m2 : Z → B} {p : Panic} {f2 : Res B} : Sim P m1 m2 (.panic p) f2 := by
  intro y hy; cases hy

theorem Sim.ite {Z A B : Type} {P : Z → Prop} {m1 : Z → A} {m2 : Z → B} {f1 g1 : Res A} {f2 g2 : Res B} {c : Prop} [Decidable c]
    (h : c → Sim P m1 m2 f1 f2) (h' : ¬ c → Sim P m1 m2 g1 g2) : Sim P m1 m2 (if c then f1 else g1) (if c then f2 else g2) := by
  by_cases hc : c
  · rw [if_pos hc, if_pos hc]; exact h hc
  · rw [if_neg hc, if_neg hc]; exact h' hc

section

variable {E F : Type} [FloatOps E] [FloatOps F]

theorem index_lf {A B : Type} (f : A → B) (l : List A) (i : Nat) : index (l.map f) i = (match l[i]? with | some a => .ok (f a) | none => .panic .bounds) := by
  unfold index
  rw [List.getElem?_map]
  cases l[i]? <;> rfl

theorem sim_index (A : Arena ℤ) (i : Nat) : Sim (fun s => A[i]? = some s) (asSeg E) (asSeg F) (index (asArena E A) i) (index (asArena F A) i) := by
  unfold asArena
  rw [index_lf, index_lf]
  cases h : A[i]? with
  | none => exact Sim.panic
  | some s => exact Sim.ok s rfl

theorem lfA_set (A : Arena ℤ) (i : Nat) (s : BoolSegment ℤ) : (asArena F A).set i (asSeg F s) = asArena F (A.set i s) := by
  unfold asArena
  rw [List.map_set]

theorem sim_setPacket {Q : Arena ℤ → Prop} (hQ : ∀ A i s p, Q A → A[i]? = some s → Q (A.set i { s with data := p })) {A : Arena ℤ} (h : Q A) (i : Nat) (p : SegmentPacket) :
    Sim Q (asArena E) (asArena F) ((asArena E A).setPacket i p) ((asArena F A).setPacket i p) := by
  unfold Arena.setPacket
  refine (sim_index A i).bind fun s hs => ?_
  have e : ∀ (K : Type) [FloatOps K], (asArena K A).set i { asSeg K s with data := p } = asArena K (A.set i { s with data := p }) := fun K _ => lfA_set A i { s with data := p }
  rw [e E, e F]
  exact Sim.ok _ (hQ A i s p h hs)

end

/-! ### Comparisons -/

/-- The coordinates. -/
def sPt (p : Pt ℤ) : ℤ × ℤ := (p.x, p.y)

theorem sPt_inj {p q : Pt ℤ} (h : sPt p = sPt q) : p = q := by
  cases p; cases q
  cases h
  rfl

/-- Coordinates between -32768 and 32768. -/
structure SmallS (s : SweepSegment ℤ T) : Prop where
  left : Small (sPt s.left_point)
  right : Small (sPt s.right_point)

theorem SmallS.pointAt {s : SweepSegment ℤ T} (h : SmallS s) (e : SegmentEnd) : Small (sPt (s.pointAt e)) := by
  cases e
  · exact h.left
  · exact h.right

theorem SmallS.otherPointAt {s : SweepSegment ℤ T} (h : SmallS s) (e : SegmentEnd) : Small (sPt (s.otherPointAt e)) := by
  cases e
  · exact h.right
  · exact h.left

/-- All segments. -/
def SmallA (A : Arena ℤ) : Prop := ∀ s ∈ A, SmallS s

theorem lfS_pointAt {F : Type} [FloatOps F] (s : SweepSegment ℤ T) (e : SegmentEnd) : (asSeg F s).pointAt e = asPt F (s.pointAt e) := by cases e <;> rfl
theorem lfS_otherPointAt {F : Type} [FloatOps F] (s : SweepSegment ℤ T) (e : SegmentEnd) : (asSeg F s).otherPointAt e = asPt F (s.otherPointAt e) := by cases e <;> rfl

theorem lf_ptB {F : Type} [FloatOps F] [IntVal F] {p : Pt ℤ} (h : Small (sPt p)) : PtB (asPt F p) (sPt p) (2 ^ 15) := h.pt (F := F)

theorem lf_beq {F : Type} [FloatOps F] [IntVal F] {p q : Pt ℤ} (h : Small (sPt p)) (h' : Small (sPt q)) : (asPt F p).beq (asPt F q) = decide (p = q) := by
  rw [(lf_ptB (F := F) h).beq (lf_ptB h')]
  exact decide_eq_decide.2 ⟨sPt_inj, fun h => by rw [h]⟩

theorem SmallS.segB {F : Type} [FloatOps F] [IntVal F] {s : SweepSegment ℤ T} (h : SmallS s) : SegB (asSeg F s) (sPt s.left_point) (sPt s.right_point) :=
  ⟨lf_ptB h.left, lf_ptB h.right⟩

section

variable {E F : Type} [FloatOps E] [IntVal E] [FloatOps F] [IntVal F]

theorem cmp_lf {s t : SweepSegment ℤ T} (hs : SmallS s) (ht : SmallS t) : (asSeg E s).cmp (asSeg E t) = (asSeg F s).cmp (asSeg F t) := by
  rw [segCmp_int (hs.segB (F := E)) ht.segB, segCmp_int (hs.segB (F := F)) ht.segB]
  rfl

theorem endpointCmp_lf {s t : SweepSegment ℤ T} (hs : SmallS s) (ht : SmallS t) (e e' : SegmentEnd) :
    endpointCmp (asSeg E s) e (asSeg E t) e' = endpointCmp (asSeg F s) e (asSeg F t) e' := by
  rw [endpointCmp_int (hs.segB (F := E)) ht.segB, endpointCmp_int (hs.segB (F := F)) ht.segB]
  rfl

theorem index_lfA {F : Type} [FloatOps F] {A : Arena ℤ} {i : Nat} {s : BoolSegment ℤ} (h : A[i]? = some s) : index (asArena F A) i = .ok (asSeg F s) := by
  unfold asArena; rw [index_lf, h]

theorem index_lfA_none {F : Type} [FloatOps F] {A : Arena ℤ} {i : Nat} (h : A[i]? = none) : index (asArena F A) i = .panic .bounds := by
  unfold asArena; rw [index_lf, h]

variable (E F) in
theorem endCmp_lf {A : Arena ℤ} (h : SmallA A) : (asArena E A).endCmp = (asArena F A).endCmp := by
  funext a b
  unfold Arena.endCmp
  cases ha : A[a.1]? with
  | none => rw [index_lfA_none ha, index_lfA_none ha]; rfl
  | some s =>
    cases hb : A[b.1]? with
    | none => rw [index_lfA_none hb, index_lfA_none hb, index_lfA ha, index_lfA ha]; rfl
    | some t =>
      rw [index_lfA hb, index_lfA hb, index_lfA ha, index_lfA ha]
      exact endpointCmp_lf (h s (List.mem_of_getElem? ha)) (h t (List.mem_of_getElem? hb)) _ _

variable (E F) in
theorem segCmp_lf {A : Arena ℤ} (h : SmallA A) : (asArena E A).segCmp = (asArena F A).segCmp := by
  funext a b
  unfold Arena.segCmp
  cases ha : A[a]? with
  | none => rw [index_lfA_none ha, index_lfA_none ha]; rfl
  | some s =>
    cases hb : A[b]? with
    | none => rw [index_lfA_none hb, index_lfA_none hb, index_lfA ha, index_lfA ha]; rfl
    | some t =>
      rw [index_lfA hb, index_lfA hb, index_lfA ha, index_lfA ha]
      exact cmp_lf (h s (List.mem_of_getElem? ha)) (h t (List.mem_of_getElem? hb))

/-! ### Loading the segments -/

theorem new_lf {p q : Pt ℤ} (hp : Small (sPt p)) (hq : Small (sPt q)) (i k : Nat) (d : T) :
    Sim (fun s : SweepSegment ℤ T => SmallS s) (asSeg E) (asSeg F) (SweepSegment.new (asPt E p) (asPt E q) i k d) (SweepSegment.new (asPt F p) (asPt F q) i k d) := by
  have e : ∀ (K : Type) [FloatOps K] [IntVal K], SweepSegment.new (asPt K p) (asPt K q) i k d =
      if p = q then .panic .explicit
      else if p.x < q.x ∨ (p.x = q.x ∧ p.y < q.y) then .ok (asSeg K ⟨p, q, false, i, k, d⟩) else .ok (asSeg K ⟨q, p, true, i, k, d⟩) := by
    intro K _ _
    have bp := lf_ptB (F := K) hp
    have bq := lf_ptB (F := K) hq
    unfold SweepSegment.new
    rw [lf_beq hp hq, IntVal.lt bp.1.1 bq.1.1, IntVal.lt bp.2.1 bq.2.1, IntVal.eq bp.1.1 bq.1.1]
    simp only [decide_eq_true_eq, Bool.or_eq_true, Bool.and_eq_true]
    rfl
  rw [e E, e F]
  refine Sim.ite (fun _ => Sim.panic) fun _ => Sim.ite (fun _ => Sim.ok _ ⟨hp, hq⟩) fun _ => Sim.ok _ ⟨hq, hp⟩

/-- The corners of a list of segments. -/
def SmallSt (st : SweepState ℤ) : Prop := SmallA st.arena

theorem addSegments_lf (lib : Lib) (n i : Nat) (mode : PolygonMode) : ∀ (segs : List (Pt ℤ × Pt ℤ)) (st : SweepState ℤ),
    (∀ e ∈ segs, Small (sPt e.1) ∧ Small (sPt e.2)) → SmallSt st →
    Sim SmallSt (asState E) (asState F) (addSegments lib n i mode (segs.map fun e => (asPt E e.1, asPt E e.2)) (asState E st))
      (addSegments lib n i mode (segs.map fun e => (asPt F e.1, asPt F e.2)) (asState F st))
  | [], st, _, hst => Sim.ok st hst
  | (p, q) :: rest, st, hs, hst => by
    obtain ⟨hp, hq⟩ := hs (p, q) (List.mem_cons_self ..)
    have hs' := fun e he => hs e (List.mem_cons_of_mem _ he)
    simp only [List.map_cons, addSegments]
    rw [lf_beq hp hq, lf_beq hp hq]
    refine Sim.ite (fun _ => addSegments_lf lib n i mode rest st hs' hst) fun _ => ?_
    have el : ∀ (K : Type) [FloatOps K], (asState K st).arena.length = st.arena.length := fun K _ => by simp [asState, asArena]
    rw [el E, el F]
    refine (new_lf hp hq _ _ _).bind fun s hsm => ?_
    have ea : ∀ (K : Type) [FloatOps K], (asState K st).arena ++ [asSeg K s] = asArena K (st.arena ++ [s]) := fun K _ => by simp [asState, asArena]
    have hsm' : SmallA (st.arena ++ [s]) := by
      intro t ht
      rcases List.mem_append.1 ht with ht | ht
      · exact hst t ht
      · rw [List.mem_singleton.1 ht]; exact hsm
    rw [ea E, ea F, endCmp_lf E F hsm']
    refine (Sim.refl _).bind fun q1 _ => ?_
    refine (Sim.refl _).bind fun q2 _ => ?_
    exact addSegments_lf lib n i mode rest ⟨st.arena ++ [s], q2, st.active, st.swept⟩ hs' hsm'

end

/-- The edges of a contour. -/
theorem segments_lf (c : Contour ℤ) : ∃ segs : List (Pt ℤ × Pt ℤ), (∀ (K : Type) [FloatOps K], (asContour K c).segments = .ok (segs.map fun e => (asPt K e.1, asPt K e.2))) ∧
    ∀ e ∈ segs, e.1 ∈ c.points ∧ e.2 ∈ c.points := by
  refine ⟨c.points.zip (c.points.rotate 1), fun K _ => ?_, ?_⟩
  · obtain ⟨segs, e, hl, h⟩ := C52_segments (asContour K c)
    rw [e]
    congr 1
    have hlen : (asContour K c).points.length = c.points.length := by simp [asContour]
    apply List.ext_getElem?
    intro j
    by_cases hj : j < c.points.length
    · have hm : (j + 1) % c.points.length < c.points.length := Nat.mod_lt _ (by omega)
      have h1 : (asContour K c).points[j]? = some (asPt K c.points[j]) := by
        simp only [asContour, List.getElem?_map, List.getElem?_eq_getElem hj, Option.map_some]
      have h2 : (asContour K c).points[(j + 1) % (asContour K c).points.length]? = some (asPt K c.points[(j + 1) % c.points.length]) := by
        rw [hlen]
        simp only [asContour, List.getElem?_map, List.getElem?_eq_getElem hm, Option.map_some]
      rw [(h j _ _).2 ⟨h1, h2⟩, List.getElem?_map, List.getElem?_zip_eq_some (z := (c.points[j], c.points[(j + 1) % c.points.length])) |>.2 ⟨List.getElem?_eq_getElem hj, ?_⟩]
      · rfl
      · rw [List.getElem?_rotate hj, List.getElem?_eq_getElem hm]
    · rw [List.getElem?_eq_none (by omega), List.getElem?_eq_none (by simp; omega)]
  · intro e he
    have := List.of_mem_zip he
    exact ⟨this.1, by simpa using this.2⟩

/-- All coordinates are between -32768 and 32768. -/
def SmallC (c : Contour ℤ) : Prop := ∀ q ∈ c.points, Small (sPt q)

section

variable {E F : Type} [FloatOps E] [IntVal E] [FloatOps F] [IntVal F]

theorem addContours_lf (lib : Lib) (n i : Nat) (mode : PolygonMode) : ∀ (cs : List (Contour ℤ)) (st : SweepState ℤ), (∀ c ∈ cs, SmallC c) → SmallSt st →
    Sim SmallSt (asState E) (asState F) (addContours lib n i mode (cs.map (asContour E)) (asState E st)) (addContours lib n i mode (cs.map (asContour F)) (asState F st))
  | [], st, _, hst => Sim.ok st hst
  | c :: cs, st, hc, hst => by
    simp only [List.map_cons, addContours]
    obtain ⟨segs, e, hm⟩ := segments_lf c
    rw [e E, e F, Res.bind_ok, Res.bind_ok]
    have h0 := hc c (List.mem_cons_self ..)
    refine (addSegments_lf lib n i mode segs st (fun e he => ⟨h0 _ (hm e he).1, h0 _ (hm e he).2⟩) hst).bind fun st' hst' => ?_
    exact addContours_lf lib n i mode cs st' (fun c hc' => hc c (List.mem_cons_of_mem _ hc')) hst'

theorem addPolygons_lf (lib : Lib) (n : Nat) : ∀ (polys : List (Polygon ℤ × PolygonMode)) (i : Nat) (st : SweepState ℤ),
    (∀ p ∈ polys, ∀ c ∈ p.1.contours, SmallC c) → SmallSt st →
    Sim SmallSt (asState E) (asState F) (addPolygons lib n i (polys.map fun p => (asPolygon E p.1, p.2)) (asState E st)) (addPolygons lib n i (polys.map fun p => (asPolygon F p.1, p.2)) (asState F st))
  | [], i, st, _, hst => Sim.ok st hst
  | (p, mode) :: polys, i, st, hc, hst => by
    simp only [List.map_cons, addPolygons]
    refine (addContours_lf lib n i mode p.contours st (hc (p, mode) (List.mem_cons_self ..)) hst).bind fun st' hst' => ?_
    exact addPolygons_lf lib n polys (i + 1) st' (fun p hp => hc p (List.mem_cons_of_mem _ hp)) hst'

end

/-! ### The sweep -/

/-- The outcome for two segments: nothing, or a point that is an end of both. -/
def EndTouch {F : Type} [FloatOps F] [IntVal F] (s t : SweepSegment ℤ T) : Prop :=
  intersectSegments (asPt F s.left_point, asPt F s.right_point) (asPt F t.left_point, asPt F t.right_point) = .none ∨
  ∃ p z, intersectSegments (asPt F s.left_point, asPt F s.right_point) (asPt F t.left_point, asPt F t.right_point) = .point p ∧ PtB p (sPt z) (2 ^ 17) ∧
    (z = s.left_point ∨ z = s.right_point) ∧ (z = t.left_point ∨ z = t.right_point)

/-- The segments coincide, and the outcome is a common part. -/
def Coincide {F : Type} [FloatOps F] (s t : SweepSegment ℤ T) : Prop :=
  s.left_point = t.left_point ∧ s.right_point = t.right_point ∧
  ∃ a b, intersectSegments (asPt F s.left_point, asPt F s.right_point) (asPt F t.left_point, asPt F t.right_point) = .segment a b

/-- Twice the area between two vectors. -/
def zTurn (p q a b : Pt ℤ) : ℤ := (p.x - q.x) * (a.y - b.y) - (p.y - q.y) * (a.x - b.x)

/-- The cosine of the angle between two vectors, times the length of the first, as computed. -/
def cosOf (F : Type) [FloatOps F] (p q a b : Pt ℤ) : F :=
  div (((asPt F p).sub (asPt F q)).dot ((asPt F a).sub (asPt F b))) ((asPt F a).sub (asPt F b)).length

/-- Segments of which no two touch except in their ends, or they coincide; and at each corner the two arithmetics
agree about which is next. -/
structure Quiet (E F : Type) [FloatOps E] [IntVal E] [FloatOps F] [IntVal F] (A : Arena ℤ) : Prop where
  small : SmallA A
  meets : ∀ (i j : Nat) (s t : BoolSegment ℤ), A[i]? = some s → A[j]? = some t → i ≠ j →
    (EndTouch (F := E) s t ∧ EndTouch (F := F) s t) ∨ (Coincide (F := E) s t ∧ Coincide (F := F) s t)
  self : ∀ s ∈ A, ∃ a b, intersectSegments (asPt E s.left_point, asPt E s.right_point) (asPt E s.left_point, asPt E s.right_point) = .segment a b
  numbered : ∀ (i : Nat) (s : BoolSegment ℤ), A[i]? = some s → s.index = i
  turn : ∀ (i j k : Nat) (c s u : BoolSegment ℤ) (d e e' : SegmentEnd), A[i]? = some c → A[j]? = some s → A[k]? = some u → i ≠ j → i ≠ k →
    c.otherPointAt d = s.pointAt e → c.otherPointAt d = u.pointAt e' →
    (0 < zTurn (c.otherPointAt d) (c.pointAt d) (s.otherPointAt e) (s.pointAt e) ↔ 0 < zTurn (c.otherPointAt d) (c.pointAt d) (u.otherPointAt e') (u.pointAt e')) →
    lt (cosOf E (c.otherPointAt d) (c.pointAt d) (s.otherPointAt e) (s.pointAt e)) (cosOf E (c.otherPointAt d) (c.pointAt d) (u.otherPointAt e') (u.pointAt e')) =
      lt (cosOf F (c.otherPointAt d) (c.pointAt d) (s.otherPointAt e) (s.pointAt e)) (cosOf F (c.otherPointAt d) (c.pointAt d) (u.otherPointAt e') (u.pointAt e'))

/-- Nothing depends on the packets. -/
theorem Quiet.set {E F : Type} [FloatOps E] [IntVal E] [FloatOps F] [IntVal F] (A : Arena ℤ) (i : Nat) (s : BoolSegment ℤ) (p : SegmentPacket)
    (h : Quiet E F A) (hs : A[i]? = some s) : Quiet E F (A.set i { s with data := p }) := by
  have get : ∀ (j : Nat) (t : BoolSegment ℤ), (A.set i { s with data := p })[j]? = some t → ∃ t' : BoolSegment ℤ, A[j]? = some t' ∧ t'.left_point = t.left_point ∧ t'.right_point = t.right_point ∧ t'.index = t.index := by
    intro j t ht
    by_cases hij : i = j
    · subst hij
      rw [List.getElem?_set_self (List.getElem?_eq_some_iff.1 hs).1] at ht
      cases ht
      exact ⟨s, hs, rfl, rfl, rfl⟩
    · rw [List.getElem?_set_ne hij] at ht
      exact ⟨t, ht, rfl, rfl, rfl⟩
  have mem : ∀ t ∈ A.set i { s with data := p }, ∃ t' ∈ A, t'.left_point = t.left_point ∧ t'.right_point = t.right_point := by
    intro t ht
    obtain ⟨j, hj⟩ := List.getElem?_of_mem ht
    obtain ⟨t', e, e1, e2, _⟩ := get j t hj
    exact ⟨t', List.mem_of_getElem? e, e1, e2⟩
  have pa : ∀ (t t' : BoolSegment ℤ) e, t'.left_point = t.left_point → t'.right_point = t.right_point → t.pointAt e = t'.pointAt e := by
    intro t t' e e1 e2
    cases e
    · exact e1.symm
    · exact e2.symm
  have po : ∀ (t t' : BoolSegment ℤ) e, t'.left_point = t.left_point → t'.right_point = t.right_point → t.otherPointAt e = t'.otherPointAt e := by
    intro t t' e e1 e2
    cases e
    · exact e2.symm
    · exact e1.symm
  refine ⟨?_, ?_, ?_, ?_, ?_⟩
  · intro t ht
    obtain ⟨t', m, e1, e2⟩ := mem t ht
    exact ⟨e1 ▸ (h.small t' m).left, e2 ▸ (h.small t' m).right⟩
  · intro a b t u ha hb hab
    obtain ⟨t', m, e1, e2, _⟩ := get a t ha
    obtain ⟨u', m', e1', e2', _⟩ := get b u hb
    have := h.meets a b t' u' m m' hab
    unfold EndTouch Coincide at this ⊢
    rwa [e1, e2, e1', e2'] at this
  · intro t ht
    obtain ⟨t', m, e1, e2⟩ := mem t ht
    have := h.self t' m
    rwa [e1, e2] at this
  · intro a t ha
    obtain ⟨t', m, _, _, e3⟩ := get a t ha
    rw [← e3]
    exact h.numbered a t' m
  · intro a b c t u v e e' e'' ha hb hc hab hac h1 h2
    obtain ⟨t', m, e1, e2, _⟩ := get a t ha
    obtain ⟨u', m', e1', e2', _⟩ := get b u hb
    obtain ⟨v', m'', e1'', e2'', _⟩ := get c v hc
    rw [po _ _ _ e1 e2, pa _ _ _ e1' e2'] at h1
    rw [po _ _ _ e1 e2, pa _ _ _ e1'' e2''] at h2
    rw [po _ _ _ e1 e2, pa _ _ _ e1 e2, po _ _ _ e1' e2', pa _ _ _ e1' e2', po _ _ _ e1'' e2'', pa _ _ _ e1'' e2'']
    exact h.turn a b c t' u' v' e e' e'' m m' m'' hab hac h1 h2

section

variable {E F : Type} [FloatOps E] [IntVal E] [FloatOps F] [IntVal F]

/-- Segments that touch in their ends are left alone. -/
theorem handle_touches {A : Arena ℤ} (hA : SmallA A) {i j : Nat} {s t : BoolSegment ℤ} (hs : A[i]? = some s) (ht : A[j]? = some t) (h : EndTouch (F := F) s t) :
    ∃ m, m < 2 ∧ handleIntersections (asArena F A) (some i) (some j) = .ok (asArena F A, m, none, none) := by
  unfold handleIntersections
  dsimp only
  rw [index_lfA hs, index_lfA ht]
  simp only [Res.bind_ok]
  have e1 : (asSeg F s).left_point = asPt F s.left_point := rfl
  have e2 : (asSeg F s).right_point = asPt F s.right_point := rfl
  have e3 : (asSeg F t).left_point = asPt F t.left_point := rfl
  have e4 : (asSeg F t).right_point = asPt F t.right_point := rfl
  rw [e1, e2, e3, e4]
  rcases h with h | ⟨p, z, h, hp, z1, z2⟩
  · rw [h]
    exact ⟨0, by norm_num, rfl⟩
  · rw [h]
    dsimp only
    split
    · exact ⟨0, by norm_num, rfl⟩
    · refine ⟨1, by norm_num, ?_⟩
      have k : ∀ u : BoolSegment ℤ, SmallS u → (z = u.left_point ∨ z = u.right_point) → (!(asPt F u.left_point).beq p && !(asPt F u.right_point).beq p) = false := by
        intro u hu hz
        rw [(lf_ptB hu.left).beq hp, (lf_ptB hu.right).beq hp]
        rcases hz with rfl | rfl <;> simp
      rw [k s (hA s (List.mem_of_getElem? hs)) z1, k t (hA t (List.mem_of_getElem? ht)) z2]
      rfl

theorem comparePoints_same {p : Pt ℤ} (hp : Small (sPt p)) : comparePoints (asPt F p) (asPt F p) = .ok .eq := by
  have b := lf_ptB (F := F) hp
  unfold comparePoints
  rw [cmp_int b.1.1 b.1.1, cmp_int b.2.1 b.2.1]
  simp [unwrap, Res.bind_ok, Res.pure_eq]

theorem sim_setUpperType {A : Arena ℤ} (hA : Quiet E F A) (i : Nat) (t : EdgeType) :
    Sim (Quiet E F) (asArena E) (asArena F) (setUpperType (asArena E A) i t) (setUpperType (asArena F A) i t) := by
  unfold setUpperType
  refine (sim_index A i).bind fun s _ => ?_
  exact Sim.ite (fun _ => sim_setPacket Quiet.set hA i _) fun _ => Sim.ok A hA

/-- What is done about two segments. -/
def asHandled (F : Type) [FloatOps F] (A : Arena ℤ) : Arena F × Nat × Option (Pt F) × Option (Pt F) := (asArena F A, 2, none, none)

/-- Segments that coincide. -/
theorem handle_coincide {A : Arena ℤ} (hA : Quiet E F A) {i j : Nat} {s t : BoolSegment ℤ} (hs : A[i]? = some s) (ht : A[j]? = some t)
    (h : Coincide (F := E) s t) (h' : Coincide (F := F) s t) :
    Sim (Quiet E F) (asHandled E) (asHandled F) (handleIntersections (asArena E A) (some i) (some j)) (handleIntersections (asArena F A) (some i) (some j)) := by
  obtain ⟨e1, e2, p, q, h⟩ := h
  obtain ⟨_, _, p', q', h'⟩ := h'
  have hss := hA.small s (List.mem_of_getElem? hs)
  unfold handleIntersections
  dsimp only
  rw [index_lfA hs, index_lfA ht, index_lfA hs, index_lfA ht]
  simp only [Res.bind_ok]
  have l : ∀ (K : Type) [FloatOps K] (s : BoolSegment ℤ), (asSeg K s).left_point = asPt K s.left_point := fun _ _ _ => rfl
  have r : ∀ (K : Type) [FloatOps K] (s : BoolSegment ℤ), (asSeg K s).right_point = asPt K s.right_point := fun _ _ _ => rfl
  have d : ∀ (K : Type) [FloatOps K] (s : BoolSegment ℤ), (asSeg K s).data = s.data := fun _ _ _ => rfl
  rw [l E, l F, r E, r F, l E, l F, r E, r F, h, h']
  dsimp only
  rw [d E, d F, d E, d F]
  refine Sim.ite (fun _ => Sim.panic) fun _ => ?_
  rw [← e1, ← e2, comparePoints_same (F := E) hss.left, comparePoints_same (F := E) hss.right, comparePoints_same (F := F) hss.left, comparePoints_same (F := F) hss.right,
    lf_beq hss.left hss.left, lf_beq hss.left hss.left]
  simp only [Res.bind_ok, decide_true, if_true]
  refine (sim_setPacket Quiet.set hA i _).bind fun A' hA' => ?_
  refine (sim_setUpperType hA' j _).bind fun A'' hA'' => ?_
  exact Sim.ok (m1 := asHandled E) (m2 := asHandled F) A'' hA''

theorem sim_handle {A : Arena ℤ} (hA : Quiet E F A) (oi oj : Option Nat) {Z A' B' : Type} {P : Z → Prop} {m1 : Z → A'} {m2 : Z → B'}
    {g1 : Arena E × Nat × Option (Pt E) × Option (Pt E) → Res A'} {g2 : Arena F × Nat × Option (Pt F) × Option (Pt F) → Res B'}
    (h : ∀ (A' : Arena ℤ) (m m' : Nat), Quiet E F A' → ((m < 2 ∧ m' < 2) ∨ m = 2 ∧ m' = 2) → Sim P m1 m2 (g1 (asArena E A', m, none, none)) (g2 (asArena F A', m', none, none))) :
    Sim P m1 m2 (handleIntersections (asArena E A) oi oj >>= g1) (handleIntersections (asArena F A) oi oj >>= g2) := by
  rcases oi with _ | i
  · exact h A 0 0 hA (Or.inl ⟨by norm_num, by norm_num⟩)
  rcases oj with _ | j
  · exact h A 0 0 hA (Or.inl ⟨by norm_num, by norm_num⟩)
  cases hs : A[i]? with
  | none =>
    intro y hy
    exfalso
    unfold handleIntersections at hy
    dsimp only at hy
    rw [index_lfA_none hs] at hy
    cases hy
  | some s =>
    cases ht : A[j]? with
    | none =>
      intro y hy
      exfalso
      unfold handleIntersections at hy
      dsimp only at hy
      rw [index_lfA_none ht, index_lfA hs] at hy
      cases hy
    | some t =>
      by_cases hij : i = j
      · subst hij
        rw [hs] at ht
        cases ht
        intro y hy
        exfalso
        obtain ⟨a, b, e⟩ := hA.self s (List.mem_of_getElem? hs)
        unfold handleIntersections at hy
        dsimp only at hy
        rw [index_lfA hs] at hy
        simp only [Res.bind_ok] at hy
        rw [show intersectSegments ((asSeg E s).left_point, (asSeg E s).right_point) ((asSeg E s).left_point, (asSeg E s).right_point) = .segment a b from e] at hy
        dsimp only at hy
        rw [if_pos trivial] at hy
        cases hy
      · rcases hA.meets i j s t hs ht hij with ⟨k1, k2⟩ | ⟨k1, k2⟩
        · obtain ⟨m, hm, e⟩ := handle_touches (F := E) hA.small hs ht k1
          obtain ⟨m', hm', e'⟩ := handle_touches (F := F) hA.small hs ht k2
          rw [e, e', Res.bind_ok, Res.bind_ok]
          exact h A m m' hA (Or.inl ⟨hm, hm'⟩)
        · exact (handle_coincide hA hs ht k1 k2).bind fun A' hA' => h A' 2 2 hA' (Or.inr ⟨rfl, rfl⟩)

theorem borrowBelow_lf {E F : Type} [FloatOps E] [FloatOps F] (A : Arena ℤ) (i : Nat) (o : Option Nat) :
    Sim (fun b : Option (BoolSegment ℤ) => ∀ s, b = some s → s ∈ A) (Option.map (asSeg E)) (Option.map (asSeg F)) (borrowBelow (asArena E A) i o) (borrowBelow (asArena F A) i o) := by
  cases o with
  | none => exact Sim.ok (m1 := Option.map (asSeg E)) (m2 := Option.map (asSeg F)) none (fun s hs => by cases hs)
  | some b =>
    unfold borrowBelow
    refine Sim.ite (fun _ => Sim.panic) fun _ => (sim_index A b).bind fun s hs => ?_
    refine Sim.ok (m1 := Option.map (asSeg E)) (m2 := Option.map (asSeg F)) (some s) fun s' hs' => ?_
    cases hs'
    exact List.mem_of_getElem? hs

theorem facingPacket_lf (p : SegmentPacket) {b : Option (BoolSegment ℤ)} (hb : ∀ s, b = some s → SmallS s) :
    facingPacket p (b.map (asSeg E)) = facingPacket p (b.map (asSeg F)) := by
  cases b with
  | none => rfl
  | some s =>
    have hv : (asSeg E s).vertical = (asSeg F s).vertical := by
      rw [((hb s rfl).segB (F := E)).vertical, ((hb s rfl).segB (F := F)).vertical]
    simp only [Option.map_some, facingPacket, facingUp]
    rw [hv]
    rfl

/-- The sweep's invariant. -/
def QuietSt (E F : Type) [FloatOps E] [IntVal E] [FloatOps F] [IntVal F] (st : SweepState ℤ) : Prop := Quiet E F st.arena

theorem sim_facing {A : Arena ℤ} (hA : Quiet E F A) (i : Nat) (o : Option Nat) :
    Sim (Quiet E F) (asArena E) (asArena F) (updatePolygonFacing (asArena E A) i o) (updatePolygonFacing (asArena F A) i o) := by
  unfold updatePolygonFacing
  refine (sim_index A i).bind fun s hs => ?_
  refine (borrowBelow_lf A i o).bind fun b hb => ?_
  rw [facingPacket_lf (E := E) (F := F) (asSeg E s).data fun s hs => hA.small s (hb s hs)]
  refine (Sim.refl (facingPacket s.data (b.map (asSeg F)))).bind fun p _ => ?_
  exact sim_setPacket Quiet.set hA i _

theorem sim_updateAfter {st : SweepState ℤ} (hst : QuietSt E F st) (i : Nat) (below above : Option Nat) {m m' : Nat} (hm : (m < 2 ∧ m' < 2) ∨ m = 2 ∧ m' = 2) :
    Sim (QuietSt E F) (asState E) (asState F) (updateAfter m (asState E st) i below above) (updateAfter m' (asState F st) i below above) := by
  unfold updateAfter
  rcases hm with ⟨hm, hm'⟩ | ⟨rfl, rfl⟩
  · rw [if_neg (by omega), if_neg (by omega)]
    exact Sim.ok st hst
  · rw [if_pos rfl, if_pos rfl]
    refine (sim_facing hst i below).bind fun A1 hA1 => ?_
    refine (Sim.refl (unwrap above)).bind fun a _ => ?_
    refine (sim_facing hA1 a (some i)).bind fun A2 hA2 => ?_
    exact Sim.ok (m1 := asState E) (m2 := asState F) (⟨A2, st.queue, st.active, st.swept⟩ : SweepState ℤ) hA2

theorem sim_sweepRight (lib : Lib) (n : Nat) {st : SweepState ℤ} (hst : QuietSt E F st) (i : Nat) :
    Sim (QuietSt E F) (asState E) (asState F) (sweepRight lib n (asState E st) i) (sweepRight lib n (asState F st) i) := by
  unfold sweepRight
  have e : (asState E st).arena.segCmp = (asState F st).arena.segCmp := segCmp_lf E F hst.small
  rw [e]
  refine (Sim.refl (SweepLine2.removeAndGetNeighbors lib (asState F st).arena.segCmp i st.active)).bind fun r _ => ?_
  obtain ⟨⟨found, below, above⟩, active⟩ := r
  simp only [id]
  refine Sim.ite (fun _ => ?_) fun _ => Sim.ok (m1 := asState E) (m2 := asState F) (⟨st.arena, st.queue, active, st.swept⟩ : SweepState ℤ) hst
  rcases above with _ | above <;> rcases below with _ | below <;> dsimp only
  · exact Sim.ok (m1 := asState E) (m2 := asState F) (⟨st.arena, st.queue, active, st.swept ++ [i]⟩ : SweepState ℤ) hst
  · exact Sim.ok (m1 := asState E) (m2 := asState F) (⟨st.arena, st.queue, active, st.swept ++ [i]⟩ : SweepState ℤ) hst
  · exact Sim.ok (m1 := asState E) (m2 := asState F) (⟨st.arena, st.queue, active, st.swept ++ [i]⟩ : SweepState ℤ) hst
  · refine sim_handle hst _ _ fun A' m m' hA' _ => ?_
    exact Sim.ok (m1 := asState E) (m2 := asState F) (⟨A', st.queue, active, st.swept ++ [i]⟩ : SweepState ℤ) hA'

theorem sim_sweepLeft (lib : Lib) (n : Nat) {st : SweepState ℤ} (hst : QuietSt E F st) (i : Nat) :
    Sim (QuietSt E F) (asState E) (asState F) (sweepLeft lib n (asState E st) i) (sweepLeft lib n (asState F st) i) := by
  unfold sweepLeft
  have e : (asState E st).arena.segCmp = (asState F st).arena.segCmp := segCmp_lf E F hst.small
  rw [e]
  refine (Sim.refl (SweepLine2.insertAndGetNeighbors lib (asState F st).arena.segCmp i st.active)).bind fun r _ => ?_
  obtain ⟨⟨below, above⟩, active⟩ := r
  simp only [id]
  refine (sim_facing hst i below).bind fun A hA => ?_
  refine sim_handle hA _ _ fun A1 m m' hA1 hm => ?_
  simp only [splitIf, splitIfOpt, Res.bind_ok]
  refine Sim.bind (P := QuietSt E F) (m1 := asState E) (m2 := asState F) (sim_updateAfter (E := E) (F := F) (st := ⟨A1, st.queue, active, st.swept⟩) hA1 i below above hm) fun st2 hst2 => ?_
  refine sim_handle hst2 _ _ fun A2 m m' hA2 hm => ?_
  simp only [Res.bind_ok]
  rcases hm with ⟨hm, hm'⟩ | ⟨rfl, rfl⟩
  · rw [if_neg (by omega), if_neg (by omega)]
    exact Sim.ok (m1 := asState E) (m2 := asState F) (⟨A2, st2.queue, st2.active, st2.swept⟩ : SweepState ℤ) hA2
  · rw [if_pos rfl, if_pos rfl]
    refine (Sim.refl (unwrap below)).bind fun b _ => ?_
    have e : (asArena E A2).segCmp = (asArena F A2).segCmp := segCmp_lf E F hA2.small
    rw [e]
    refine (Sim.refl (SweepLine2.getPrevious lib (asArena F A2).segCmp b st2.active)).bind fun prev _ => ?_
    refine (sim_facing hA2 b prev).bind fun A3 hA3 => ?_
    refine (sim_facing hA3 i below).bind fun A4 hA4 => ?_
    exact Sim.ok (m1 := asState E) (m2 := asState F) (⟨A4, st2.queue, st2.active, st2.swept⟩ : SweepState ℤ) hA4

theorem sim_sweepLoop (lib : Lib) (n : Nat) : ∀ (fuel : Nat) {st : SweepState ℤ}, QuietSt E F st →
    Sim (QuietSt E F) (asState E) (asState F) (sweepLoop lib n fuel (asState E st)) (sweepLoop lib n fuel (asState F st))
  | 0, st, _ => fun y hy => by cases hy
  | fuel + 1, st, hst => by
    unfold sweepLoop
    have e : (asState E st).arena.endCmp = (asState F st).arena.endCmp := endCmp_lf E F hst.small
    rw [e]
    refine (Sim.refl (lib.heapPop (asState F st).arena.endCmp st.queue)).bind fun r _ => ?_
    rcases r with _ | ⟨⟨i, d⟩, queue⟩
    · exact Sim.ok st hst
    · simp only [id]
      have : QuietSt E F ⟨st.arena, queue, st.active, st.swept⟩ := hst
      refine Sim.bind (P := QuietSt E F) (m1 := asState E) (m2 := asState F) ?_ fun st' hst' => sim_sweepLoop lib n fuel hst'
      cases d
      · exact sim_sweepLeft lib n this i
      · exact sim_sweepRight lib n this i

end

/-! ### Tracing -/

section

variable {E F : Type} [FloatOps E] [IntVal E] [FloatOps F] [IntVal F]

theorem includeSegments_lf {E F : Type} [FloatOps E] [FloatOps F] (modes : List PolygonMode) (A : Arena ℤ) : ∀ (l segs : List Nat) (ends : List (Nat × SegmentEnd)),
    includeSegments modes (asArena E A) l segs ends = includeSegments modes (asArena F A) l segs ends
  | [], _, _ => rfl
  | i :: l, segs, ends => by
    unfold includeSegments
    cases h : A[i]? with
    | none => rw [index_lfA_none h, index_lfA_none h]; rfl
    | some s =>
      rw [index_lfA h, index_lfA h]
      simp only [Res.bind_ok, includeSegments_lf (E := E) (F := F) modes A l]
      rfl

theorem sim_recordIndices : ∀ (l : List (Nat × SegmentEnd)) (i : Nat) {A : Arena ℤ}, Quiet E F A →
    Sim (Quiet E F) (asArena E) (asArena F) (recordIndices i l (asArena E A)) (recordIndices i l (asArena F A))
  | [], _, A, hA => Sim.ok A hA
  | (j, e) :: l, i, A, hA => by
    unfold recordIndices
    refine (sim_index A j).bind fun s _ => ?_
    exact (sim_setPacket Quiet.set hA j _).bind fun A' hA' => sim_recordIndices l (i + 1) hA'

theorem firstAt_lf {A : Arena ℤ} (hA : SmallA A) {p : Pt ℤ} (hp : Small (sPt p)) : ∀ (l : List (Nat × SegmentEnd)) (i : Nat),
    firstAt (asArena E A) (asPt E p) i l = firstAt (asArena F A) (asPt F p) i l
  | [], _ => rfl
  | (j, e) :: l, i => by
    unfold firstAt
    cases h : A[j]? with
    | none => rw [index_lfA_none h, index_lfA_none h]; rfl
    | some s =>
      have hs := (hA s (List.mem_of_getElem? h)).pointAt e
      rw [index_lfA h, index_lfA h]
      simp only [Res.bind_ok, lfS_pointAt, lf_beq hs hp, firstAt_lf hA hp l]

/-- The state of the search: nothing found yet, or the endpoint at position `pos`, which leads from `b` to `a`. -/
def nextSt (F : Type) [FloatOps F] (cv : Pt F) : Option (Nat × Pt ℤ × Pt ℤ) → NextState F
  | none => ⟨nan, none, false⟩
  | some (pos, a, b) => ⟨div (cv.dot ((asPt F a).sub (asPt F b))) ((asPt F a).sub (asPt F b)).length, some pos, lt (ofInt 0) (cv.cross ((asPt F a).sub (asPt F b)))⟩

theorem consider_none {F : Type} [FloatOps F] (cv : Pt F) (a b : Pt ℤ) (pos : Nat) :
    considerNext cv ((asPt F a).sub (asPt F b)) pos (nextSt F cv none) = nextSt F cv (some (pos, a, b)) := by
  unfold considerNext nextSt
  dsimp only
  cases lt (ofInt 0) (cv.cross ((asPt F a).sub (asPt F b))) <;> rfl

theorem turn_lf {p q a b : Pt ℤ} (hp : Small (sPt p)) (hq : Small (sPt q)) (ha : Small (sPt a)) (hb : Small (sPt b)) :
    lt (ofInt 0) (((asPt F p).sub (asPt F q)).cross ((asPt F a).sub (asPt F b))) = decide (0 < zTurn p q a b) := by
  have h1 := (lf_ptB (F := F) hp).sub (lf_ptB hq) (by norm_num)
  have h2 := (lf_ptB (F := F) ha).sub (lf_ptB hb) (by norm_num)
  exact IntVal.lt (IntVal.ofInt 0 (by norm_num)) (h1.cross h2 (by norm_num) (by norm_num)).1

/-- A further candidate: both arithmetics take the same one. -/
theorem consider_some {p q a b a' b' : Pt ℤ} (hp : Small (sPt p)) (hq : Small (sPt q)) (ha : Small (sPt a)) (hb : Small (sPt b)) (ha' : Small (sPt a')) (hb' : Small (sPt b'))
    (h1 : (0 < zTurn p q a b ↔ 0 < zTurn p q a' b') → lt (cosOf E p q a b) (cosOf E p q a' b') = lt (cosOf F p q a b) (cosOf F p q a' b'))
    (h2 : (0 < zTurn p q a' b' ↔ 0 < zTurn p q a b) → lt (cosOf E p q a' b') (cosOf E p q a b) = lt (cosOf F p q a' b') (cosOf F p q a b)) (pos pos' : Nat) :
    ∃ w, (w = some (pos, a, b) ∨ w = some (pos', a', b')) ∧
      considerNext ((asPt E p).sub (asPt E q)) ((asPt E a).sub (asPt E b)) pos (nextSt E ((asPt E p).sub (asPt E q)) (some (pos', a', b'))) = nextSt E ((asPt E p).sub (asPt E q)) w ∧
      considerNext ((asPt F p).sub (asPt F q)) ((asPt F a).sub (asPt F b)) pos (nextSt F ((asPt F p).sub (asPt F q)) (some (pos', a', b'))) = nextSt F ((asPt F p).sub (asPt F q)) w := by
  have e : ∀ (K : Type) [FloatOps K] [IntVal K], considerNext ((asPt K p).sub (asPt K q)) ((asPt K a).sub (asPt K b)) pos (nextSt K ((asPt K p).sub (asPt K q)) (some (pos', a', b'))) =
      if (decide (0 < zTurn p q a b) && !decide (0 < zTurn p q a' b')) then nextSt K ((asPt K p).sub (asPt K q)) (some (pos, a, b))
      else if (!decide (0 < zTurn p q a b) && decide (0 < zTurn p q a' b')) then nextSt K ((asPt K p).sub (asPt K q)) (some (pos', a', b'))
      else if (decide (0 < zTurn p q a b) && lt (cosOf K p q a b) (cosOf K p q a' b')) || (!decide (0 < zTurn p q a b) && lt (cosOf K p q a' b') (cosOf K p q a b)) then
        nextSt K ((asPt K p).sub (asPt K q)) (some (pos, a, b))
      else nextSt K ((asPt K p).sub (asPt K q)) (some (pos', a', b')) := by
    intro K _ _
    unfold considerNext nextSt
    dsimp only
    have t1 := turn_lf (F := K) hp hq ha hb
    have t2 := turn_lf (F := K) hp hq ha' hb'
    by_cases x : 0 < zTurn p q a b <;> by_cases y : 0 < zTurn p q a' b' <;> simp only [x, y, decide_true, decide_false] at t1 t2 <;> simp [x, y, t1, t2, cosOf]
  rw [e E, e F]
  by_cases x : 0 < zTurn p q a b <;> by_cases y : 0 < zTurn p q a' b' <;> simp only [x, y, decide_true, decide_false, Bool.not_true, Bool.not_false, Bool.and_true, Bool.and_false, Bool.true_and, Bool.false_and, Bool.or_false, Bool.false_or, Bool.false_eq_true, if_true, if_false]
  · rw [h1 (by simp [x, y])]
    by_cases z : lt (cosOf F p q a b) (cosOf F p q a' b') = true
    · exact ⟨_, Or.inl rfl, by rw [if_pos z], by rw [if_pos z]⟩
    · exact ⟨_, Or.inr rfl, by rw [if_neg z], by rw [if_neg z]⟩
  · exact ⟨_, Or.inl rfl, rfl, rfl⟩
  · exact ⟨_, Or.inr rfl, rfl, rfl⟩
  · rw [h2 (by simp [x, y])]
    by_cases z : lt (cosOf F p q a' b') (cosOf F p q a b) = true
    · exact ⟨_, Or.inl rfl, by rw [if_pos z], by rw [if_pos z]⟩
    · exact ⟨_, Or.inr rfl, by rw [if_neg z], by rw [if_neg z]⟩

theorem sim_searchNext {A : Arena ℤ} (hA : Quiet E F A) (cur : Nat) {i : Nat} {d : SegmentEnd} {c : BoolSegment ℤ} (hc : A[i]? = some c) :
    ∀ (l : List (Nat × SegmentEnd)) (pos : Nat) (w : Option (Nat × Pt ℤ × Pt ℤ)),
      (∀ pos a b, w = some (pos, a, b) → ∃ (k : Nat) (u : BoolSegment ℤ) (e : SegmentEnd), A[k]? = some u ∧ i ≠ k ∧ c.otherPointAt d = u.pointAt e ∧ a = u.otherPointAt e ∧ b = u.pointAt e) →
      Sim (fun _ => True) (nextSt E ((asPt E (c.otherPointAt d)).sub (asPt E (c.pointAt d)))) (nextSt F ((asPt F (c.otherPointAt d)).sub (asPt F (c.pointAt d))))
        (searchNext (asArena E A) cur (i, d) ((asPt E (c.otherPointAt d)).sub (asPt E (c.pointAt d))) (asPt E (c.otherPointAt d)) pos l (nextSt E ((asPt E (c.otherPointAt d)).sub (asPt E (c.pointAt d))) w))
        (searchNext (asArena F A) cur (i, d) ((asPt F (c.otherPointAt d)).sub (asPt F (c.pointAt d))) (asPt F (c.otherPointAt d)) pos l (nextSt F ((asPt F (c.otherPointAt d)).sub (asPt F (c.pointAt d))) w))
  | [], pos, w, _ => Sim.ok w trivial
  | (j, e) :: l, pos, w, hw => by
    unfold searchNext
    cases h : A[j]? with
    | none => rw [index_lfA_none h, index_lfA_none h]; exact Sim.panic
    | some s =>
      have hs := hA.small s (List.mem_of_getElem? h)
      have hcs := hA.small c (List.mem_of_getElem? hc)
      rw [index_lfA h, index_lfA h]
      dsimp only
      rw [index_lfA hc, index_lfA hc]
      simp only [Res.bind_ok]
      have hd : ∀ (K : Type) [FloatOps K], (asSeg K s).data = s.data := fun K _ => rfl
      rw [hd E, hd F]
      refine Sim.ite (fun _ => sim_searchNext hA cur hc l (pos + 1) w hw) fun _ => ?_
      have ho : endpointOrder (pos = cur) (asSeg E s) e (asSeg E c) d = endpointOrder (pos = cur) (asSeg F s) e (asSeg F c) d := by
        unfold endpointOrder
        rw [endpointCmp_lf (E := E) (F := F) hs hcs]
      rw [ho]
      refine (Sim.refl _).bind fun o _ => ?_
      refine Sim.ite (fun _ => sim_searchNext hA cur hc l (pos + 1) w hw) fun _ => ?_
      rw [cmp_lf (E := E) (F := F) hs hcs]
      refine (Sim.refl' rfl).bind fun o ho' => ?_
      refine Sim.ite (fun _ => sim_searchNext hA cur hc l (pos + 1) w hw) fun hne => ?_
      simp only [lfS_pointAt, lfS_otherPointAt]
      rw [lf_beq (hcs.otherPointAt d) (hs.pointAt e), lf_beq (hcs.otherPointAt d) (hs.pointAt e)]
      refine Sim.ite (fun heq => ?_) fun _ => Sim.ok w trivial
      have heq := of_decide_eq_true heq
      have hij : i ≠ j := by
        rintro rfl
        rw [hc] at h
        cases h
        apply hne
        unfold SweepSegment.cmp at ho'
        rw [if_pos rfl] at ho'
        cases ho'
        rfl
      have key : ∃ w', (∀ pos a b, w' = some (pos, a, b) → ∃ (k : Nat) (u : BoolSegment ℤ) (e : SegmentEnd), A[k]? = some u ∧ i ≠ k ∧ c.otherPointAt d = u.pointAt e ∧ a = u.otherPointAt e ∧ b = u.pointAt e) ∧
          considerNext ((asPt E (c.otherPointAt d)).sub (asPt E (c.pointAt d))) ((asPt E (s.otherPointAt e)).sub (asPt E (s.pointAt e))) pos (nextSt E ((asPt E (c.otherPointAt d)).sub (asPt E (c.pointAt d))) w) = nextSt E ((asPt E (c.otherPointAt d)).sub (asPt E (c.pointAt d))) w' ∧
          considerNext ((asPt F (c.otherPointAt d)).sub (asPt F (c.pointAt d))) ((asPt F (s.otherPointAt e)).sub (asPt F (s.pointAt e))) pos (nextSt F ((asPt F (c.otherPointAt d)).sub (asPt F (c.pointAt d))) w) = nextSt F ((asPt F (c.otherPointAt d)).sub (asPt F (c.pointAt d))) w' := by
        rcases w with _ | ⟨pos', a, b⟩
        · refine ⟨some (pos, s.otherPointAt e, s.pointAt e), ?_, consider_none _ _ _ _, consider_none _ _ _ _⟩
          rintro _ _ _ ⟨⟩
          exact ⟨j, s, e, h, hij, heq, rfl, rfl⟩
        · obtain ⟨k, u, e', hu, hik, hp, rfl, rfl⟩ := hw _ _ _ rfl
          have hus := hA.small u (List.mem_of_getElem? hu)
          obtain ⟨w', h1, h2, h3⟩ := consider_some (E := E) (F := F) (hcs.otherPointAt d) (hcs.pointAt d) (hs.otherPointAt e) (hs.pointAt e) (hus.otherPointAt e') (hus.pointAt e')
            (hA.turn i j k c s u d e e' hc h hu hij hik heq hp) (hA.turn i k j c u s d e' e hc hu h hik hij hp heq) pos pos'
          refine ⟨w', ?_, h2, h3⟩
          rcases h1 with rfl | rfl
          · rintro _ _ _ ⟨⟩
            exact ⟨j, s, e, h, hij, heq, rfl, rfl⟩
          · exact hw
      obtain ⟨w', hw', e1, e2⟩ := key
      rw [e1, e2]
      exact sim_searchNext hA cur hc l (pos + 1) w' hw'

theorem sim_findNext {A : Arena ℤ} (hA : Quiet E F A) (included : List (Nat × SegmentEnd)) (cur : Nat) :
    Sim (fun _ => True) id id (findNextSegment (asArena E A) included cur) (findNextSegment (asArena F A) included cur) := by
  unfold findNextSegment
  refine (Sim.refl (index included cur)).bind fun x _ => ?_
  obtain ⟨i, d⟩ := x
  refine (sim_index A i).bind fun c hc => ?_
  have hcs := hA.small c (List.mem_of_getElem? hc)
  simp only [lfS_pointAt, lfS_otherPointAt, id]
  rw [firstAt_lf (E := E) (F := F) hA.small (hcs.otherPointAt d)]
  refine (Sim.refl _).bind fun start _ => ?_
  refine (sim_searchNext hA cur hc (included.drop start) start none (by simp)).bind fun w _ => ?_
  rcases w with _ | ⟨pos, a, b⟩
  · exact Sim.panic
  · exact Sim.ok (m1 := id) (m2 := id) pos trivial

/-- What is traced: the segments and a contour. -/
def asWalk (F : Type) [FloatOps F] (r : Arena ℤ × Contour ℤ × Nat) : Arena F × Contour F × Nat := (asArena F r.1, asContour F r.2.1, r.2.2)

theorem sim_traceContour (included : List (Nat × SegmentEnd)) (id' : Nat) {p : Pt ℤ} (hp : Small (sPt p)) : ∀ (fuel : Nat) {A : Arena ℤ} {c : Contour ℤ} (cur : Nat),
    Quiet E F A → SmallC c → c.is_clockwise = none →
    Sim (fun r => Quiet E F r.1 ∧ SmallC r.2.1 ∧ r.2.1.is_clockwise = none) (asWalk E) (asWalk F)
      (traceContour included id' (asPt E p) fuel (asArena E A) (asContour E c) cur) (traceContour included id' (asPt F p) fuel (asArena F A) (asContour F c) cur)
  | 0, A, c, cur, _, _, _ => fun y hy => by cases hy
  | fuel + 1, A, c, cur, hA, hc, hn => by
    unfold traceContour
    refine (Sim.refl (index included cur)).bind fun x _ => ?_
    obtain ⟨i, d⟩ := x
    simp only [id]
    refine (sim_index A i).bind fun s hs => ?_
    have hss := hA.small s (List.mem_of_getElem? hs)
    have hd : ∀ (K : Type) [FloatOps K], (asSeg K s).data = s.data := fun K _ => rfl
    have hf : ∀ (K : Type) [FloatOps K], (asContour K c).from_polygons = c.from_polygons := fun K _ => rfl
    rw [hd E, hd F, hf E, hf F]
    refine (Sim.refl _).bind fun flags _ => ?_
    refine (sim_setPacket Quiet.set hA i _).bind fun A' hA' => ?_
    simp only [lfS_otherPointAt, id]
    rw [lf_beq (hss.otherPointAt d) hp, lf_beq (hss.otherPointAt d) hp]
    refine Sim.ite (fun _ => Sim.ok (m1 := asWalk E) (m2 := asWalk F) (A', { c with from_polygons := flags }, cur) ⟨hA', hc, hn⟩) fun _ => ?_
    refine (sim_findNext hA' included cur).bind fun next _ => ?_
    have e : ∀ (K : Type) [FloatOps K], Contour.add { asContour K c with from_polygons := flags } (asPt K (s.otherPointAt d)) =
        asContour K (⟨c.points ++ [s.otherPointAt d], c.holes, flags, c.neighbors, c.external, c.is_clockwise⟩) := fun K _ => by
      simp [Contour.add, asContour]
    rw [e E, e F]
    refine sim_traceContour included id' hp fuel next hA' ?_ hn
    intro q hq
    rcases List.mem_append.1 hq with hq | hq
    · exact hc q hq
    · rw [List.mem_singleton.1 hq]; exact hss.otherPointAt d

/-! ### The area -/

/-- The sum over the edges. -/
def zAreaSum : ℤ → List (Pt ℤ × Pt ℤ) → ℤ
  | a, [] => a
  | a, (p, q) :: rest => zAreaSum (a + (p.x * q.y - p.y * q.x)) rest

theorem areaLoop_int : ∀ (l : List (Pt ℤ × Pt ℤ)) (a : F) (n : ℤ) (b : ℤ), IntB a n b → (∀ e ∈ l, Small (sPt e.1) ∧ Small (sPt e.2)) → b + 2 ^ 31 * l.length ≤ 2 ^ 53 →
    IntB (areaLoop a (l.map fun e => (asPt F e.1, asPt F e.2))) (zAreaSum n l) (b + 2 ^ 31 * l.length)
  | [], a, n, b, h, _, _ => by simpa [areaLoop, zAreaSum] using h
  | (p, q) :: l, a, n, b, h, hs, hb => by
    obtain ⟨hp, hq⟩ := hs (p, q) (List.mem_cons_self ..)
    have hc := (lf_ptB (F := F) hp).cross (lf_ptB hq) (by norm_num) (by norm_num)
    rw [List.length_cons] at hb ⊢
    push_cast at hb ⊢
    have hl : (0 : ℤ) ≤ l.length := Int.natCast_nonneg _
    have := h.add hc (by norm_num at *; nlinarith)
    have := areaLoop_int l _ _ _ this (fun e he => hs e (List.mem_cons_of_mem _ he)) (by norm_num at *; nlinarith)
    simp only [List.map_cons, areaLoop, zAreaSum]
    refine ⟨this.1, this.2.trans (le_of_eq ?_)⟩
    norm_num
    ring

theorem areaOf_int {c : Contour ℤ} (hc : SmallC c) (hl : c.points.length ≤ 2 ^ 21) : (c.points = [] ∧ ∀ (K : Type) [FloatOps K], areaOf (asContour K c).points = .panic .unwrap) ∨
    ∃ n : ℤ, ∀ (K : Type) [FloatOps K] [IntVal K], ∃ a : K, areaOf (asContour K c).points = .ok a ∧ IntVal.isInt a n := by
  cases hp : c.points with
  | nil => left; exact ⟨rfl, fun K _ => by simp [asContour, areaOf, hp, unwrap]⟩
  | cons p ps =>
    right
    obtain ⟨q, hq⟩ : ∃ q, (p :: ps).getLast? = some q := ⟨_, List.getLast?_eq_some_getLast (by simp)⟩
    refine ⟨zAreaSum (q.x * p.y - q.y * p.x) ((p :: ps).zip ((p :: ps).drop 1)), fun K _ _ => ?_⟩
    have hq' : ((p :: ps).map (asPt K)).getLast? = some (asPt K q) := by rw [List.getLast?_map, hq]; rfl
    refine ⟨areaLoop ((asPt K q).cross (asPt K p)) ((asPt K p :: ps.map (asPt K)).zip ((asPt K p :: ps.map (asPt K)).drop 1)), ?_, ?_⟩
    · show areaOf (c.points.map (asPt K)) = _
      rw [hp]
      unfold areaOf
      rw [hq']
      simp only [unwrap, Res.bind_ok, index, List.map_cons, List.getElem?_cons_zero, Res.pure_eq]
    · rw [hp] at hl
      have hsm : ∀ r ∈ p :: ps, Small (sPt r) := fun r hr => hc r (by rw [hp]; exact hr)
      have e : (asPt K p :: ps.map (asPt K)).zip ((asPt K p :: ps.map (asPt K)).drop 1) = ((p :: ps).zip ((p :: ps).drop 1)).map fun e => (asPt K e.1, asPt K e.2) := by
        rw [← List.map_cons, ← List.map_drop, List.zip_map]
        rfl
      rw [e]
      have h0 := (lf_ptB (F := K) (hsm q (List.mem_of_getLast? hq))).cross (lf_ptB (hsm p (List.mem_cons_self ..))) (by norm_num) (by norm_num)
      refine (areaLoop_int _ _ _ _ h0 ?_ ?_).1
      · intro e he
        have := List.of_mem_zip he
        exact ⟨hsm _ this.1, hsm _ (List.mem_of_mem_drop this.2)⟩
      · have : ((p :: ps).zip ((p :: ps).drop 1)).length ≤ 2 ^ 21 := by
          rw [List.length_zip]
          exact (min_le_left _ _).trans hl
        have : (((p :: ps).zip ((p :: ps).drop 1)).length : ℤ) ≤ 2 ^ 21 := by exact_mod_cast this
        norm_num at this ⊢
        omega

theorem sim_clockwise {c : Contour ℤ} (hc : SmallC c) (hn : c.is_clockwise = none) (hl : c.points.length ≤ 2 ^ 21) :
    Sim (fun r : Bool × Contour ℤ => r.2.points = c.points) (fun r => (r.1, asContour E r.2)) (fun r => (r.1, asContour F r.2)) (asContour E c).clockwise (asContour F c).clockwise := by
  have hk : ∀ (K : Type) [FloatOps K], (asContour K c).is_clockwise = none := fun K _ => hn
  unfold Contour.clockwise
  rw [hk E, hk F]
  rcases areaOf_int hc hl with ⟨_, h⟩ | ⟨n, h⟩
  · rw [h E]; exact Sim.panic
  · obtain ⟨a, ha, ia⟩ := h E
    obtain ⟨b, hb, ib⟩ := h F
    dsimp only
    rw [ha, hb]
    simp only [Res.bind_ok]
    rw [IntVal.lt ia (IntVal.ofInt 0 (by norm_num)), IntVal.lt ib (IntVal.ofInt 0 (by norm_num))]
    exact Sim.ok (m1 := fun r : Bool × Contour ℤ => (r.1, asContour E r.2)) (m2 := fun r => (r.1, asContour F r.2)) (decide (n < 0), { c with is_clockwise := some (decide (n < 0)) }) rfl

end

/-! ### All contours -/

section

variable {E F : Type} [FloatOps E] [IntVal E] [FloatOps F] [IntVal F]

theorem map_set_again {A B : Type} (f : A → B) {l : List A} {i : Nat} {a : A} (h : l[i]? = some a) : (l.map f).set i (f a) = l.map f := by
  apply List.ext_getElem?
  intro j
  rw [List.getElem?_set, List.getElem?_map]
  split
  · rename_i hij
    subst hij
    rw [h]
    simp [(List.getElem?_eq_some_iff.1 h).1]
  · rfl

theorem sim_modify {E F : Type} [FloatOps E] [FloatOps F] {f1 : Contour E → Res (Contour E)} {f2 : Contour F → Res (Contour F)} (cs : List (Contour ℤ)) (i : Nat)
    (h : ∀ c : Contour ℤ, Sim (fun c' : Contour ℤ => c'.points = c.points) (asContour E) (asContour F) (f1 (asContour E c)) (f2 (asContour F c))) :
    Sim (fun cs' : List (Contour ℤ) => cs'.map (·.points) = cs.map (·.points)) (List.map (asContour E)) (List.map (asContour F))
      (modifyContour (cs.map (asContour E)) i f1) (modifyContour (cs.map (asContour F)) i f2) := by
  unfold modifyContour
  rw [index_lf, index_lf]
  cases hc : cs[i]? with
  | none => exact Sim.panic
  | some c =>
    simp only [Res.bind_ok]
    refine (h c).bind fun c' hc' => ?_
    have e : ∀ (K : Type) [FloatOps K], (cs.map (asContour K)).set i (asContour K c') = (cs.set i c').map (asContour K) := fun K _ => by rw [List.map_set]
    rw [e E, e F]
    refine Sim.ok (m1 := List.map (asContour E)) (m2 := List.map (asContour F)) (cs.set i c') ?_
    show (cs.set i c').map (·.points) = _
    rw [List.map_set, hc']
    exact map_set_again _ hc

/-- The segments and the contours. -/
def asTraced (F : Type) [FloatOps F] (r : Arena ℤ × List (Contour ℤ)) : Arena F × List (Contour F) := (asArena F r.1, r.2.map (asContour F))

theorem sim_traceStep (fuel : Nat) (included : List (Nat × SegmentEnd)) {A : Arena ℤ} (hA : Quiet E F A) (cs : List (Contour ℤ)) (x : Nat × SegmentEnd)
    (hb : ∀ y, traceStep fuel included (asArena E A) (cs.map (asContour E)) x = .ok y → ∀ c ∈ y.2, c.points.length ≤ 2 ^ 21) :
    Sim (fun r => Quiet E F r.1 ∧ cs.map (·.points) <+: r.2.map (·.points)) (asTraced E) (asTraced F)
      (traceStep fuel included (asArena E A) (cs.map (asContour E)) x) (traceStep fuel included (asArena F A) (cs.map (asContour F)) x) := by
  revert hb
  unfold traceStep
  intro hb y hy
  have hb := hb y hy
  revert hb
  revert y
  cases h : A[x.1]? with
  | none =>
    intro y hy
    rw [index_lfA_none h] at hy
    cases hy
  | some s =>
    have hs := hA.small s (List.mem_of_getElem? h)
    rw [index_lfA h, index_lfA h]
    simp only [Res.bind_ok]
    have hd : ∀ (K : Type) [FloatOps K], (asSeg K s).data = s.data := fun K _ => rfl
    have hl : ∀ (K : Type) [FloatOps K], (asSeg K s).left_point = asPt K s.left_point := fun K _ => rfl
    have hcl : ∀ (K : Type) [FloatOps K], (cs.map (asContour K)).length = cs.length := fun K _ => List.length_map ..
    rw [hd E, hd F, hl E, hl F, hcl E, hcl F]
    by_cases hp : s.data.isProcessed x.2 = true
    · rw [if_pos hp, if_pos hp]
      intro y hy _
      exact Sim.ok (m1 := asTraced E) (m2 := asTraced F) (P := fun r => Quiet E F r.1 ∧ cs.map (·.points) <+: r.2.map (·.points)) (A, cs) ⟨hA, List.prefix_refl _⟩ y hy
    · rw [if_neg hp, if_neg hp]
      have e0 : ∀ (K : Type) [FloatOps K], Contour.add { (Contour.new : Contour K) with from_polygons := s.data.faces x.2 } (asPt K s.left_point) =
          asContour K ⟨[s.left_point], [], s.data.faces x.2, [], true, none⟩ := fun K _ => rfl
      rw [e0 E, e0 F]
      intro y hy hb
      obtain ⟨r, hr, hy⟩ := Res.bind_eq_ok hy
      obtain ⟨⟨A1, c, last⟩, ⟨hA1, hc, hn⟩, rfl, hr2⟩ := sim_traceContour (E := E) (F := F) included cs.length hs.left fuel s.data.left_index hA
        (c := ⟨[s.left_point], [], s.data.faces x.2, [], true, none⟩) (by
          intro q hq
          rw [List.mem_singleton.1 hq]; exact hs.left) rfl r hr
      rw [hr2, Res.bind_ok]
      simp only [asWalk] at hy ⊢
      obtain ⟨⟨cw, c1⟩, hcw, hy⟩ := Res.bind_eq_ok hy
      have hpts : c1.points = (asContour E c).points := by
        revert hcw
        unfold Contour.clockwise
        rw [show (asContour E c).is_clockwise = none from hn]
        dsimp only
        intro hcw
        obtain ⟨a, _, hcw⟩ := Res.bind_eq_ok hcw
        cases hcw
        rfl
      -- its points are in the result
      have hlen : c.points.length ≤ 2 ^ 21 := by
        have hin : ∃ c' ∈ y.2, c'.points = c1.points := by
          have base : c1.points ∈ (List.map (asContour E) cs ++ [c1]).map (·.points) := by simp
          have mod : ∀ (l l' : List (Contour E)) i (f : Contour E → Contour E), (∀ c, (f c).points = c.points) → modifyContour l i (fun c => .ok (f c)) = .ok l' →
              l'.map (·.points) = l.map (·.points) := by
            intro l l' i f hf hm
            unfold modifyContour at hm
            obtain ⟨c0, h0, hm⟩ := Res.bind_eq_ok hm
            rw [Res.bind_ok] at hm
            cases hm
            have h0 := index_eq_ok h0
            rw [List.map_set, hf]
            exact map_set_again _ h0
          have fin : ∀ l' : List (Contour E), c1.points ∈ l'.map (·.points) → ∃ c' ∈ l', c'.points = c1.points := by
            intro l' hl'
            obtain ⟨c', h1, h2⟩ := List.mem_map.1 hl'
            exact ⟨c', h1, h2⟩
          dsimp only at hy
          by_cases hcw' : cw = true
          · rw [if_pos hcw'] at hy
            obtain ⟨z, _, hy⟩ := Res.bind_eq_ok hy
            obtain ⟨s', _, hy⟩ := Res.bind_eq_ok hy
            cases hbr : s'.data.below_in_result with
            | none =>
              rw [hbr] at hy
              cases hy
              exact fin _ base
            | some b =>
              rw [hbr] at hy
              obtain ⟨below, _, hy⟩ := Res.bind_eq_ok hy
              obtain ⟨parent, _, hy⟩ := Res.bind_eq_ok hy
              obtain ⟨l1, h1, hy⟩ := Res.bind_eq_ok hy
              obtain ⟨l2, h2, hy⟩ := Res.bind_eq_ok hy
              cases hy
              apply fin
              dsimp only
              rw [mod l1 l2 _ (fun c => c.setExternal false) (fun _ => rfl) h2, mod _ l1 _ (fun c => c.addHole cs.length) (fun _ => rfl) h1]
              exact base
          · rw [if_neg hcw'] at hy
            cases hy
            exact fin _ base
        obtain ⟨c', hc', e⟩ := hin
        have := hb c' hc'
        rw [e, hpts] at this
        simpa [asContour] using this
      obtain ⟨⟨cw', c2⟩, hc2, e2, hcw2⟩ := sim_clockwise (E := E) (F := F) hc hn hlen _ hcw
      simp only [Prod.mk.injEq] at e2
      obtain ⟨rfl, rfl⟩ := e2
      rw [hcw2, Res.bind_ok]
      dsimp only at hy ⊢
      have e1 : ∀ (K : Type) [FloatOps K], cs.map (asContour K) ++ [asContour K c2] = (cs ++ [c2]).map (asContour K) := fun K _ => by simp
      rw [e1 E] at hy
      rw [e1 F]
      have hpre : cs.map (·.points) <+: (cs ++ [c2]).map (·.points) := by simp
      suffices hsim : Sim (fun r => Quiet E F r.1 ∧ cs.map (·.points) <+: r.2.map (·.points)) (asTraced E) (asTraced F) _ _ from hsim y hy
      refine Sim.ite (fun _ => ?_) (fun _ => ?_)
      · refine (Sim.refl (index included last)).bind fun z _ => ?_
        refine (sim_index A1 z.1).bind fun s' _ => ?_
        rw [show (asSeg E s').data = s'.data from rfl, show (asSeg F s').data = s'.data from rfl]
        cases s'.data.below_in_result with
        | none => exact Sim.ok (m1 := asTraced E) (m2 := asTraced F) (A1, cs ++ [c2]) ⟨hA1, hpre⟩
        | some b =>
          dsimp only
          refine (sim_index A1 b).bind fun below _ => ?_
          rw [show (asSeg E below).data = below.data from rfl, show (asSeg F below).data = below.data from rfl]
          refine (Sim.refl (unwrap below.data.left_contour_id)).bind fun parent _ => ?_
          refine (sim_modify (E := E) (F := F) (f1 := fun c => .ok (c.addHole cs.length)) (f2 := fun c => .ok (c.addHole cs.length)) (cs ++ [c2]) parent fun c0 =>
            Sim.ok (m1 := asContour E) (m2 := asContour F) (P := fun c' : Contour ℤ => c'.points = c0.points) (c0.addHole cs.length) rfl).bind fun l1 h1 => ?_
          refine (sim_modify (E := E) (F := F) (f1 := fun c => .ok (c.setExternal false)) (f2 := fun c => .ok (c.setExternal false)) l1 cs.length fun c0 =>
            Sim.ok (m1 := asContour E) (m2 := asContour F) (P := fun c' : Contour ℤ => c'.points = c0.points) (c0.setExternal false) rfl).bind fun l2 h2 => ?_
          refine Sim.ok (m1 := asTraced E) (m2 := asTraced F) (A1, l2) ⟨hA1, ?_⟩
          show _ <+: l2.map (·.points)
          rw [h2, h1]
          exact hpre
      · exact Sim.ok (m1 := asTraced E) (m2 := asTraced F) (A1, cs ++ [c2]) ⟨hA1, hpre⟩

end

section

variable {E F : Type} [FloatOps E] [IntVal E] [FloatOps F] [IntVal F]

/-- Contours, once traced, keep their points. -/
theorem traceStep_points {E : Type} [FloatOps E] {fuel : Nat} {included : List (Nat × SegmentEnd)} {A A' : Arena E} {cs cs' : List (Contour E)} {x : Nat × SegmentEnd}
    (h : traceStep fuel included A cs x = .ok (A', cs')) : cs.map (·.points) <+: cs'.map (·.points) := by
  have mod : ∀ (l l' : List (Contour E)) i (f : Contour E → Contour E), (∀ c, (f c).points = c.points) → modifyContour l i (fun c => .ok (f c)) = .ok l' →
      l'.map (·.points) = l.map (·.points) := by
    intro l l' i f hf hm
    unfold modifyContour at hm
    obtain ⟨c0, h0, hm⟩ := Res.bind_eq_ok hm
    rw [Res.bind_ok] at hm
    cases hm
    rw [List.map_set, hf]
    exact map_set_again _ (index_eq_ok h0)
  unfold traceStep at h
  obtain ⟨s, _, h⟩ := Res.bind_eq_ok h
  split at h
  · cases h; exact List.prefix_refl _
  · obtain ⟨⟨A1, c, last⟩, _, h⟩ := Res.bind_eq_ok h
    obtain ⟨⟨cw, c1⟩, _, h⟩ := Res.bind_eq_ok h
    have base : cs.map (·.points) <+: (cs ++ [c1]).map (·.points) := by simp
    dsimp only at h
    by_cases hcw' : cw = true
    · rw [if_pos hcw'] at h
      obtain ⟨z, _, h⟩ := Res.bind_eq_ok h
      obtain ⟨s', _, h⟩ := Res.bind_eq_ok h
      cases hbr : s'.data.below_in_result with
      | none =>
        rw [hbr] at h
        cases h
        exact base
      | some b =>
        rw [hbr] at h
        obtain ⟨below, _, h⟩ := Res.bind_eq_ok h
        obtain ⟨parent, _, h⟩ := Res.bind_eq_ok h
        obtain ⟨l1, h1, h⟩ := Res.bind_eq_ok h
        obtain ⟨l2, h2, h⟩ := Res.bind_eq_ok h
        cases h
        rw [mod l1 cs' _ (fun c => c.setExternal false) (fun _ => rfl) h2, mod _ l1 _ (fun c => c.addHole cs.length) (fun _ => rfl) h1]
        exact base
    · rw [if_neg hcw'] at h
      cases h
      exact base

theorem traceAll_points {E : Type} [FloatOps E] {fuel : Nat} {included : List (Nat × SegmentEnd)} : ∀ (l : List (Nat × SegmentEnd)) {A A' : Arena E} {cs cs' : List (Contour E)},
    traceAll fuel included l A cs = .ok (A', cs') → cs.map (·.points) <+: cs'.map (·.points)
  | [], _, _, _, _, h => by cases h; exact List.prefix_refl _
  | x :: l, A, A', cs, cs', h => by
    unfold traceAll at h
    obtain ⟨⟨A1, cs1⟩, h1, h⟩ := Res.bind_eq_ok h
    exact (traceStep_points h1).trans (traceAll_points l h)

theorem sim_traceAll (fuel : Nat) (included : List (Nat × SegmentEnd)) : ∀ (l : List (Nat × SegmentEnd)) {A : Arena ℤ}, Quiet E F A → ∀ cs : List (Contour ℤ),
    (∀ y, traceAll fuel included l (asArena E A) (cs.map (asContour E)) = .ok y → ∀ c ∈ y.2, c.points.length ≤ 2 ^ 21) →
    Sim (fun r => Quiet E F r.1) (asTraced E) (asTraced F) (traceAll fuel included l (asArena E A) (cs.map (asContour E))) (traceAll fuel included l (asArena F A) (cs.map (asContour F)))
  | [], A, hA, cs, _ => Sim.ok (m1 := asTraced E) (m2 := asTraced F) (A, cs) hA
  | x :: l, A, hA, cs, hb => by
    intro y hy
    have hb := hb y hy
    unfold traceAll at hy ⊢
    obtain ⟨y1, h1, hy⟩ := Res.bind_eq_ok hy
    have hb1 : ∀ z, traceStep fuel included (asArena E A) (cs.map (asContour E)) x = .ok z → ∀ c ∈ z.2, c.points.length ≤ 2 ^ 21 := by
      intro z hz c hc
      rw [h1] at hz
      cases hz
      have hpre := traceAll_points l (cs := y1.2) (cs' := y.2) (A := y1.1) (A' := y.1) hy
      have hm : c.points ∈ y.2.map (·.points) := hpre.subset (List.mem_map.2 ⟨c, hc, rfl⟩)
      obtain ⟨c', hc', e⟩ := List.mem_map.1 hm
      rw [← e]
      exact hb c' hc'
    obtain ⟨⟨A1, cs1⟩, ⟨hA1, _⟩, rfl, h2⟩ := sim_traceStep fuel included hA cs x hb1 y1 h1
    rw [h2, Res.bind_ok]
    exact sim_traceAll fuel included l hA1 cs1 (fun z hz => by
      have hz' : traceAll fuel included l (asArena E A1) (cs1.map (asContour E)) = .ok y := hy
      rw [hz'] at hz
      cases hz
      exact hb) y hy

theorem sim_setNeighbor {E F : Type} [FloatOps E] [FloatOps F] (cs : List (Contour ℤ)) (i j : Nat) :
    Sim (fun _ => True) (List.map (asContour E)) (List.map (asContour F)) (setNeighbor (cs.map (asContour E)) i j) (setNeighbor (cs.map (asContour F)) i j) := by
  unfold setNeighbor
  refine (sim_modify cs i fun c => ?_).mono fun _ _ => trivial
  refine (Sim.refl (bvSet c.neighbors j true)).bind fun n _ => ?_
  exact Sim.ok (m1 := asContour E) (m2 := asContour F) { c with neighbors := n } rfl

theorem sim_assignNeighbors {E F : Type} [FloatOps E] [FloatOps F] (A : Arena ℤ) : ∀ (l : List (Nat × SegmentEnd)) (cs : List (Contour ℤ)),
    Sim (fun _ => True) (List.map (asContour E)) (List.map (asContour F)) (assignNeighbors (asArena E A) l (cs.map (asContour E))) (assignNeighbors (asArena F A) l (cs.map (asContour F)))
  | [], cs => Sim.ok (m1 := List.map (asContour E)) (m2 := List.map (asContour F)) cs trivial
  | (i, e) :: l, cs => by
    unfold assignNeighbors
    refine (sim_index A i).bind fun s _ => ?_
    rw [show (asSeg E s).data = s.data from rfl, show (asSeg F s).data = s.data from rfl]
    cases s.data.right_contour_id with
    | none => exact sim_assignNeighbors A l cs
    | some r =>
      cases s.data.left_contour_id with
      | none => exact sim_assignNeighbors A l cs
      | some k =>
        dsimp only
        refine (sim_setNeighbor cs k r).bind fun cs1 _ => ?_
        refine (sim_setNeighbor cs1 r k).bind fun cs2 _ => ?_
        exact sim_assignNeighbors A l cs2

/-- The corners stay the same when neighbours are recorded. -/
theorem assignNeighbors_points {E : Type} [FloatOps E] {A : Arena E} : ∀ (l : List (Nat × SegmentEnd)) {cs cs' : List (Contour E)}, assignNeighbors A l cs = .ok cs' →
    cs'.map (·.points) = cs.map (·.points)
  | [], cs, cs', h => by cases h; rfl
  | (i, e) :: l, cs, cs', h => by
    have mod : ∀ (l l' : List (Contour E)) i j, setNeighbor l i j = .ok l' → l'.map (·.points) = l.map (·.points) := by
      intro l l' i j hm
      unfold setNeighbor modifyContour at hm
      obtain ⟨c0, h0, hm⟩ := Res.bind_eq_ok hm
      obtain ⟨c1, h1, hm⟩ := Res.bind_eq_ok hm
      obtain ⟨n, _, h1⟩ := Res.bind_eq_ok h1
      cases h1
      cases hm
      rw [List.map_set]
      exact map_set_again (fun c : Contour E => c.points) (a := c0) (index_eq_ok h0)
    unfold assignNeighbors at h
    obtain ⟨s, _, h⟩ := Res.bind_eq_ok h
    cases hr : s.data.right_contour_id with
    | none => rw [hr] at h; exact assignNeighbors_points l h
    | some r =>
      cases hk : s.data.left_contour_id with
      | none => rw [hr, hk] at h; exact assignNeighbors_points l h
      | some k =>
        rw [hr, hk] at h
        obtain ⟨cs1, h1, h⟩ := Res.bind_eq_ok h
        obtain ⟨cs2, h2, h⟩ := Res.bind_eq_ok h
        rw [assignNeighbors_points l h, mod _ _ _ _ h2, mod _ _ _ _ h1]

/-- **The whole of `compute`**: if the run with `E` succeeds and its result has at most 2²¹ corners per contour, the run with
`F` gives the same. -/
theorem sim_compute_both (lib : Lib) (fuel : Nat) (polys : List (Polygon ℤ × PolygonMode)) (op : BooleanOpType) (hs : ∀ p ∈ polys, ∀ c ∈ p.1.contours, SmallC c)
    (hq : ∀ st : SweepState ℤ, addPolygons lib polys.length 0 (polys.map fun p => (asPolygon E p.1, p.2)) ⟨[], [], [], []⟩ = .ok (asState E st) →
      addPolygons lib polys.length 0 (polys.map fun p => (asPolygon F p.1, p.2)) ⟨[], [], [], []⟩ = .ok (asState F st) → SmallSt st → Quiet E F st.arena)
    (hb : ∀ r, compute lib fuel (polys.map fun p => (asPolygon E p.1, p.2)) op = .ok r → ∀ c ∈ r.contours, c.points.length ≤ 2 ^ 21) :
    Sim (fun _ => True) (asPolygon E) (asPolygon F) (compute lib fuel (polys.map fun p => (asPolygon E p.1, p.2)) op) (compute lib fuel (polys.map fun p => (asPolygon F p.1, p.2)) op) := by
  intro y hy
  have hb := hb y hy
  unfold compute at hy ⊢
  dsimp only at hy ⊢
  have el : ∀ (K : Type) [FloatOps K], (polys.map fun p => (asPolygon K p.1, p.2)).length = polys.length := fun K _ => List.length_map ..
  have em : ∀ (K : Type) [FloatOps K], ((polys.map fun p => (asPolygon K p.1, p.2)).map fun p => p.2) = polys.map fun p => p.2 := fun K _ => by simp [Function.comp_def]
  rw [el E, em E] at hy
  rw [el F, em F]
  obtain ⟨y1, h1, hy⟩ := Res.bind_eq_ok hy
  have s0 : SmallSt (⟨[], [], [], []⟩ : SweepState ℤ) := fun s hs => by cases hs
  obtain ⟨st, hst, rfl, h1'⟩ := addPolygons_lf (E := E) (F := F) lib polys.length polys 0 ⟨[], [], [], []⟩ hs s0 y1 h1
  rw [show (⟨[], [], [], []⟩ : SweepState F) = asState F ⟨[], [], [], []⟩ from rfl, h1', Res.bind_ok]
  have hQ : QuietSt E F st := hq st h1 h1' hst
  obtain ⟨y2, h2, hy⟩ := Res.bind_eq_ok hy
  obtain ⟨st2, hst2, rfl, h2'⟩ := sim_sweepLoop lib polys.length fuel hQ y2 h2
  rw [h2', Res.bind_ok]
  obtain ⟨⟨segs, ends⟩, h3, hy⟩ := Res.bind_eq_ok hy
  have h3' : includeSegments (polys.map fun p => p.2) (asArena F st2.arena) st2.swept [] [] = .ok (segs, ends) :=
    (includeSegments_lf (E := E) (F := F) _ _ _ _ _).symm.trans h3
  rw [show includeSegments (polys.map fun p => p.2) (asState F st2).arena (asState F st2).swept [] [] = .ok (segs, ends) from h3', Res.bind_ok]
  obtain ⟨sorted, h4, hy⟩ := Res.bind_eq_ok hy
  have c1 : (asState E st2).arena.segCmp = (asState F st2).arena.segCmp := segCmp_lf E F hst2.small
  have c2 : (asState E st2).arena.endCmp = (asState F st2).arena.endCmp := endCmp_lf E F hst2.small
  rw [c1] at h4
  dsimp only at h4 hy ⊢
  rw [h4, Res.bind_ok]
  obtain ⟨included, h5, hy⟩ := Res.bind_eq_ok hy
  rw [c2] at h5
  rw [h5, Res.bind_ok]
  obtain ⟨y6, h6, hy⟩ := Res.bind_eq_ok hy
  obtain ⟨A, hA, rfl, h6'⟩ := sim_recordIndices (E := E) (F := F) included 0 hst2 y6 h6
  rw [show recordIndices 0 included (asState F st2).arena = .ok (asArena F A) from h6', Res.bind_ok]
  obtain ⟨y7, h7, hy⟩ := Res.bind_eq_ok hy
  obtain ⟨cs, h8, hy⟩ := Res.bind_eq_ok hy
  cases hy
  have hb7 : ∀ c ∈ y7.2, c.points.length ≤ 2 ^ 21 := by
    intro c hc
    have := assignNeighbors_points _ h8
    have hm : c.points ∈ cs.map (·.points) := by
      rw [this, List.map_map]
      exact List.mem_map.2 ⟨c, hc, rfl⟩
    obtain ⟨c', hc', e⟩ := List.mem_map.1 hm
    rw [← e]
    exact hb c' hc'
  obtain ⟨⟨A2, cs2⟩, hA2, rfl, h7'⟩ := sim_traceAll (E := E) (F := F) fuel included included hA [] (fun z hz => by
    rw [show traceAll fuel included included (asArena E A) (List.map (asContour E) []) = .ok y7 from h7] at hz
    cases hz
    exact hb7) y7 h7
  rw [show traceAll fuel included included (asArena F A) [] = .ok (asTraced F (A2, cs2)) from h7', Res.bind_ok]
  simp only [asTraced] at h8 ⊢
  have eg : ∀ (K : Type) [FloatOps K], ((cs2.map (asContour K)).map fun c => { c with neighbors := bvGrow c.neighbors (cs2.map (asContour K)).length false }) =
      (cs2.map fun c => { c with neighbors := bvGrow c.neighbors cs2.length false }).map (asContour K) := fun K _ => by
    rw [List.map_map, List.map_map, List.length_map]
    rfl
  rw [eg E] at h8
  rw [eg F]
  obtain ⟨cs3, _, rfl, h8'⟩ := sim_assignNeighbors (E := E) (F := F) A2 included _ cs h8
  rw [h8', Res.bind_ok]
  exact ⟨⟨cs3⟩, trivial, rfl, rfl⟩

theorem sim_compute (lib : Lib) (fuel : Nat) (polys : List (Polygon ℤ × PolygonMode)) (op : BooleanOpType) (hs : ∀ p ∈ polys, ∀ c ∈ p.1.contours, SmallC c)
    (hq : ∀ st : SweepState ℤ, addPolygons lib polys.length 0 (polys.map fun p => (asPolygon E p.1, p.2)) ⟨[], [], [], []⟩ = .ok (asState E st) → SmallSt st → Quiet E F st.arena)
    (hb : ∀ r, compute lib fuel (polys.map fun p => (asPolygon E p.1, p.2)) op = .ok r → ∀ c ∈ r.contours, c.points.length ≤ 2 ^ 21) :
    Sim (fun _ => True) (asPolygon E) (asPolygon F) (compute lib fuel (polys.map fun p => (asPolygon E p.1, p.2)) op) (compute lib fuel (polys.map fun p => (asPolygon F p.1, p.2)) op) :=
  sim_compute_both lib fuel polys op hs (fun st h _ => hq st h) hb

end

end Idc
