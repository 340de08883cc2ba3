import Verif.Props.Trace
import Verif.Props.FloodTotal
import Verif.Props.ComputeExamples
import Verif.Props.Shape
/-!
# C70: tracing the contours ends
-/

namespace Idc

open FloatOps

set_option linter.unusedSectionVars false

variable {F : Type} [FloatOps F]

/-! ### Helpers never loop -/

theorem panic_ne_diverge {α : Type} {p : Panic} : (Res.panic p : Res α) ≠ .diverge := by intro h; cases h

theorem bvSet_ne_diverge {a : List Bool} {i : Nat} {x : Bool} : bvSet a i x ≠ .diverge := by
  unfold bvSet; split
  · exact ok_ne_diverge
  · exact panic_ne_diverge

theorem endpointCmp_ne_diverge {T : Type} {s s' : SweepSegment F T} {e e' : SegmentEnd} : endpointCmp s e s' e' ≠ .diverge := by
  refine Res.bind_ne_diverge unwrap_ne_diverge fun _ _ => Res.bind_ne_diverge unwrap_ne_diverge fun _ _ => ?_
  unfold thenWith
  split
  · exact Res.bind_ne_diverge unwrap_ne_diverge fun _ _ => ok_ne_diverge
  · exact ok_ne_diverge

theorem segmentCmp_ne_diverge {T : Type} {s s' : SweepSegment F T} : s.cmp s' ≠ .diverge := by
  unfold SweepSegment.cmp
  split
  · exact ok_ne_diverge
  · split
    · unfold thenWith
      split
      · exact endpointCmp_ne_diverge
      · exact ok_ne_diverge
    · split
      · exact ok_ne_diverge
      · refine Res.bind_ne_diverge endpointCmp_ne_diverge fun _ _ => ?_
        split <;> exact ok_ne_diverge

theorem arenaEndCmp_ne_diverge {arena : Arena F} {a b : Nat × SegmentEnd} : arena.endCmp a b ≠ .diverge :=
  Res.bind_ne_diverge index_ne_diverge fun _ _ => Res.bind_ne_diverge index_ne_diverge fun _ _ => endpointCmp_ne_diverge

theorem arenaSegCmp_ne_diverge {arena : Arena F} {a b : Nat} : arena.segCmp a b ≠ .diverge :=
  Res.bind_ne_diverge index_ne_diverge fun _ _ => Res.bind_ne_diverge index_ne_diverge fun _ _ => segmentCmp_ne_diverge

theorem setPacket_ne_diverge {arena : Arena F} {i : Nat} {p : SegmentPacket} : arena.setPacket i p ≠ .diverge :=
  Res.bind_ne_diverge index_ne_diverge fun _ _ => ok_ne_diverge

theorem firstAt_ne_diverge {arena : Arena F} {p : Pt F} {l : List (Nat × SegmentEnd)} {i : Nat} : firstAt arena p i l ≠ .diverge := by
  induction l generalizing i with
  | nil => exact panic_ne_diverge
  | cons x l ih =>
    refine Res.bind_ne_diverge index_ne_diverge fun _ _ => ?_
    split
    · exact ok_ne_diverge
    · exact ih

theorem searchNext_ne_diverge {arena : Arena F} {cur : Nat} {ce : Nat × SegmentEnd} {v p : Pt F} {l : List (Nat × SegmentEnd)} {pos : Nat}
    {st : NextState F} : searchNext arena cur ce v p pos l st ≠ .diverge := by
  induction l generalizing pos st with
  | nil => exact ok_ne_diverge
  | cons x l ih =>
    refine Res.bind_ne_diverge index_ne_diverge fun _ _ => Res.bind_ne_diverge index_ne_diverge fun _ _ => ?_
    split
    · exact ih
    · refine Res.bind_ne_diverge ?_ fun _ _ => ?_
      · unfold endpointOrder
        split
        · exact ok_ne_diverge
        · exact endpointCmp_ne_diverge
      · split
        · exact ih
        · refine Res.bind_ne_diverge segmentCmp_ne_diverge fun _ _ => ?_
          split
          · exact ih
          · split
            · exact ih
            · exact ok_ne_diverge

theorem findNext_ne_diverge {arena : Arena F} {included : List (Nat × SegmentEnd)} {cur : Nat} : findNextSegment arena included cur ≠ .diverge := by
  refine Res.bind_ne_diverge index_ne_diverge fun _ _ => Res.bind_ne_diverge index_ne_diverge fun _ _ =>
    Res.bind_ne_diverge firstAt_ne_diverge fun _ _ => Res.bind_ne_diverge searchNext_ne_diverge fun _ _ => ?_
  split
  · exact ok_ne_diverge
  · exact panic_ne_diverge

theorem clockwise_ne_diverge {c : Contour F} : c.clockwise ≠ .diverge := by
  unfold Contour.clockwise
  split
  · exact ok_ne_diverge
  · refine Res.bind_ne_diverge ?_ fun _ _ => ok_ne_diverge
    exact Res.bind_ne_diverge unwrap_ne_diverge fun _ _ => Res.bind_ne_diverge index_ne_diverge fun _ _ => ok_ne_diverge

theorem modifyContour_ne_diverge {cs : List (Contour F)} {i : Nat} {f : Contour F → Res (Contour F)} (hf : ∀ c, f c ≠ .diverge) :
    modifyContour cs i f ≠ .diverge :=
  Res.bind_ne_diverge index_ne_diverge fun _ _ => Res.bind_ne_diverge (hf _) fun _ _ => ok_ne_diverge

theorem facesRemoved_ne_diverge {modes : List PolygonMode} {flags : List Bool} {i : Nat} : facesRemoved modes i flags ≠ .diverge := by
  induction flags generalizing i with
  | nil => exact ok_ne_diverge
  | cons f fs ih =>
    unfold facesRemoved
    split
    · refine Res.bind_ne_diverge index_ne_diverge fun _ _ => ?_
      split
      · exact ok_ne_diverge
      · exact ih
    · exact ih

theorem includeSegments_ne_diverge {modes : List PolygonMode} {arena : Arena F} {l segs : List Nat} {ends : List (Nat × SegmentEnd)} :
    includeSegments modes arena l segs ends ≠ .diverge := by
  have hs : ∀ flags, skipSide modes flags ≠ .diverge := fun _ => Res.bind_ne_diverge facesRemoved_ne_diverge fun _ _ => ok_ne_diverge
  induction l generalizing segs ends with
  | nil => exact ok_ne_diverge
  | cons i l ih =>
    refine Res.bind_ne_diverge index_ne_diverge fun _ _ => ?_
    split
    · exact ih
    · refine Res.bind_ne_diverge (hs _) fun _ _ => Res.bind_ne_diverge (hs _) fun _ _ => ?_
      split <;> exact ih

theorem recordIndices_ne_diverge {l : List (Nat × SegmentEnd)} {i : Nat} {arena : Arena F} : recordIndices i l arena ≠ .diverge := by
  induction l generalizing i arena with
  | nil => exact ok_ne_diverge
  | cons x l ih => exact Res.bind_ne_diverge index_ne_diverge fun _ _ => Res.bind_ne_diverge setPacket_ne_diverge fun _ _ => ih

theorem assignNeighbors_ne_diverge {arena : Arena F} {l : List (Nat × SegmentEnd)} {cs : List (Contour F)} : assignNeighbors arena l cs ≠ .diverge := by
  have hs : ∀ (cs : List (Contour F)) i j, setNeighbor cs i j ≠ .diverge := fun _ _ _ =>
    modifyContour_ne_diverge fun _ => Res.bind_ne_diverge bvSet_ne_diverge fun _ _ => ok_ne_diverge
  induction l generalizing cs with
  | nil => exact ok_ne_diverge
  | cons x l ih =>
    refine Res.bind_ne_diverge index_ne_diverge fun _ _ => ?_
    split
    · exact Res.bind_ne_diverge (hs _ _ _) fun _ _ => Res.bind_ne_diverge (hs _ _ _) fun _ _ => ih
    · exact ih

theorem addSegments_ne_diverge {lib : Lib} (hl : lib.Ends) {n i : Nat} {mode : PolygonMode} {l : List (Pt F × Pt F)} {st : SweepState F} :
    addSegments lib n i mode l st ≠ .diverge := by
  induction l generalizing st with
  | nil => exact ok_ne_diverge
  | cons x l ih =>
    unfold addSegments
    split
    · exact ih
    · refine Res.bind_ne_diverge ?_ fun _ _ => Res.bind_ne_diverge (hl.push _ _ _ fun _ _ => arenaEndCmp_ne_diverge) fun _ _ =>
        Res.bind_ne_diverge (hl.push _ _ _ fun _ _ => arenaEndCmp_ne_diverge) fun _ _ => ih
      unfold SweepSegment.new
      split
      · exact panic_ne_diverge
      · split <;> exact ok_ne_diverge

theorem addPolygons_ne_diverge {lib : Lib} (hl : lib.Ends) {n i : Nat} {l : List (Polygon F × PolygonMode)} {st : SweepState F} :
    addPolygons lib n i l st ≠ .diverge := by
  have hc : ∀ (cs : List (Contour F)) i mode st, addContours lib n i mode cs st ≠ .diverge := by
    intro cs
    induction cs with
    | nil => intro i mode st; exact ok_ne_diverge
    | cons c cs ih =>
      intro i mode st
      refine Res.bind_ne_diverge ?_ fun _ _ => Res.bind_ne_diverge (addSegments_ne_diverge hl) fun _ _ => ih _ _ _
      obtain ⟨segs, h, _⟩ := C52_segments c
      rw [h]
      exact ok_ne_diverge
  induction l generalizing i st with
  | nil => exact ok_ne_diverge
  | cons x l ih => exact Res.bind_ne_diverge (hc _ _ _ _) fun _ _ => ih

/-! ### The walk -/

/-- Is the endpoint still to be visited? -/
def unvisited (arena : Arena F) (x : Nat × SegmentEnd) : Bool := (arena[x.1]?).any fun s => !s.data.isProcessed x.2

/-- How many endpoints are still to be visited? -/
def toVisit (arena : Arena F) (included : List (Nat × SegmentEnd)) : Nat := included.countP (unvisited arena)

theorem isProcessed_assign (p : SegmentPacket) (id : Nat) (e e' : SegmentEnd) :
    (p.assign id e).isProcessed e' = (p.isProcessed e' || decide (e = e')) := by
  cases e <;> cases e' <;> simp [SegmentPacket.assign, SegmentPacket.isProcessed, SegmentPacket.markProcessed]

theorem unvisited_set {arena : Arena F} {seg : Nat} {s : BoolSegment F} (hs : arena[seg]? = some s) (id : Nat) (e : SegmentEnd) (x : Nat × SegmentEnd) :
    unvisited (arena.set seg { s with data := s.data.assign id e }) x = (unvisited arena x && !decide (x = (seg, e))) := by
  unfold unvisited
  obtain ⟨i, e'⟩ := x
  rw [getElem?_set_of hs]
  by_cases hi : i = seg
  · subst hi
    rw [if_pos rfl, hs]
    simp only [Option.any_some, isProcessed_assign, Bool.not_or, Prod.mk.injEq, true_and]
    congr 2
    simp [eq_comm]
  · rw [if_neg hi]
    simp [hi]

theorem toVisit_le {arena : Arena F} {included : List (Nat × SegmentEnd)} {seg : Nat} {s : BoolSegment F} (hs : arena[seg]? = some s) (id : Nat)
    (e : SegmentEnd) : toVisit (arena.set seg { s with data := s.data.assign id e }) included ≤ toVisit arena included := by
  unfold toVisit
  apply List.countP_mono_left
  intro x _ h
  rw [unvisited_set hs] at h
  exact (Bool.and_eq_true _ _ ▸ h).1

theorem toVisit_lt {arena : Arena F} {included : List (Nat × SegmentEnd)} {seg : Nat} {s : BoolSegment F} (hs : arena[seg]? = some s) (id : Nat)
    (e : SegmentEnd) (hm : (seg, e) ∈ included) (hu : s.data.isProcessed e = false) :
    toVisit (arena.set seg { s with data := s.data.assign id e }) included < toVisit arena included := by
  have key : ∀ l : List (Nat × SegmentEnd), (seg, e) ∈ l →
      l.countP (unvisited (arena.set seg { s with data := s.data.assign id e })) < l.countP (unvisited arena) := by
    intro l
    induction l with
    | nil => intro h; cases h
    | cons x l ih =>
      intro h
      rw [List.countP_cons, List.countP_cons]
      have hle := toVisit_le (included := l) hs id e
      unfold toVisit at hle
      by_cases hx : x = (seg, e)
      · subst hx
        have : unvisited arena (seg, e) = true := by unfold unvisited; rw [hs]; simp [hu]
        rw [unvisited_set hs, this]
        simp
        omega
      · have := ih (by simpa [Ne.symm hx] using h)
        rw [unvisited_set hs]
        simp only [hx, decide_false, Bool.not_false, Bool.and_true]
        omega
  exact key included hm

theorem traceContour_ends {included : List (Nat × SegmentEnd)} {id : Nat} {start : Pt F} : ∀ {fuel : Nat} {arena : Arena F} {c : Contour F} {cur : Nat},
    toVisit arena included + 2 ≤ fuel ∨ (∃ x s, included[cur]? = some x ∧ arena[x.1]? = some s ∧ s.data.isProcessed x.2 = false) ∧
      toVisit arena included + 1 ≤ fuel → traceContour included id start fuel arena c cur ≠ .diverge
  | 0, _, _, _, h => by rcases h with h | h <;> omega
  | fuel + 1, arena, c, cur, h => by
    rw [traceContour]
    refine Res.bind_ne_diverge index_ne_diverge fun x hx => Res.bind_ne_diverge index_ne_diverge fun s hs => ?_
    refine Res.bind_ne_diverge bvUnion_ne_diverge fun fp _ => ?_
    refine Res.bind_ne_diverge setPacket_ne_diverge fun arena' ha => ?_
    have hx := index_eq_ok hx
    have hs := index_eq_ok hs
    obtain ⟨s', hs', ha⟩ := Res.bind_eq_ok ha
    rw [index_eq_ok hs'] at hs
    cases hs
    cases ha
    have hs' := index_eq_ok hs'
    dsimp only
    split
    · exact ok_ne_diverge
    · refine Res.bind_ne_diverge findNext_ne_diverge fun next hn => ?_
      obtain ⟨_, _, _, _, y, t, hy, ht, _, hu⟩ := findNext_ok hn
      refine traceContour_ends (.inr ⟨⟨y, t, hy, ht, hu⟩, ?_⟩)
      rcases h with h | ⟨⟨x', s', hx', hs'', hu'⟩, h⟩
      · have := toVisit_le (included := included) hs' id x.2
        omega
      · rw [hx] at hx'
        cases hx'
        rw [hs'] at hs''
        cases hs''
        have := toVisit_lt (included := included) hs' id x.2 (List.mem_of_getElem? hx) hu'
        omega

theorem toVisit_le_length (arena : Arena F) (included : List (Nat × SegmentEnd)) : toVisit arena included ≤ included.length :=
  List.countP_le_length

theorem traceStep_ends {fuel : Nat} {included : List (Nat × SegmentEnd)} (hf : included.length + 2 ≤ fuel) (arena : Arena F) (cs : List (Contour F))
    (x : Nat × SegmentEnd) : traceStep fuel included arena cs x ≠ .diverge := by
  refine Res.bind_ne_diverge index_ne_diverge fun s _ => ?_
  split
  · exact ok_ne_diverge
  · have := toVisit_le_length arena included
    refine Res.bind_ne_diverge (traceContour_ends (.inl (by omega))) ?_
    rintro ⟨arena', c, last⟩ _
    refine Res.bind_ne_diverge clockwise_ne_diverge ?_
    rintro ⟨cw, c⟩ _
    dsimp only
    split
    · refine Res.bind_ne_diverge index_ne_diverge ?_
      rintro ⟨seg, e⟩ _
      refine Res.bind_ne_diverge index_ne_diverge fun s _ => ?_
      split
      · exact Res.bind_ne_diverge index_ne_diverge fun _ _ => Res.bind_ne_diverge unwrap_ne_diverge fun _ _ =>
          Res.bind_ne_diverge (modifyContour_ne_diverge fun _ => ok_ne_diverge) fun _ _ =>
          Res.bind_ne_diverge (modifyContour_ne_diverge fun _ => ok_ne_diverge) fun _ _ => ok_ne_diverge
      · exact ok_ne_diverge
    · exact ok_ne_diverge

theorem traceAll_ends {fuel : Nat} {included : List (Nat × SegmentEnd)} (hf : included.length + 2 ≤ fuel) (l : List (Nat × SegmentEnd)) (arena : Arena F)
    (cs : List (Contour F)) : traceAll fuel included l arena cs ≠ .diverge := by
  induction l generalizing arena cs with
  | nil => exact ok_ne_diverge
  | cons x l ih => exact Res.bind_ne_diverge (traceStep_ends hf _ _ _) fun _ _ => ih _ _

/-! ### The result does not depend on the bound -/

theorem Res.bind_congr_ne {α β : Type} {r r' : Res α} {f f' : α → Res β} (h : (r >>= f) ≠ .diverge) (hr : r ≠ .diverge → r' = r)
    (hf : ∀ a, r = .ok a → f a ≠ .diverge → f' a = f a) : (r' >>= f') = (r >>= f) := by
  have h1 : r ≠ .diverge := by rintro rfl; exact h rfl
  rw [hr h1]
  cases r with
  | ok a => exact hf a rfl h
  | err e => rfl
  | panic p => rfl
  | diverge => exact absurd rfl h1

theorem sweepLoop_mono {lib : Lib} {n : Nat} : ∀ {fuel fuel' : Nat} {st : SweepState F}, fuel ≤ fuel' → sweepLoop lib n fuel st ≠ .diverge →
    sweepLoop lib n fuel' st = sweepLoop lib n fuel st
  | 0, _, _, _, h => absurd rfl h
  | fuel + 1, 0, _, hle, _ => by omega
  | fuel + 1, fuel' + 1, st, hle, h => by
    rw [sweepLoop] at h ⊢
    conv_rhs => rw [sweepLoop]
    refine Res.bind_congr_ne h (fun _ => rfl) ?_
    rintro (_ | ⟨⟨seg, e⟩, queue⟩) _ h
    · rfl
    · exact Res.bind_congr_ne h (fun _ => rfl) fun _ _ h => sweepLoop_mono (by omega) h

theorem traceContour_mono {included : List (Nat × SegmentEnd)} {id : Nat} {start : Pt F} : ∀ {fuel fuel' : Nat} {arena : Arena F} {c : Contour F} {cur : Nat},
    fuel ≤ fuel' → traceContour included id start fuel arena c cur ≠ .diverge →
    traceContour included id start fuel' arena c cur = traceContour included id start fuel arena c cur
  | 0, _, _, _, _, _, h => absurd rfl h
  | fuel + 1, 0, _, _, _, hle, _ => by omega
  | fuel + 1, fuel' + 1, arena, c, cur, hle, h => by
    rw [traceContour] at h ⊢
    conv_rhs => rw [traceContour]
    refine Res.bind_congr_ne h (fun _ => rfl) ?_
    rintro ⟨seg, e⟩ _ h
    refine Res.bind_congr_ne h (fun _ => rfl) fun s _ h => Res.bind_congr_ne h (fun _ => rfl) fun fp _ h =>
      Res.bind_congr_ne h (fun _ => rfl) fun arena' _ h => ?_
    dsimp only at h ⊢
    split
    · rfl
    · rename_i hb
      rw [if_neg hb] at h
      exact Res.bind_congr_ne h (fun _ => rfl) fun next _ h => traceContour_mono (by omega) h

theorem traceAll_mono {included : List (Nat × SegmentEnd)} {fuel fuel' : Nat} (hle : fuel ≤ fuel') : ∀ {l : List (Nat × SegmentEnd)} {arena : Arena F}
    {cs : List (Contour F)}, traceAll fuel included l arena cs ≠ .diverge → traceAll fuel' included l arena cs = traceAll fuel included l arena cs
  | [], _, _, _ => rfl
  | x :: l, arena, cs, h => by
    rw [traceAll] at h ⊢
    conv_rhs => rw [traceAll]
    refine Res.bind_congr_ne h (fun h => ?_) ?_
    · unfold traceStep at h ⊢
      refine Res.bind_congr_ne h (fun _ => rfl) fun s _ h => ?_
      split
      · rfl
      · rename_i hb
        rw [if_neg hb] at h
        exact Res.bind_congr_ne h (fun h => traceContour_mono hle h) fun _ _ _ => rfl
    · rintro ⟨arena', cs'⟩ _ h
      exact traceAll_mono hle h

/-- **C70** Tracing the contours always ends: if the sweep over the segments does, so does `compute` (with a result or a
panic), whatever the polygons, the arithmetic and the containers. -/
theorem C70_tracing_ends (lib : Lib) (hl : lib.Ends) (polygons : List (Polygon F × PolygonMode)) (op : BooleanOpType) (f : Nat)
    (hs : ∀ st, addPolygons lib polygons.length 0 polygons ⟨[], [], [], []⟩ = .ok st → sweepLoop lib polygons.length f st ≠ .diverge) :
    ∃ r : Res (Polygon F), r ≠ .diverge ∧ ∃ bound, ∀ fuel, bound ≤ fuel → compute lib fuel polygons op = r := by
  -- with enough fuel it does not diverge
  have enough : ∃ bound, compute lib bound polygons op ≠ .diverge := by
    rcases h0 : addPolygons lib polygons.length 0 polygons ⟨[], [], [], []⟩ with st | e | p | _
    · rcases h1 : sweepLoop lib polygons.length f st with st' | e | p | _
      · rcases h2 : includeSegments (polygons.map fun p => p.2) st'.arena st'.swept [] [] with ⟨segs, ends⟩ | e | p | _
        · rcases h3 : lib.sort (Arena.endCmp st'.arena) ends with included | e | p | _
          · refine ⟨max f (included.length + 2), ?_⟩
            unfold compute
            dsimp only
            rw [h0, Res.bind_ok, sweepLoop_mono (le_max_left _ _) (hs st h0), h1, Res.bind_ok, h2, Res.bind_ok]
            dsimp only
            refine Res.bind_ne_diverge (hl.sort _ _ fun _ _ => arenaSegCmp_ne_diverge) fun _ _ => ?_
            rw [h3, Res.bind_ok]
            refine Res.bind_ne_diverge recordIndices_ne_diverge fun arena _ => ?_
            refine Res.bind_ne_diverge (traceAll_ends (le_max_right _ _) _ _ _) ?_
            rintro ⟨arena', cs⟩ _
            exact Res.bind_ne_diverge assignNeighbors_ne_diverge fun _ _ => ok_ne_diverge
          all_goals
            refine ⟨f, ?_⟩
            unfold compute
            dsimp only
            rw [h0, Res.bind_ok, h1, Res.bind_ok, h2, Res.bind_ok]
            dsimp only
            refine Res.bind_ne_diverge (hl.sort _ _ fun _ _ => arenaSegCmp_ne_diverge) fun _ _ => ?_
            rw [h3]
            intro h; first | exact hl.sort _ _ (fun _ _ => arenaEndCmp_ne_diverge) h3 | cases h
        all_goals
          refine ⟨f, ?_⟩
          unfold compute
          dsimp only
          rw [h0, Res.bind_ok, h1, Res.bind_ok, h2]
          intro h; first | exact includeSegments_ne_diverge h2 | cases h
      all_goals
        refine ⟨f, ?_⟩
        unfold compute
        dsimp only
        rw [h0, Res.bind_ok, h1]
        intro h; first | exact hs st h0 h1 | cases h
    all_goals
      refine ⟨f, ?_⟩
      unfold compute
      dsimp only
      rw [h0]
      intro h; first | exact addPolygons_ne_diverge hl h0 | cases h
  obtain ⟨bound, hb⟩ := enough
  refine ⟨_, hb, bound, fun fuel hle => ?_⟩
  unfold compute at hb ⊢
  dsimp only at hb ⊢
  refine Res.bind_congr_ne hb (fun _ => rfl) fun st _ hb => Res.bind_congr_ne hb (fun hb => sweepLoop_mono hle hb) ?_
  intro st' _ hb
  refine Res.bind_congr_ne hb (fun _ => rfl) ?_
  rintro ⟨segs, ends⟩ _ hb
  refine Res.bind_congr_ne hb (fun _ => rfl) fun _ _ hb => Res.bind_congr_ne hb (fun _ => rfl) fun included _ hb =>
    Res.bind_congr_ne hb (fun _ => rfl) fun arena _ hb => ?_
  exact Res.bind_congr_ne hb (fun hb => traceAll_mono hle hb) fun _ _ _ => rfl

/-- The containers can end, and the sweep does for the polygons of C57's example. -/
theorem C70_hypotheses_met : listLib.Ends ∧ ∀ st, addPolygons listLib exOverlap.length 0 exOverlap ⟨[], [], [], []⟩ = .ok st →
    sweepLoop listLib exOverlap.length 200 st ≠ .diverge := by
  refine ⟨?_, ?_⟩
  · have ins : ∀ {α : Type} (cmp : α → α → Res Ordering) (x : α) (l : List α), (∀ a b, cmp a b ≠ .diverge) → insertSorted cmp x l ≠ .diverge := by
      intro α cmp x l h
      induction l with
      | nil => exact ok_ne_diverge
      | cons y l ih =>
        refine Res.bind_ne_diverge (h _ _) fun _ _ => ?_
        split
        · exact ok_ne_diverge
        · exact Res.bind_ne_diverge ih fun _ _ => ok_ne_diverge
    refine ⟨fun cmp l h => ?_, fun cmp x l h => ins cmp x l h⟩
    have : ∀ done, insertionSort cmp l done ≠ .diverge := by
      induction l with
      | nil => intro done; exact ok_ne_diverge
      | cons x l ih => intro done; exact Res.bind_ne_diverge (ins cmp x done h) fun _ _ => ih _
    exact this []
  · intro st hst hd
    have h := C57_hypotheses_met.2
    unfold exView compute at h
    dsimp only at h
    rw [hst, Res.bind_ok, hd] at h
    cases h

end Idc
