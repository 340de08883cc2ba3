import Verif.Props.TidyAll
import Verif.Props.TidyLoop
import Verif.Props.TraceEnds
/-!
# From the end of the sweep to the result, for C76
-/

namespace Idc

open Net

variable {G : Net}

/-! ### Which sides are in the result -/

/-- The area is in at least one polygon, and in none whose interior is removed. -/
def Wanted (modes : List PolygonMode) (flags : List Bool) : Prop :=
  true ∈ flags ∧ ∀ i : Nat, flags[i]? = some true → modes[i]? ≠ some .removeInterior

theorem facesRemoved_spec {modes : List PolygonMode} : ∀ (flags : List Bool) (i : Nat), i + flags.length ≤ modes.length →
    ∃ b, facesRemoved modes i flags = .ok b ∧ (b = true ↔ ∃ j, flags[j]? = some true ∧ modes[i + j]? = some .removeInterior)
  | [], i, _ => ⟨false, rfl, by simp⟩
  | flag :: flags, i, h => by
    have hlen : i + 1 + flags.length ≤ modes.length := by simp only [List.length_cons] at h; omega
    obtain ⟨b, hb, hb'⟩ := facesRemoved_spec flags (i + 1) hlen
    have hshift : (∃ j, (flag :: flags)[j]? = some true ∧ modes[i + j]? = some .removeInterior) ↔
        (flag = true ∧ modes[i]? = some .removeInterior) ∨ ∃ j, flags[j]? = some true ∧ modes[i + 1 + j]? = some .removeInterior := by
      constructor
      · rintro ⟨j, h1, h2⟩
        cases j with
        | zero =>
          left
          rw [List.getElem?_cons_zero, Option.some.injEq] at h1
          exact ⟨h1, by simpa using h2⟩
        | succ j => right; exact ⟨j, by simpa using h1, by rw [show i + 1 + j = i + (j + 1) by omega]; exact h2⟩
      · rintro (⟨h1, h2⟩ | ⟨j, h1, h2⟩)
        · exact ⟨0, by simp [h1], by simpa using h2⟩
        · exact ⟨j + 1, by simpa using h1, by rw [show i + (j + 1) = i + 1 + j by omega]; exact h2⟩
    rw [facesRemoved]
    cases flag
    · rw [if_neg (by simp)]
      refine ⟨b, hb, ?_⟩
      rw [hb', hshift]
      simp
    · rw [if_pos rfl]
      have him : i < modes.length := by omega
      unfold index
      rw [List.getElem?_eq_getElem him]
      simp only [Res.bind_ok]
      rw [hshift, List.getElem?_eq_getElem him]
      by_cases hm : modes[i] = .removeInterior
      · rw [if_pos hm]
        exact ⟨true, rfl, by simp [hm]⟩
      · rw [if_neg hm]
        refine ⟨b, hb, ?_⟩
        rw [hb']
        simp [hm]

theorem skipSide_spec {modes : List PolygonMode} {flags : List Bool} (h : flags.length = modes.length) : ∃ b, skipSide modes flags = .ok b ∧ (b = false ↔ Wanted modes flags) := by
  obtain ⟨b, hb, hb'⟩ := facesRemoved_spec (modes := modes) flags 0 (by omega)
  unfold skipSide
  rw [hb]
  refine ⟨b || bvNone flags, rfl, ?_⟩
  rw [Bool.or_eq_false_iff]
  unfold Wanted
  constructor
  · rintro ⟨h1, h2⟩
    constructor
    · unfold bvNone at h2
      by_contra hn
      rw [← Bool.not_eq_true] at h2
      refine h2 (List.all_eq_true.2 fun x hx => ?_)
      cases x
      · rfl
      · exact absurd hx hn
    · intro i hi hm
      have := hb'.2 ⟨i, hi, by simpa using hm⟩
      rw [h1] at this
      cases this
  · rintro ⟨h1, h2⟩
    constructor
    · rw [← Bool.not_eq_true]
      intro hbt
      obtain ⟨j, hj, hm⟩ := hb'.1 hbt
      exact h2 j hj (by simpa using hm)
    · unfold bvNone
      rw [← Bool.not_eq_true]
      intro hall
      have := List.all_eq_true.1 hall true h1
      simp at this

open Classical in
/-- The endpoints of one segment that are in the result. -/
noncomputable def wantedEnds (modes : List PolygonMode) (arena : Arena ℝ) (i : Nat) : List EndId :=
  (if Wanted modes (sideFlags arena (i, .left)) then [(i, .left)] else []) ++ (if Wanted modes (sideFlags arena (i, .right)) then [(i, .right)] else [])

theorem include_net {modes : List PolygonMode} (hm : modes.length = G.n) {arena : Arena ℝ} (ha : G.Has arena) (hst : ∀ i < G.N, Started G (dat arena i) i) :
    ∀ (l segs : List Nat) (ends : List EndId), (∀ i ∈ l, i < G.N) → ∃ segs', includeSegments modes arena l segs ends = .ok (segs', ends ++ l.flatMap (wantedEnds modes arena)) ∧
      ∀ i ∈ segs', i ∈ segs ∨ i ∈ l
  | [], segs, ends, _ => ⟨segs, by simp [includeSegments], by simp⟩
  | i :: l, segs, ends, hl => by
    have hi := hl i (by simp)
    obtain ⟨s, hs, is⟩ := ha.seg i hi
    have hd := dat_of hs
    have hsi := hst i hi
    have hl1 : (dat arena i).left_faces_polygons.length = modes.length := by rw [hsi.left, toggle_length, hsi.len, hm]
    have hl2 : (dat arena i).right_faces_polygons.length = modes.length := by rw [hsi.len, hm]
    obtain ⟨b1, hb1, hb1'⟩ := skipSide_spec hl1
    obtain ⟨b2, hb2, hb2'⟩ := skipSide_spec hl2
    have he : wantedEnds modes arena i = (if b1 then [] else [(i, .left)]) ++ (if b2 then [] else [(i, .right)]) := by
      unfold wantedEnds
      have e1 : Wanted modes (sideFlags arena (i, .left)) ↔ b1 = false := hb1'.symm
      have e2 : Wanted modes (sideFlags arena (i, .right)) ↔ b2 = false := hb2'.symm
      simp only [e1, e2]
      cases b1 <;> cases b2 <;> simp
    rw [includeSegments]
    unfold index
    rw [hs]
    simp only [Res.bind_ok]
    rw [← hd, hsi.inres]
    rw [if_neg (by simp), hb1]
    simp only [Res.bind_ok]
    rw [hb2]
    simp only [Res.bind_ok]
    by_cases hb : (b1 && b2) = true
    · rw [if_pos hb]
      obtain ⟨segs', h1, h2⟩ := include_net hm ha hst l segs ends (fun k hk => hl k (by simp [hk]))
      refine ⟨segs', ?_, ?_⟩
      · rw [h1, List.flatMap_cons, he]
        rw [Bool.and_eq_true] at hb
        simp [hb.1, hb.2]
      · intro k hk
        rcases h2 k hk with h | h <;> simp [h]
    · rw [if_neg hb]
      obtain ⟨segs', h1, h2⟩ := include_net hm ha hst l (segs ++ [i]) (ends ++ (if b1 then [] else [(i, .left)]) ++ (if b2 then [] else [(i, .right)]))
        (fun k hk => hl k (by simp [hk]))
      refine ⟨segs', ?_, ?_⟩
      · rw [h1, List.flatMap_cons, he]
        simp only [List.append_assoc]
      · intro k hk
        rcases h2 k hk with h | h
        · rw [List.mem_append, List.mem_singleton] at h
          rcases h with h | h <;> simp [h]
        · simp [h]

theorem mem_wanted {modes : List PolygonMode} {arena : Arena ℝ} {l : List Nat} {x : EndId} : x ∈ l.flatMap (wantedEnds modes arena) ↔ x.1 ∈ l ∧ Wanted modes (sideFlags arena x) := by
  rw [List.mem_flatMap]
  unfold wantedEnds
  obtain ⟨i, e⟩ := x
  constructor
  · rintro ⟨k, hk, h⟩
    rw [List.mem_append] at h
    rcases h with h | h <;> (split at h <;> [skip; cases h])
    · rename_i hw
      rw [List.mem_singleton] at h
      cases h
      exact ⟨hk, hw⟩
    · rename_i hw
      rw [List.mem_singleton] at h
      cases h
      exact ⟨hk, hw⟩
  · rintro ⟨hk, hw⟩
    refine ⟨i, hk, ?_⟩
    cases e
    · rw [if_pos hw]; simp
    · rw [if_pos hw]; simp

theorem wanted_nodup {modes : List PolygonMode} {arena : Arena ℝ} {l : List Nat} (h : l.Nodup) : (l.flatMap (wantedEnds modes arena)).Nodup := by
  induction l with
  | nil => simp
  | cons i l ih =>
    rw [List.nodup_cons] at h
    rw [List.flatMap_cons, List.nodup_append]
    refine ⟨?_, ih h.2, ?_⟩
    · unfold wantedEnds
      split <;> split <;> simp
    · intro a ha b hb e
      subst e
      have h1 : a.1 = i := by
        have : a ∈ [i].flatMap (wantedEnds modes arena) := by simpa using ha
        have := (mem_wanted.1 this).1
        simpa using this
      exact h.1 (h1 ▸ (mem_wanted.1 hb).1)

/-! ### Positions -/

/-- What recording positions changes. -/
structure Recorded (G : Net) (k : Nat) (l : List EndId) (arena arena' : Arena ℝ) : Prop where
  has : G.Has arena'
  faces : ∀ x : EndId, x.1 < G.N → sideFlags arena' x = sideFlags arena x
  below : ∀ i < G.N, (dat arena' i).below_in_result = (dat arena i).below_in_result
  processed : ∀ x : EndId, x.1 < G.N → (dat arena' x.1).isProcessed x.2 = (dat arena x.1).isProcessed x.2
  lid : ∀ i < G.N, (dat arena' i).left_contour_id = (dat arena i).left_contour_id
  rid : ∀ i < G.N, (dat arena' i).right_contour_id = (dat arena i).right_contour_id
  other : ∀ i < G.N, (i, .left) ∉ l → (dat arena' i).left_index = (dat arena i).left_index
  position : ∀ i < G.N, ∀ j : Nat, l[j]? = some (i, .left) → (dat arena' i).left_index = k + j

theorem record_net : ∀ (l : List EndId) (k : Nat) (arena : Arena ℝ), G.Has arena → (∀ x ∈ l, x.1 < G.N) → l.Nodup →
    ∃ arena', recordIndices k l arena = .ok arena' ∧ Recorded G k l arena arena'
  | [], k, arena, ha, _, _ => ⟨arena, rfl, ha, fun _ _ => rfl, fun _ _ => rfl, fun _ _ => rfl, fun _ _ => rfl, fun _ _ => rfl, fun _ _ _ => rfl, by simp⟩
  | (seg, e) :: l, k, arena, ha, hl, hnd => by
    have hseg : seg < G.N := hl (seg, e) (by simp)
    obtain ⟨s, hs, is⟩ := ha.seg seg hseg
    have hL : seg < arena.length := by rw [ha.length]; exact hseg
    rw [List.nodup_cons] at hnd
    have hd := dat_put hL ((dat arena seg).setIndex k e)
    have ha1 := ha.put seg ((dat arena seg).setIndex k e)
    obtain ⟨arena', hrun, h⟩ := record_net l (k + 1) (putPacket arena seg ((dat arena seg).setIndex k e)) ha1 (fun x hx => hl x (by simp [hx])) hnd.2
    refine ⟨arena', ?_, ?_⟩
    · rw [recordIndices]
      unfold index
      rw [hs]
      simp only [Res.bind_ok]
      rw [← dat_of hs, setPacket_put hL]
      exact hrun
    · refine ⟨h.has, ?_, ?_, ?_, ?_, ?_, ?_, ?_⟩
      · intro x hx
        rw [h.faces x hx]
        unfold sideFlags
        rw [hd]
        split
        · rename_i e'
          rw [e']
          cases e <;> cases x.2 <;> rfl
        · rfl
      · intro i hi
        rw [h.below i hi, hd]
        split
        · rename_i e'
          rw [e']
          cases e <;> rfl
        · rfl
      · intro x hx
        rw [h.processed x hx, hd]
        split
        · rename_i e'
          rw [e']
          cases e <;> cases x.2 <;> rfl
        · rfl
      · intro i hi
        rw [h.lid i hi, hd]
        split
        · rename_i e'
          rw [e']
          cases e <;> rfl
        · rfl
      · intro i hi
        rw [h.rid i hi, hd]
        split
        · rename_i e'
          rw [e']
          cases e <;> rfl
        · rfl
      · intro i hi hn
        rw [List.mem_cons, not_or] at hn
        rw [h.other i hi hn.2, hd]
        split
        · rename_i e'
          subst e'
          cases e
          · exact absurd rfl hn.1
          · rfl
        · rfl
      · intro i hi j hj
        cases j with
        | zero =>
          simp only [List.getElem?_cons_zero, Option.some.injEq, Prod.mk.injEq] at hj
          obtain ⟨rfl, rfl⟩ := hj
          rw [h.other seg hi hnd.1, hd, if_pos rfl]
          rfl
        | succ j =>
          rw [List.getElem?_cons_succ] at hj
          rw [h.position i hi j hj]
          omega

/-! ### Neighbours -/

theorem setNeighbor_net {n : Nat} {cs : List (Contour ℝ)} (hlen : cs.length = n) (hnb : ∀ c ∈ cs, c.neighbors.length = n) {a b : Nat} (ha : a < n) (hb : b < n) :
    ∃ cs', setNeighbor cs a b = .ok cs' ∧ cs'.length = n ∧ (∀ c ∈ cs', c.neighbors.length = n) ∧ ∀ (j : Nat) c', cs'[j]? = some c' →
      ∃ c, cs[j]? = some c ∧ c' = { c with neighbors := c'.neighbors } ∧ ∀ k : Nat, c'.neighbors[k]? = some true ↔ c.neighbors[k]? = some true ∨ (j = a ∧ k = b) := by
  have haL : a < cs.length := by omega
  have hca : cs[a]? = some cs[a] := List.getElem?_eq_getElem haL
  have hna : cs[a].neighbors.length = n := hnb _ (List.getElem_mem haL)
  unfold setNeighbor modifyContour index
  rw [hca]
  simp only [Res.bind_ok]
  unfold bvSet
  rw [if_pos (by omega)]
  simp only [Res.bind_ok, Res.pure_eq]
  refine ⟨_, rfl, by simp [hlen], ?_, ?_⟩
  · intro c hc
    rcases List.mem_or_eq_of_mem_set hc with h | h
    · exact hnb c h
    · rw [h]; simp [hna]
  · intro j c' hc'
    rw [set_get _ _ _ _ haL] at hc'
    by_cases e : j = a
    · rw [if_pos e] at hc'
      cases hc'
      refine ⟨cs[a], by rw [e]; exact hca, rfl, fun k => ?_⟩
      dsimp only
      rw [List.getElem?_set]
      by_cases hk : b = k
      · subst hk
        rw [if_pos rfl, if_pos (by omega)]
        simp [e]
      · rw [if_neg hk]
        have : ¬ k = b := fun h => hk h.symm
        simp [this]
    · rw [if_neg e] at hc'
      exact ⟨c', hc', rfl, fun k => by simp [e]⟩

theorem neighbors_net {A : Arena ℝ} {ids : EndId → Option Nat} {arena : Arena ℝ} (h : Tr G A ids arena) {n : Nat} (hids : ∀ z j, ids z = some j → j < n) :
    ∀ (l : List EndId) (cs : List (Contour ℝ)), (∀ x ∈ l, x.1 < G.N) → cs.length = n → (∀ c ∈ cs, c.neighbors.length = n) →
    ∃ cs', assignNeighbors arena l cs = .ok cs' ∧ cs'.length = n ∧ (∀ c ∈ cs', c.neighbors.length = n) ∧ ∀ (j : Nat) c', cs'[j]? = some c' →
      ∃ c, cs[j]? = some c ∧ c' = { c with neighbors := c'.neighbors } ∧ ∀ k : Nat, c'.neighbors[k]? = some true ↔
        c.neighbors[k]? = some true ∨ ∃ z : EndId, (∃ x ∈ l, x.1 = z.1) ∧ ids z = some j ∧ ids (opp z) = some k
  | [], cs, _, hlen, hnb => ⟨cs, rfl, hlen, hnb, fun j c hc => ⟨c, hc, rfl, fun k => by simp⟩⟩
  | (seg, e) :: l, cs, hl, hlen, hnb => by
    have hseg : seg < G.N := hl (seg, e) (by simp)
    obtain ⟨s, hs, hs', is, hd⟩ := h.get (x := (seg, e)) hseg
    dsimp only at hs hd
    have hskip : (∀ r l', ids (seg, .right) = some r → ids (seg, .left) = some l' → False) → ∀ z : EndId, z.1 = seg → ∀ j k, ids z = some j → ids (opp z) = some k → False := by
      rintro hno ⟨i, e'⟩ rfl j k h1 h2
      cases e'
      · exact hno _ _ h2 h1
      · exact hno _ _ h1 h2
    rw [assignNeighbors, hs]
    simp only [Res.bind_ok]
    rw [hd, h.rid seg hseg, h.lid seg hseg]
    rcases hr : ids (seg, .right) with _ | r
    · obtain ⟨cs', c1, c2, c3, c4⟩ := neighbors_net h hids l cs (fun x hx => hl x (by simp [hx])) hlen hnb
      refine ⟨cs', c1, c2, c3, fun j c' hc' => ?_⟩
      obtain ⟨c, d1, d2, d3⟩ := c4 j c' hc'
      refine ⟨c, d1, d2, fun k => ?_⟩
      rw [d3]
      refine or_congr_right ⟨?_, ?_⟩
      · rintro ⟨z, ⟨x, hx, hxz⟩, h1, h2⟩
        exact ⟨z, ⟨x, by simp [hx], hxz⟩, h1, h2⟩
      · rintro ⟨z, ⟨x, hx, hxz⟩, h1, h2⟩
        rcases List.mem_cons.1 hx with rfl | hx
        · exact absurd h2 (fun h2 => hskip (fun a b ha hb => by rw [hr] at ha; cases ha) z hxz.symm j k h1 h2)
        · exact ⟨z, ⟨x, hx, hxz⟩, h1, h2⟩
    · rcases hll : ids (seg, .left) with _ | l'
      · obtain ⟨cs', c1, c2, c3, c4⟩ := neighbors_net h hids l cs (fun x hx => hl x (by simp [hx])) hlen hnb
        refine ⟨cs', c1, c2, c3, fun j c' hc' => ?_⟩
        obtain ⟨c, d1, d2, d3⟩ := c4 j c' hc'
        refine ⟨c, d1, d2, fun k => ?_⟩
        rw [d3]
        refine or_congr_right ⟨?_, ?_⟩
        · rintro ⟨z, ⟨x, hx, hxz⟩, h1, h2⟩
          exact ⟨z, ⟨x, by simp [hx], hxz⟩, h1, h2⟩
        · rintro ⟨z, ⟨x, hx, hxz⟩, h1, h2⟩
          rcases List.mem_cons.1 hx with rfl | hx
          · exact absurd h2 (fun h2 => hskip (fun a b ha hb => by rw [hll] at hb; cases hb) z hxz.symm j k h1 h2)
          · exact ⟨z, ⟨x, hx, hxz⟩, h1, h2⟩
      · dsimp only
        have hrn := hids _ _ hr
        have hln := hids _ _ hll
        obtain ⟨cs1, a1, a2, a3, a4⟩ := setNeighbor_net hlen hnb hln hrn
        obtain ⟨cs2, b1, b2, b3, b4⟩ := setNeighbor_net a2 a3 hrn hln
        obtain ⟨cs', c1, c2, c3, c4⟩ := neighbors_net h hids l cs2 (fun x hx => hl x (by simp [hx])) b2 b3
        rw [a1]
        simp only [Res.bind_ok]
        rw [b1]
        simp only [Res.bind_ok]
        refine ⟨cs', c1, c2, c3, fun j c' hc' => ?_⟩
        obtain ⟨x2, d1, d2, d3⟩ := c4 j c' hc'
        obtain ⟨x1, e1, e2, e3⟩ := b4 j x2 d1
        obtain ⟨x0, f1, f2, f3⟩ := a4 j x1 e1
        refine ⟨x0, f1, ?_, fun k => ?_⟩
        · rw [d2, e2, f2]
        · rw [d3, e3, f3, or_assoc, or_assoc]
          refine or_congr_right ⟨?_, ?_⟩
          · rintro (⟨rfl, rfl⟩ | ⟨rfl, rfl⟩ | ⟨z, ⟨x, hx, hxz⟩, h1, h2⟩)
            · exact ⟨(seg, .left), ⟨(seg, e), by simp, rfl⟩, hll, hr⟩
            · exact ⟨(seg, .right), ⟨(seg, e), by simp, rfl⟩, hr, hll⟩
            · exact ⟨z, ⟨x, by simp [hx], hxz⟩, h1, h2⟩
          · rintro ⟨z, ⟨x, hx, hxz⟩, h1, h2⟩
            rcases List.mem_cons.1 hx with rfl | hx
            · obtain ⟨i, e'⟩ := z
              dsimp only at hxz
              subst hxz
              cases e'
              · left
                rw [hll] at h1
                have h2 : ids (seg, .right) = some k := h2
                rw [hr] at h2
                exact ⟨(Option.some.inj h1).symm, (Option.some.inj h2).symm⟩
              · right; left
                rw [hr] at h1
                have h2 : ids (seg, .left) = some k := h2
                rw [hll] at h2
                exact ⟨(Option.some.inj h1).symm, (Option.some.inj h2).symm⟩
            · right; right
              exact ⟨z, ⟨x, hx, hxz⟩, h1, h2⟩

/-! ### All of it -/

/-- src/shapeops.rs:1590-1731: `compute` after the sweep. -/
noncomputable def finish (lib : Lib) (fuel : Nat) (modes : List PolygonMode) (st : SweepState ℝ) : Res (Polygon ℝ) := do
  let (segs, ends) ← includeSegments modes st.arena st.swept [] []
  let _ ← lib.sort (Arena.segCmp st.arena) segs
  let included ← lib.sort (Arena.endCmp st.arena) ends
  let arena ← recordIndices 0 included st.arena
  let (arena, contours) ← traceAll fuel included included arena []
  let contours := contours.map fun c => { c with neighbors := bvGrow c.neighbors contours.length false }
  let contours ← assignNeighbors arena included contours
  pure ⟨contours⟩

theorem compute_finish (lib : Lib) (fuel : Nat) (polygons : List (Polygon ℝ × PolygonMode)) (op : BooleanOpType) :
    compute lib fuel polygons op = (addPolygons lib polygons.length 0 polygons ⟨[], [], [], []⟩) >>= fun st =>
      (sweepLoop lib polygons.length fuel st) >>= fun st => finish lib fuel (polygons.map fun p => p.2) st := rfl

/-- What the result is, in terms of the net. -/
structure NetResult (G : Net) (A : Arena ℝ) (modes : List PolygonMode) (ls : List EndId) (cs : List (Contour ℝ)) : Prop where
  len : cs.length = ls.length
  leaders : ∀ x, x ∈ ls ↔ G.Leader x ∧ Wanted modes (sideFlags A x)
  order : ls.Pairwise fun x y => G.key x < G.key y
  points : ∀ (j : Nat) c x, cs[j]? = some c → ls[j]? = some x → c.points = (G.orbit x).map G.pt
  flags : ∀ (j : Nat) c x, cs[j]? = some c → ls[j]? = some x → c.from_polygons = sideFlags A x
  external : ∀ (j : Nat) c x, cs[j]? = some c → ls[j]? = some x → c.external = (parentOf G A x).isNone
  holes : ∀ (j : Nat) c x, cs[j]? = some c → ls[j]? = some x → ∀ h, h ∈ c.holes ↔ ∃ y w, ls[h]? = some y ∧ parentOf G A y = some w ∧ w ∈ G.orbit x
  neighbors : ∀ (j : Nat) c x, cs[j]? = some c → ls[j]? = some x → c.neighbors.length = cs.length ∧
    ∀ (k : Nat) y, ls[k]? = some y → (c.neighbors[k]? = some true ↔ ∃ z ∈ G.orbit x, opp z ∈ G.orbit y)

theorem finish_net {lib : Lib} (hl : lib.Lawful) {Heap} {t : ℝ} {st : SweepState ℝ} (h : Inv G Heap t st) (hq : st.queue = []) {modes : List PolygonMode}
    (hm : modes.length = G.n) : ∃ ls cs, NetResult G st.arena modes ls cs ∧ ∀ fuel, 2 * G.N < fuel → finish lib fuel modes st = .ok ⟨cs⟩ := by
  -- everything is over
  have hover : ∀ x : EndId, x.1 < G.N → G.time (G.pt x) < t := by
    intro x hx
    rcases lt_trichotomy (G.time (G.pt x)) t with k | k | k
    · exact k
    · exact absurd k (h.notime x hx)
    · have := (h.queue_mem x).2 ⟨hx, k⟩
      rw [hq] at this
      cases this
  have hst : ∀ i < G.N, Started G (dat st.arena i) i := fun i hi => h.packets.started i hi (hover (i, .left) hi)
  have hswept : ∀ i, i ∈ st.swept ↔ i < G.N := fun i => by
    rw [h.swept_mem]
    exact ⟨fun h => h.1, fun hi => ⟨hi, hover (i, .right) hi⟩⟩
  obtain ⟨segs, hinc, hsegs⟩ := include_net hm h.has hst st.swept [] [] (fun i hi => (hswept i).1 hi)
  set ends := st.swept.flatMap (wantedEnds modes st.arena) with hends
  rw [List.nil_append] at hinc
  have hemem : ∀ x, x ∈ ends ↔ x.1 < G.N ∧ Wanted modes (sideFlags st.arena x) := fun x => by rw [hends, mem_wanted, hswept]
  have hendn : ends.Nodup := wanted_nodup h.swept_nodup
  obtain ⟨segs', hsort1⟩ := hl.sort_returns st.arena.segCmp segs (fun a ha b hb => by
    have hN : ∀ i ∈ segs, i < G.N := fun i hi => by
      rcases hsegs i hi with h | h
      · cases h
      · exact (hswept i).1 h
    exact segCmp_ok h.has (hN a ha) (hN b hb))
  obtain ⟨included, hsort2, hperm, hsorted⟩ := hl.sort_sorts st.arena.endCmp ends (endCmp_total h.has fun x hx => ((hemem x).1 hx).1)
  have himem : ∀ x, x ∈ included ↔ x.1 < G.N ∧ Wanted modes (sideFlags st.arena x) := fun x => by rw [hperm.mem_iff, hemem]
  have hin : ∀ x ∈ included, x.1 < G.N := fun x hx => ((himem x).1 hx).1
  have hnd : included.Nodup := hperm.nodup_iff.2 hendn
  have hkey : included.Pairwise fun x y => G.key x < G.key y := by
    refine (hsorted.and hnd).imp_of_mem ?_
    rintro x y hx hy ⟨h1, h2⟩
    rw [endCmp_key h.has (hin x hx) (hin y hy)] at h1
    rcases lt_trichotomy (G.key x) (G.key y) with k | k | k
    · exact k
    · exact absurd (key_inj (hin x hx) (hin y hy) k) h2
    · exact absurd (by rw [compare_gt_iff_gt.2 k]) h1
  obtain ⟨A, hrec, hR⟩ := record_net included 0 st.arena h.has hin hnd
  have hready : Ready G A (Wanted modes) included := by
    refine ⟨?_, ?_, ?_, hkey, ?_⟩
    · intro x hx
      rw [hR.faces _ (G.mate_lt hx), hR.faces (opp x) hx]
      exact h.packets.corner x hx (hover x hx)
    · intro i hi k hk
      rw [hR.below i hi] at hk
      obtain ⟨k1, k2, k3⟩ := h.packets.below i hi (hover (i, .left) hi) k hk
      refine ⟨k1, ?_, k3⟩
      have e1 := hR.faces (k, .left) k1
      have e2 := hR.faces (i, .right) hi
      unfold sideFlags at e1 e2
      simp only [SegmentPacket.faces] at e1 e2
      rw [e1, e2, k2]
    · intro x
      rw [himem]
      exact and_congr_right fun hx => by rw [hR.faces x hx]
    · intro i hi
      obtain ⟨j, hj⟩ := List.mem_iff_getElem?.1 hi
      rw [hR.position i (hin _ hi) j hj, Nat.zero_add]
      exact hj
  have htr : Tr G A (fun _ => none) A := by
    refine ⟨hR.has, fun _ _ => rfl, fun _ _ => rfl, fun _ _ => rfl, ?_, ?_, ?_⟩
    · intro x hx
      rw [hR.processed x hx]
      have := h.packets.kept x.1 hx
      obtain ⟨i, e⟩ := x
      cases e
      · exact this.lproc
      · exact this.rproc
    · intro i hi
      rw [hR.lid i hi]
      exact (h.packets.kept i hi).lid
    · intro i hi
      rw [hR.rid i hi]
      exact (h.packets.kept i hi).rid
  have h0 : Traced G A included [] (fun _ => none) [] A [] :=
    ⟨htr, ⟨rfl, by simp, by simp, by simp, by simp, by simp⟩, by simp, by simp, by simp, by simp, by simp, by simp⟩
  have hlen : included.length ≤ 2 * G.N := by
    have hsub : included ⊆ (List.range G.N).flatMap fun i => [(i, SegmentEnd.left), (i, .right)] := by
      intro x hx
      rw [List.mem_flatMap]
      refine ⟨x.1, List.mem_range.2 (hin x hx), ?_⟩
      obtain ⟨i, e⟩ := x
      cases e <;> simp
    have := (List.subperm_of_subset hnd hsub).length_le
    rw [List.length_flatMap] at this
    simp only [List.length_cons, List.length_nil, List.map_const', List.sum_replicate, List.length_range, smul_eq_mul] at this
    omega
  obtain ⟨ids, ls, arena, contours, hrun, hT⟩ := traceAll_net hready (fuel := included.length + 1) (by omega) included [] _ _ _ _ rfl h0
  have hlenC := hT.desc.len
  have hidsN : ∀ z j, ids z = some j → j < contours.length := by
    intro z j hz
    obtain ⟨x, hx, _⟩ := (hT.ids_iff z j).1 hz
    have := (List.getElem?_eq_some_iff.1 hx).1
    omega
  set grown := contours.map fun c => { c with neighbors := bvGrow c.neighbors contours.length false } with hgrown
  have hnb0 : ∀ c ∈ contours, c.neighbors = [] := by
    intro c hc
    obtain ⟨j, hj⟩ := List.mem_iff_getElem?.1 hc
    have hjl := (List.getElem?_eq_some_iff.1 hj).1
    exact hT.desc.neighbors j c ls[j] hj (List.getElem?_eq_getElem (by omega))
  obtain ⟨cs, hnbr, hcl, hcn, hcs⟩ := neighbors_net hT.tr hidsN included grown hin (by simp [hgrown]) (by
    intro c hc
    rw [hgrown, List.mem_map] at hc
    obtain ⟨c0, hc0, rfl⟩ := hc
    simp [bvGrow, hnb0 c0 hc0])
  refine ⟨ls, cs, ?_, ?_⟩
  · -- each contour
    have hback : ∀ (j : Nat) c', cs[j]? = some c' → ∃ c, contours[j]? = some c ∧ c'.points = c.points ∧ c'.from_polygons = c.from_polygons ∧
        c'.external = c.external ∧ c'.holes = c.holes ∧ ∀ k : Nat, c'.neighbors[k]? = some true ↔ ∃ z : EndId, ids z = some j ∧ ids (opp z) = some k := by
      intro j c' hc'
      obtain ⟨c1, d1, d2, d3⟩ := hcs j c' hc'
      rw [hgrown, List.getElem?_map, Option.map_eq_some_iff] at d1
      obtain ⟨c, hc, rfl⟩ := d1
      refine ⟨c, hc, by rw [d2], by rw [d2], by rw [d2], by rw [d2], fun k => ?_⟩
      rw [d3]
      constructor
      · rintro (hk | ⟨z, _, h1, h2⟩)
        · exfalso
          dsimp only at hk
          rw [hnb0 c (List.mem_of_getElem? hc)] at hk
          simp only [bvGrow, List.nil_append] at hk
          have := List.mem_of_getElem? hk
          rw [List.mem_replicate] at this
          cases this.2
        · exact ⟨z, h1, h2⟩
      · rintro ⟨z, h1, h2⟩
        right
        refine ⟨z, ⟨z, ?_, rfl⟩, h1, h2⟩
        obtain ⟨y, hy, hzy⟩ := (hT.ids_iff z j).1 h1
        exact hready.orbit_mem (hT.leaders y (List.mem_of_getElem? hy)).2 hzy
    -- below_in_result and the flags are those after the sweep
    have hside : ∀ x : EndId, x.1 < G.N → sideFlags A x = sideFlags st.arena x := hR.faces
    have hparent : ∀ x : EndId, x.1 < G.N → parentOf G A x = parentOf G st.arena x := by
      intro x hx
      unfold parentOf
      rw [hR.below _ (G.prev_lt hx)]
    have hlsN : ∀ (j : Nat) x, ls[j]? = some x → x.1 < G.N := fun j x hx => (hT.leaders x (List.mem_of_getElem? hx)).1.1
    refine ⟨by omega, ?_, hT.order, ?_, ?_, ?_, ?_, ?_⟩
    · intro x
      constructor
      · intro hx
        obtain ⟨h1, h2⟩ := hT.leaders x hx
        exact ⟨h1, ((himem x).1 h2).2⟩
      · rintro ⟨h1, h2⟩
        have hxi := (himem x).2 ⟨h1.1, h2⟩
        obtain ⟨j, hj⟩ := Option.isSome_iff_exists.1 (hT.done x hxi)
        obtain ⟨y, hy, hxy⟩ := (hT.ids_iff x j).1 hj
        have hym := List.mem_of_getElem? hy
        rw [(hT.leaders y hym).1.unique h1 hxy] at hym
        exact hym
    · intro j c' x hc' hx
      obtain ⟨c, hc, e1, e2, e3, e4, e5⟩ := hback j c' hc'
      rw [e1]; exact hT.desc.points j c x hc hx
    · intro j c' x hc' hx
      obtain ⟨c, hc, e1, e2, e3, e4, e5⟩ := hback j c' hc'
      rw [e2, hT.desc.flags j c x hc hx, hside x (hlsN j x hx)]
    · intro j c' x hc' hx
      obtain ⟨c, hc, e1, e2, e3, e4, e5⟩ := hback j c' hc'
      rw [e3, hT.desc.external j c x hc hx, hparent x (hlsN j x hx)]
    · intro j c' x hc' hx k
      obtain ⟨c, hc, e1, e2, e3, e4, e5⟩ := hback j c' hc'
      rw [e4, hT.desc.holes j c x hc hx k]
      constructor
      · rintro ⟨y, w, h1, h2, h3⟩
        exact ⟨y, w, h1, by rw [← hparent y (hlsN k y h1)]; exact h2, h3⟩
      · rintro ⟨y, w, h1, h2, h3⟩
        exact ⟨y, w, h1, by rw [hparent y (hlsN k y h1)]; exact h2, h3⟩
    · intro j c' x hc' hx
      obtain ⟨c, hc, e1, e2, e3, e4, e5⟩ := hback j c' hc'
      refine ⟨by rw [hcn c' (List.mem_of_getElem? hc'), hcl], ?_⟩
      intro k y hy
      rw [e5]
      constructor
      · rintro ⟨z, h1, h2⟩
        obtain ⟨x', hx', hz⟩ := (hT.ids_iff z j).1 h1
        obtain ⟨y', hy', hz'⟩ := (hT.ids_iff (opp z) k).1 h2
        rw [hx] at hx'
        rw [hy] at hy'
        cases hx'
        cases hy'
        exact ⟨z, hz, hz'⟩
      · rintro ⟨z, hz, hz'⟩
        exact ⟨z, (hT.ids_iff z j).2 ⟨x, hx, hz⟩, (hT.ids_iff _ k).2 ⟨y, hy, hz'⟩⟩
  · intro fuel hfuel
    have hrun' : traceAll fuel included included A [] = .ok (arena, contours) := by
      rw [traceAll_mono (fuel := included.length + 1) (by omega) (by rw [hrun]; simp), hrun]
    unfold finish
    rw [hinc]
    simp only [Res.bind_ok]
    rw [hsort1]
    simp only [Res.bind_ok]
    rw [hsort2]
    simp only [Res.bind_ok]
    rw [hrec]
    simp only [Res.bind_ok]
    rw [hrun']
    simp only [Res.bind_ok]
    rw [hnbr]
    rfl

end Idc
