import Verif.Props.PlanWalk
import Verif.Props.TidyAll
/-!
# Tracing all outlines, for C81
-/

namespace Idc

namespace Plan

open Net Function

variable {G : Plan}

/-! ### The segment below -/

theorem Under'.top {i k : ℕ} (h : G.Under' i k) : G.Top k := by
  refine ⟨h.alive.1, fun j hj hs => ?_⟩
  by_contra hn
  refine h.max j (h.alive.same hj hs.symm) ?_ (Or.inr ⟨hs.h _, not_le.1 hn⟩)
  rw [← hs.h]; exact h.low

theorem Under'.lo_eq {i k : ℕ} (h : G.Under' i k) (m : ℕ) : G.lo i m = G.hi k m := by
  have hk := h.alive.1
  have hl := h.low
  unfold Plan.hi
  rw [← Plan.lo_eq hk m (G.tau_quiet i) h.alive.2.1 h.alive.2.2]
  unfold Plan.lo par grp
  rw [← Finset.sum_add_distrib]
  refine Finset.sum_congr rfl fun j hj => ?_
  have hj := (Finset.mem_filter.1 hj).1
  by_cases hal : G.a j < G.tau i ∧ G.tau i < G.b j
  · by_cases hsm : G.Same j k
    · rw [ind_true ⟨hal.1, hal.2, by rw [hsm.h]; exact hl⟩, ind_false (by rw [hsm.h]; rintro ⟨_, _, h⟩; exact lt_irrefl _ h), zero_add,
        ind_true ⟨hsm, h.top.2 j hj hsm.symm⟩]
    · rw [ind_false (P := G.Same j k ∧ _) (fun h => hsm h.1), add_zero]
      apply ind_congr
      refine ⟨fun ⟨_, _, h1⟩ => ⟨hal.1, hal.2, ?_⟩, fun ⟨_, _, h1⟩ => ⟨hal.1, hal.2, h1.trans hl⟩⟩
      rcases lt_trichotomy (G.h j (G.tau i)) (G.h k (G.tau i)) with h2 | h2 | h2
      · exact h2
      · exact absurd (G.same_of_h hj hk hal.1 hal.2 h.alive.2.1.le h.alive.2.2.le h2) hsm
      · exact absurd (Or.inl h2) (h.max j ⟨hj, hal⟩ h1)
  · rw [ind_false (fun h => hal ⟨h.1, h.2.1⟩), ind_false (fun h => hal ⟨h.1, h.2.1⟩), ind_false, add_zero]
    rintro ⟨h1, _⟩
    exact hal (h.alive.same hj h1).2

/-- The segment below starts earlier. -/
theorem Under'.key {i k : ℕ} (hi : i ∈ G.S) (h : G.Under' i k) : G.key (k, .left) < G.key (i, .left) := by
  have hk := h.alive.1
  have h1 := ((G.alive_tau hk).1 h.alive.2).1
  rcases lt_or_eq_of_le h1 with h1 | h1
  · exact key_lt_of_time (x := (k, .left)) (y := (i, .left)) hk hi h1
  · have hp : G.lp k = G.lp i := G.time_inj (x := (k, .left)) (y := (i, .left)) hk hi h1
    refine (key_iff (e := .left) hk hi hp).2 (Or.inl ((crs_left hk hi hp (u := G.tau i) ?_).2 h.low))
    rw [h1]; exact G.a_lt_tau i

/-! ### Walks as lists -/

theorem chain_range {x : EndId} (h : G.Top x.1) : ∀ (n k : Nat), k + (n + 1) = G.len x → Chain G (G.pt x) ((List.range' k (n + 1)).map fun i => G.next^[i] x)
  | 0, k, e => by
    show G.pt (opp (G.next^[k] x)) = G.pt x
    rw [← iter_pt h, e, (len_spec h).2.1]
  | n + 1, k, e => by
    have := chain_range h n (k + 1) (by omega)
    rw [List.range'_succ, List.map_cons]
    rw [List.range'_succ, List.map_cons] at this ⊢
    refine ⟨?_, (len_spec h).2.2 (k + 1) (by omega) (by omega), this⟩
    rw [← iterate_succ_apply' G.next]

theorem arc_chain {x : EndId} (h : G.Top x.1) : ∃ l, G.arc x = x :: l ∧ Chain G (G.pt x) (x :: l) := by
  obtain ⟨n, hn⟩ : ∃ n, G.len x = n + 1 := ⟨G.len x - 1, by have := (len_spec h).1; omega⟩
  have hc := chain_range h n 0 (by omega)
  have ho : G.arc x = (List.range' 0 (n + 1)).map fun i => G.next^[i] x := by
    unfold arc
    rw [hn, List.range_eq_range']
  refine ⟨(List.range' 1 n).map fun i => G.next^[i] x, ?_, ?_⟩
  · rw [ho, List.range'_succ]; rfl
  · rw [List.range'_succ] at hc; exact hc

/-! ### The contours traced so far -/

open Classical in
/-- Does the code take the walk for clockwise? -/
noncomputable def seemsClockwise (G : Plan) (x : EndId) : Bool := match areaOf ((G.arc x).map G.pt) with
  | .ok area => FloatOps.lt area (FloatOps.ofInt 0)
  | _ => false

/-- The endpoint whose contour the code makes the parent. -/
noncomputable def parentOf (G : Plan) (A : Arena ℝ) (x : EndId) : Option EndId :=
  if seemsClockwise G x then (dat A (G.last x).1).below_in_result.map fun b => (b, .left) else none

/-- What the contours are: walks from the endpoints `ls`. -/
structure Desc (G : Plan) (A : Arena ℝ) (ls : List EndId) (contours : List (Contour ℝ)) : Prop where
  len : contours.length = ls.length
  points : ∀ (j : Nat) c x, contours[j]? = some c → ls[j]? = some x → c.points = (G.keep.arc x).map G.keep.pt
  flags : ∀ (j : Nat) c x, contours[j]? = some c → ls[j]? = some x → c.from_polygons.length = G.n ∧
    ∀ m : ℕ, c.from_polygons[m]? = some true ↔ ∃ z ∈ G.keep.arc x, (sideFlags A z)[m]? = some true
  neighbors : ∀ (j : Nat) c x, contours[j]? = some c → ls[j]? = some x → c.neighbors = []
  external : ∀ (j : Nat) c x, contours[j]? = some c → ls[j]? = some x → c.external = (parentOf G.keep A x).isNone
  holes : ∀ (j : Nat) c x, contours[j]? = some c → ls[j]? = some x → ∀ h, h ∈ c.holes ↔ ∃ y w, ls[h]? = some y ∧ parentOf G.keep A y = some w ∧ w ∈ G.keep.arc x

/-- What tracing starts from. -/
structure Ready (G : Plan) (A : Arena ℝ) (included : List EndId) : Prop where
  top : ∀ x ∈ included, G.keep.Top x.1
  arc_mem : ∀ {x y : EndId}, G.keep.Top x.1 → y ∈ G.keep.arc x → (y ∈ included ↔ x ∈ included)
  flen : ∀ x : EndId, G.keep.Top x.1 → (sideFlags A x).length = G.n
  below : ∀ i, (i, .right) ∈ included → ∀ b, (dat A i).below_in_result = some b → b ∈ G.S ∧ G.key (b, .left) < G.key (i, .left) ∧ (b ∈ G.keep.S → (b, .left) ∈ included)
  sorted : included.Pairwise fun x y => G.keep.key x < G.keep.key y
  lindex : ∀ i, (i, .left) ∈ included → included[(dat A i).left_index]? = some (i, .left)

/-- The contour that is to be the parent of a walk exists. -/
def Safe (G : Plan) (A : Arena ℝ) (x : EndId) : Prop := ∀ w, parentOf G.keep A x = some w → w.1 ∈ G.keep.S

/-- The state between two turns of the loop over the endpoints. -/
structure Traced (G : Plan) (A : Arena ℝ) (included pre : List EndId) (ids : EndId → Option Nat) (ls : List EndId) (arena : Arena ℝ) (contours : List (Contour ℝ)) : Prop where
  tr : Tr G A ids arena
  desc : Desc G A ls contours
  ids_iff : ∀ z j, ids z = some j ↔ ∃ x, ls[j]? = some x ∧ z ∈ G.keep.arc x
  leaders : ∀ x ∈ ls, G.keep.Start x ∧ x ∈ included
  safe : ∀ x ∈ ls, Safe G A x
  order : ls.Pairwise fun x y => G.keep.key x < G.keep.key y
  pre_mem : ∀ x ∈ ls, x ∈ pre
  done : ∀ z ∈ pre, (ids z).isSome
  parents : ∀ x ∈ ls, ∀ w, parentOf G.keep A x = some w → (ids w).isSome

/-- One turn of the loop. -/
theorem traceStep_plan {A : Arena ℝ} {included pre rest : List EndId} (hR : Ready G A included) {fuel : Nat} (hfuel : included.length < fuel)
    {x : EndId} (hsplit : included = pre ++ x :: rest) {ids : EndId → Option Nat} {ls : List EndId} {arena : Arena ℝ} {contours : List (Contour ℝ)}
    (h : Traced G A included pre ids ls arena contours) :
    (∃ ids' ls' arena' contours', traceStep fuel included arena contours x = .ok (arena', contours') ∧ Traced G A included (pre ++ [x]) ids' ls' arena' contours') ∨
      (G.keep.Start x ∧ ¬ Safe G A x ∧ traceStep fuel included arena contours x = .panic .unwrap) := by
  have hxi : x ∈ included := by rw [hsplit]; simp
  have hx : x.1 ∈ G.keep.S := (hR.top x hxi).1
  have hxG : x.1 ∈ G.S := (mem_keep.1 hx).1
  have hin : ∀ z ∈ included, G.keep.Top z.1 := hR.top
  obtain ⟨s, hs, hs', is, hd⟩ := h.tr.get hxG
  unfold traceStep
  rw [hs]
  simp only [Res.bind_ok]
  rw [hd, h.tr.processed x hxG]
  rcases hidx : ids x with _ | id
  swap
  · -- done already
    rw [if_pos (by rfl)]
    refine Or.inl ⟨ids, ls, arena, contours, rfl, h.tr, h.desc, h.ids_iff, h.leaders, h.safe, h.order, fun y hy => by simp [h.pre_mem y hy], ?_, h.parents⟩
    intro z hz
    rw [List.mem_append, List.mem_singleton] at hz
    rcases hz with hz | rfl
    · exact h.done z hz
    · rw [hidx]; rfl
  · rw [if_neg (by simp)]
    have hsort := hR.sorted
    rw [hsplit] at hsort
    have hsort2 := List.pairwise_append.1 hsort
    have hT : G.keep.Top x.1 := hR.top x hxi
    have hlead : G.keep.Start x := by
      obtain ⟨y, hy, hxy⟩ := exists_start hT
      have hyi : y ∈ included := (hR.arc_mem hy.1 hxy).1 hxi
      have hle : G.keep.key x ≤ G.keep.key y := by
        rw [hsplit, List.mem_append] at hyi
        rcases hyi with hyi | hyi
        · exfalso
          obtain ⟨j, hj⟩ := Option.isSome_iff_exists.1 (h.done y hyi)
          obtain ⟨w, hw, hyw⟩ := (h.ids_iff y j).1 hj
          have hws := (h.leaders w (List.mem_of_getElem? hw)).1
          have : y = w := arc_unique hy hws (self_mem_arc hy.1) hyw
          have := (h.ids_iff x j).2 ⟨w, hw, this ▸ hxy⟩
          rw [hidx] at this
          cases this
        · rcases List.mem_cons.1 hyi with e | e
          · rw [e]
          · exact ((List.pairwise_cons.1 hsort2.2.1).1 y e).le
      have h1 := time_le_of_key hx hy.1.1 hle
      have : x = y := by
        by_contra hne
        have := arc_time hy hxy hne
        linarith
      rw [this]; exact hy
    -- nothing on this walk is done
    have hfree : ∀ z ∈ G.keep.arc x, ids z = none := by
      intro z hz
      rcases hiz : ids z with _ | j
      · rfl
      · exfalso
        obtain ⟨y, hy, hzy⟩ := (h.ids_iff z j).1 hiz
        have hys := (h.leaders y (List.mem_of_getElem? hy)).1
        have := arc_unique hlead hys hz hzy
        have := (h.ids_iff x j).2 ⟨y, hy, this ▸ self_mem_arc hT⟩
        rw [hidx] at this
        cases this
    have hxl := hlead.left
    obtain ⟨i, e⟩ := x
    dsimp only at hxl
    subst hxl
    obtain ⟨l, hol, hch⟩ := arc_chain hT
    have hnd := arc_nodup hT
    have hsub : (G.keep.arc (i, .left)) ⊆ included := fun z hz => (hR.arc_mem hT hz).2 hxi
    have hlen : (G.keep.arc (i, .left)).length ≤ included.length := (List.subperm_of_subset hnd hsub).length_le
    have hlidx : included[(dat arena i).left_index]? = some (i, .left) := by
      rw [h.tr.lindex i hxG]
      exact hR.lindex i hxi
    have hfl : (dat arena i).faces .left = sideFlags A (i, .left) := h.tr.faces (i, .left) hxG
    obtain ⟨arena', last, flags, hrun, htr, hlast, hfn, hfm⟩ := traceContour_plan hin hR.sorted contours.length (p := G.keep.pt (i, .left)) l (i, .left) ids arena
      (({ (Contour.new : Contour ℝ) with from_polygons := sideFlags A (i, .left) } : Contour ℝ).add (G.keep.pt (i, .left))) (dat arena i).left_index fuel h.tr
      (by
        intro z hz
        rw [← hol] at hz
        exact ⟨hsub hz, hfree z hz, hR.flen z (arc_top hT hz)⟩)
      (by rw [hol] at hnd; exact hnd) hch hlidx (hR.flen (i, .left) hT)
      (by rw [hol, List.length_cons] at hlen; omega)
    replace hfm : ∀ m : ℕ, flags[m]? = some true ↔ ∃ z ∈ G.keep.arc (i, .left), (sideFlags A z)[m]? = some true := by
      intro m
      rw [hfm, ← hol]
      refine ⟨fun h => ?_, Or.inr⟩
      rcases h with h | h
      · exact ⟨(i, .left), self_mem_arc hT, h⟩
      · exact h
    rw [← hol] at htr hlast
    have hsl : s.left_point = G.keep.pt (i, .left) := is.left
    dsimp only
    rw [hfl, hsl, hrun]
    simp only [Res.bind_ok]
    set c0 : Contour ℝ := { (({ (Contour.new : Contour ℝ) with from_polygons := sideFlags A (i, .left) } : Contour ℝ).add (G.keep.pt (i, .left))) with
      points := (({ (Contour.new : Contour ℝ) with from_polygons := sideFlags A (i, .left) } : Contour ℝ).add (G.keep.pt (i, .left))).points ++ l.map G.keep.pt, from_polygons := flags } with hc0
    have hpts : c0.points = (G.keep.arc (i, .left)).map G.keep.pt := by
      rw [hol]; rfl
    obtain ⟨area, harea⟩ : ∃ area, areaOf c0.points = .ok area := by
      rw [hpts, hol, List.map_cons]
      unfold areaOf
      rw [List.getLast?_cons]
      exact ⟨_, rfl⟩
    have hcw : c0.clockwise = .ok (seemsClockwise G.keep (i, .left), { c0 with is_clockwise := some (seemsClockwise G.keep (i, .left)) }) := by
      have hsc : seemsClockwise G.keep (i, .left) = FloatOps.lt area (FloatOps.ofInt 0) := by
        unfold seemsClockwise
        rw [← hpts, harea]
      unfold Contour.clockwise
      rw [show c0.is_clockwise = none from rfl]
      dsimp only
      rw [harea, hsc]
      rfl
    rw [hcw]
    simp only [Res.bind_ok]
    set c1 : Contour ℝ := { c0 with is_clockwise := some (seemsClockwise G.keep (i, .left)) } with hc1
    set ids' := assignAll ids (G.keep.arc (i, .left)) contours.length with hids'
    have hlenls := h.desc.len
    have hids1 : ∀ z ∈ G.keep.arc (i, .left), ids' z = some contours.length := fun z hz => by rw [hids']; unfold assignAll; rw [if_pos hz]
    have hids2 : ∀ z, z ∉ G.keep.arc (i, .left) → ids' z = ids z := fun z hz => by rw [hids']; unfold assignAll; rw [if_neg hz]
    have hids3 : ∀ z, (ids z).isSome → (ids' z).isSome := by
      intro z hz
      by_cases hm : z ∈ G.keep.arc (i, .left)
      · rw [hids1 z hm]; rfl
      · rw [hids2 z hm]; exact hz
    have hiff : ∀ z j, ids' z = some j ↔ ∃ y, (ls ++ [(i, .left)])[j]? = some y ∧ z ∈ G.keep.arc y := by
      intro z j
      by_cases hm : z ∈ G.keep.arc (i, .left)
      · rw [hids1 z hm, hlenls]
        constructor
        · intro hj
          cases hj
          exact ⟨(i, .left), by simp, hm⟩
        · rintro ⟨y, hy, hzy⟩
          rcases lt_trichotomy j ls.length with hj | hj | hj
          · rw [List.getElem?_append_left hj] at hy
            have := (h.ids_iff z j).2 ⟨y, hy, hzy⟩
            rw [hfree z hm] at this
            cases this
          · rw [hj]
          · rw [List.getElem?_eq_none (by simp; omega)] at hy
            cases hy
      · rw [hids2 z hm, h.ids_iff]
        constructor
        · rintro ⟨y, hy, hzy⟩
          exact ⟨y, by rw [List.getElem?_append_left (List.getElem?_eq_some_iff.1 hy).1]; exact hy, hzy⟩
        · rintro ⟨y, hy, hzy⟩
          rcases lt_or_ge j ls.length with hj | hj
          · rw [List.getElem?_append_left hj] at hy
            exact ⟨y, hy, hzy⟩
          · exfalso
            rw [List.getElem?_append_right hj] at hy
            have : y = (i, .left) := by
              have := List.mem_of_getElem? hy
              rwa [List.mem_singleton] at this
            rw [this] at hzy
            exact hm hzy
    -- the parent, if there is one, is known
    have hlr := hlead.last_right
    rcases hlst : G.keep.last (i, .left) with ⟨j, e⟩
    rw [hlst] at hlr
    dsimp only at hlr
    subst hlr
    have hlm : (j, SegmentEnd.right) ∈ G.keep.arc (i, .left) := hlst ▸ last_mem hT
    have hjT : G.keep.Top j := arc_top hT hlm
    have hji : (j, SegmentEnd.right) ∈ included := hsub hlm
    have hparent : seemsClockwise G.keep (i, .left) = true → ∀ b, (dat A j).below_in_result = some b → b ∈ G.keep.S → ∃ p, ids' (b, .left) = some p ∧ p ≤ contours.length := by
      intro hcl b hb hbK
      obtain ⟨_, b3, hbi⟩ := hR.below j hji b hb
      replace hbi := hbi hbK
      have hji : G.keep.key (j, .left) < G.keep.key (i, .left) := by
        have hopp : opp (G.keep.last (i, .left)) = (j, .left) := by rw [hlst]; rfl
        have hA := start_area hlead
        rw [hopp] at hA
        rcases key_trichotomy (G := G.keep) (x := (i, .left)) (y := (j, .left)) hx hjT.1 with h1 | h1 | h1
        · have h2 := hA.1 h1
          exfalso
          unfold seemsClockwise at hcl
          rw [areaOf_eq (by rw [hol]; simp)] at hcl
          have := flt_iff.1 hcl
          simp only [FloatOps.ofInt, Int.cast_zero] at this
          linarith
        · exact absurd h1.symm (hopp ▸ last_ne hT)
        · exact h1
      have hsome : (ids' (b, .left)).isSome := by
        rw [hsplit, List.mem_append] at hbi
        rcases hbi with hbi | hbi
        · exact hids3 _ (h.done _ hbi)
        · exfalso
          have hle : G.keep.key (i, .left) ≤ G.keep.key (b, .left) := by
            rcases List.mem_cons.1 hbi with e | e
            · rw [e]
            · exact ((List.pairwise_cons.1 hsort2.2.1).1 _ e).le
          exact absurd (lt_trans b3 hji) (not_lt.2 hle)
      obtain ⟨p, hp⟩ := Option.isSome_iff_exists.1 hsome
      refine ⟨p, hp, ?_⟩
      obtain ⟨y, hy, _⟩ := (hiff _ p).1 hp
      have := (List.getElem?_eq_some_iff.1 hy).1
      simp only [List.length_append, List.length_cons, List.length_nil] at this
      omega
    -- what is known in any case
    have hcommon : Safe G A (i, .left) → ∀ cs' : List (Contour ℝ), Desc G A (ls ++ [(i, .left)]) cs' → Traced G A included (pre ++ [(i, .left)]) ids' (ls ++ [(i, .left)]) arena' cs' := by
      intro hsafe cs' hdesc
      refine ⟨htr, hdesc, hiff, ?_, ?_, ?_, ?_, ?_, ?_⟩
      · intro y hy
        rw [List.mem_append, List.mem_singleton] at hy
        rcases hy with hy | rfl
        · exact h.leaders y hy
        · exact ⟨hlead, hxi⟩
      · intro y hy
        rw [List.mem_append, List.mem_singleton] at hy
        rcases hy with hy | rfl
        · exact h.safe y hy
        · exact hsafe
      · rw [List.pairwise_append]
        refine ⟨h.order, by simp, ?_⟩
        intro a ha b hb
        rw [List.mem_singleton] at hb
        subst hb
        exact hsort2.2.2 a (h.pre_mem a ha) _ (by simp)
      · intro y hy
        rw [List.mem_append, List.mem_singleton] at hy ⊢
        rcases hy with hy | rfl
        · exact Or.inl (h.pre_mem y hy)
        · exact Or.inr rfl
      · intro z hz
        rw [List.mem_append, List.mem_singleton] at hz
        rcases hz with hz | rfl
        · exact hids3 z (h.done z hz)
        · rw [hids1 _ (self_mem_arc hT)]; rfl
      · intro y hy w hw
        rw [List.mem_append, List.mem_singleton] at hy
        rcases hy with hy | rfl
        · exact hids3 w (h.parents y hy w hw)
        · have hwK := hsafe w hw
          unfold parentOf at hw
          split at hw
          · rename_i hcl
            rw [Option.map_eq_some_iff, hlst] at hw
            obtain ⟨b, hb, rfl⟩ := hw
            obtain ⟨p, hp, _⟩ := hparent hcl b hb hwK
            rw [hp]; rfl
          · cases hw
    -- contours so far
    have hget : ∀ (j : Nat) c y, (contours ++ [c1])[j]? = some c → (ls ++ [(i, .left)])[j]? = some y →
        (contours[j]? = some c ∧ ls[j]? = some y) ∨ (j = ls.length ∧ c = c1 ∧ y = (i, .left)) := by
      intro j c y hc hy
      rcases lt_trichotomy j ls.length with hj | hj | hj
      · left
        rw [List.getElem?_append_left (by omega)] at hc hy
        exact ⟨hc, hy⟩
      · right
        rw [List.getElem?_append_right (by omega), hj, hlenls] at hc
        rw [List.getElem?_append_right (by omega), hj] at hy
        simp at hc hy
        exact ⟨hj, hc.symm, hy.symm⟩
      · rw [List.getElem?_eq_none (by simp; omega)] at hy
        cases hy
    -- earlier contours have no parent on this walk
    have hearlier : ∀ (k : Nat) y w, ls[k]? = some y → parentOf G.keep A y = some w → w ∉ G.keep.arc (i, .left) := by
      intro k y w hy hw hm
      have := h.parents y (List.mem_of_getElem? hy) w hw
      rw [hfree w hm] at this
      cases this
    have hlsget : ∀ (k : Nat) y, (ls ++ [(i, SegmentEnd.left)])[k]? = some y → ls[k]? = some y ∨ (k = ls.length ∧ y = (i, .left)) := by
      intro k y hy
      rcases lt_trichotomy k ls.length with hj | hj | hj
      · left; rwa [List.getElem?_append_left (by omega)] at hy
      · right
        rw [List.getElem?_append_right (by omega), hj] at hy
        simp at hy
        exact ⟨hj, hy.symm⟩
      · rw [List.getElem?_eq_none (by simp; omega)] at hy
        cases hy
    have hlsget' : ∀ (k : Nat) y, ls[k]? = some y → (ls ++ [(i, SegmentEnd.left)])[k]? = some y := by
      intro k y hy
      rw [List.getElem?_append_left (List.getElem?_eq_some_iff.1 hy).1]
      exact hy
    -- without a parent
    have hnoparent : parentOf G.keep A (i, .left) = none → Desc G A (ls ++ [(i, .left)]) (contours ++ [c1]) := by
      intro hnp
      refine ⟨by simp [hlenls], ?_, ?_, ?_, ?_, ?_⟩
      · intro j c y hc hy
        rcases hget j c y hc hy with ⟨a1, a2⟩ | ⟨_, rfl, rfl⟩
        · exact h.desc.points j c y a1 a2
        · exact hpts
      · intro j c y hc hy
        rcases hget j c y hc hy with ⟨a1, a2⟩ | ⟨_, rfl, rfl⟩
        · exact h.desc.flags j c y a1 a2
        · exact ⟨hfn, hfm⟩
      · intro j c y hc hy
        rcases hget j c y hc hy with ⟨a1, a2⟩ | ⟨_, rfl, rfl⟩
        · exact h.desc.neighbors j c y a1 a2
        · rfl
      · intro j c y hc hy
        rcases hget j c y hc hy with ⟨a1, a2⟩ | ⟨_, rfl, rfl⟩
        · exact h.desc.external j c y a1 a2
        · rw [hnp]; rfl
      · intro j c y hc hy k
        rcases hget j c y hc hy with ⟨a1, a2⟩ | ⟨_, rfl, rfl⟩
        · rw [h.desc.holes j c y a1 a2 k]
          constructor
          · rintro ⟨z, w, z1, z2, z3⟩
            exact ⟨z, w, hlsget' k z z1, z2, z3⟩
          · rintro ⟨z, w, z1, z2, z3⟩
            rcases hlsget k z z1 with z1 | ⟨_, rfl⟩
            · exact ⟨z, w, z1, z2, z3⟩
            · rw [hnp] at z2; cases z2
        · constructor
          · intro hk
            have : c1.holes = [] := rfl
            rw [this] at hk
            cases hk
          · rintro ⟨z, w, z1, z2, z3⟩
            exfalso
            rcases hlsget k z z1 with z1 | ⟨_, rfl⟩
            · exact hearlier k z w z1 z2 z3
            · rw [hnp] at z2; cases z2
    by_cases hcl : seemsClockwise G.keep (i, .left) = true
    · rw [if_pos hcl]
      have hli : index included last = .ok (j, .right) := by
        unfold index
        rw [hlast, arc_getLast hT, hlst]
      rw [hli]
      simp only [Res.bind_ok]
      obtain ⟨s2, hs2, hs2', is2, hd2⟩ := htr.get (x := (j, .right)) (mem_keep.1 hjT.1).1
      rw [hs2]
      simp only [Res.bind_ok]
      rw [hd2, htr.below _ (mem_keep.1 hjT.1).1]
      rcases hb : (dat A j).below_in_result with _ | b
      · dsimp only
        have hnp : parentOf G.keep A (i, .left) = none := by
          unfold parentOf
          rw [hlst, hb]; simp
        exact Or.inl ⟨ids', _, arena', _, rfl, hcommon (fun w hw => by rw [hnp] at hw; cases hw) _ (hnoparent hnp)⟩
      · dsimp only
        have hbN := (hR.below j hji b hb).1
        have hpar : parentOf G.keep A (i, .left) = some (b, .left) := by
          unfold parentOf
          rw [if_pos hcl, hlst, hb]; rfl
        obtain ⟨s3, hs3, hs3', is3, hd3⟩ := htr.get (x := (b, .left)) hbN
        dsimp only at hs3
        rw [hs3]
        simp only [Res.bind_ok]
        rw [hd3, htr.lid b hbN]
        by_cases hbK : b ∈ G.keep.S
        swap
        · right
          refine ⟨hlead, fun hsafe => hbK (hsafe _ hpar), ?_⟩
          have : ids' (b, .left) = none := by
            rcases hi : ids' (b, .left) with _ | q
            · rfl
            · exfalso
              obtain ⟨y, hy, hm⟩ := (hiff _ _).1 hi
              rcases List.mem_append.1 (List.mem_of_getElem? hy) with hy | hy
              · exact hbK (arc_top (h.leaders y hy).1.1 hm).1
              · rw [List.mem_singleton] at hy
                rw [hy] at hm
                exact hbK (arc_top hT hm).1
          rw [this]
          rfl
        have hsafe : Safe G A (i, .left) := by
          intro w hw
          rw [hpar] at hw
          cases hw
          exact hbK
        obtain ⟨p, hp, hple⟩ := hparent hcl b hb hbK
        rw [hp]
        have hpl : p < (contours ++ [c1]).length := by simp; omega
        obtain ⟨cp, hcp⟩ : ∃ cp, (contours ++ [c1])[p]? = some cp := ⟨_, List.getElem?_eq_getElem hpl⟩
        have hm1 := modify_at hcp (fun c => c.addHole contours.length)
        have hsl1 : contours.length < ((contours ++ [c1]).set p (cp.addHole contours.length)).length := by simp
        obtain ⟨cq, hcq⟩ : ∃ cq, ((contours ++ [c1]).set p (cp.addHole contours.length))[contours.length]? = some cq := ⟨_, List.getElem?_eq_getElem hsl1⟩
        have hm2 := modify_at hcq (fun c => c.setExternal false)
        rw [show unwrap (some p) = Res.ok p from rfl]
        simp only [Res.bind_ok]
        rw [hm1]
        simp only [Res.bind_ok]
        rw [hm2]
        refine Or.inl ⟨ids', _, arena', _, rfl, hcommon hsafe _ ?_⟩
        -- each contour, before and after
        have hafter : ∀ (j : Nat) c, (((contours ++ [c1]).set p (cp.addHole contours.length)).set contours.length (cq.setExternal false))[j]? = some c →
            ∃ c', (contours ++ [c1])[j]? = some c' ∧ c.points = c'.points ∧ c.from_polygons = c'.from_polygons ∧ c.neighbors = c'.neighbors ∧
              (c.external = if j = contours.length then false else c'.external) ∧ c.holes = if j = p then c'.holes ++ [contours.length] else c'.holes := by
          have step1 : ∀ (j : Nat) c, ((contours ++ [c1]).set p (cp.addHole contours.length))[j]? = some c → ∃ c', (contours ++ [c1])[j]? = some c' ∧
              c.points = c'.points ∧ c.from_polygons = c'.from_polygons ∧ c.neighbors = c'.neighbors ∧
              c.external = c'.external ∧ c.holes = if j = p then c'.holes ++ [contours.length] else c'.holes := by
            intro j c hc
            rw [set_get _ _ _ _ hpl] at hc
            by_cases hjp : j = p
            · rw [if_pos hjp] at hc
              cases hc
              refine ⟨cp, by rw [hjp]; exact hcp, rfl, rfl, rfl, rfl, ?_⟩
              rw [if_pos hjp]; rfl
            · rw [if_neg hjp] at hc
              refine ⟨c, hc, rfl, rfl, rfl, rfl, ?_⟩
              rw [if_neg hjp]
          intro j c hc
          rw [set_get _ _ _ _ hsl1] at hc
          by_cases hjc : j = contours.length
          · rw [if_pos hjc] at hc
            cases hc
            obtain ⟨c', d1, d2, d3, d4, d5, d6⟩ := step1 j cq (by rw [hjc]; exact hcq)
            refine ⟨c', d1, d2, d3, d4, ?_, d6⟩
            rw [if_pos hjc]; rfl
          · rw [if_neg hjc] at hc
            obtain ⟨c', d1, d2, d3, d4, d5, d6⟩ := step1 j c hc
            refine ⟨c', d1, d2, d3, d4, ?_, d6⟩
            rw [if_neg hjc]; exact d5
        refine ⟨by simp [hlenls], ?_, ?_, ?_, ?_, ?_⟩
        · intro j c y hc hy
          obtain ⟨c', d1, d2, d3, d4, d5, d6⟩ := hafter j c hc
          rcases hget j c' y d1 hy with ⟨a1, a2⟩ | ⟨_, rfl, rfl⟩
          · rw [d2]; exact h.desc.points j c' y a1 a2
          · rw [d2]; exact hpts
        · intro j c y hc hy
          obtain ⟨c', d1, d2, d3, d4, d5, d6⟩ := hafter j c hc
          rcases hget j c' y d1 hy with ⟨a1, a2⟩ | ⟨_, rfl, rfl⟩
          · rw [d3]; exact h.desc.flags j c' y a1 a2
          · rw [d3]; exact ⟨hfn, hfm⟩
        · intro j c y hc hy
          obtain ⟨c', d1, d2, d3, d4, d5, d6⟩ := hafter j c hc
          rcases hget j c' y d1 hy with ⟨a1, a2⟩ | ⟨_, rfl, rfl⟩
          · rw [d4]; exact h.desc.neighbors j c' y a1 a2
          · rw [d4]; rfl
        · intro j c y hc hy
          obtain ⟨c', d1, d2, d3, d4, d5, d6⟩ := hafter j c hc
          rcases hget j c' y d1 hy with ⟨a1, a2⟩ | ⟨hj, rfl, rfl⟩
          · rw [d5, if_neg]
            · exact h.desc.external j c' y a1 a2
            · have := (List.getElem?_eq_some_iff.1 a1).1
              omega
          · rw [d5, if_pos (by omega), hpar]; rfl
        · intro j c y hc hy k
          obtain ⟨c', d1, d2, d3, d4, d5, d6⟩ := hafter j c hc
          have hjp : j = p ↔ (b, SegmentEnd.left) ∈ G.keep.arc y := by
            constructor
            · rintro rfl
              obtain ⟨y', hy', hm⟩ := (hiff _ _).1 hp
              rw [hy] at hy'
              cases hy'
              exact hm
            · intro hm
              have := (hiff _ j).2 ⟨y, hy, hm⟩
              rw [hp] at this
              exact (Option.some.inj this).symm
          have hold : k ∈ c'.holes ↔ ∃ z w, ls[k]? = some z ∧ parentOf G.keep A z = some w ∧ w ∈ G.keep.arc y := by
            rcases hget j c' y d1 hy with ⟨a1, a2⟩ | ⟨hj, rfl, rfl⟩
            · exact h.desc.holes j c' y a1 a2 k
            · constructor
              · intro hk
                have : c1.holes = [] := rfl
                rw [this] at hk
                cases hk
              · rintro ⟨z, w, z1, z2, z3⟩
                exact absurd z3 (hearlier k z w z1 z2)
          have hall : k ∈ c.holes ↔ k ∈ c'.holes ∨ (j = p ∧ k = contours.length) := by
            rw [d6]
            by_cases e : j = p
            · rw [if_pos e, List.mem_append, List.mem_singleton]
              exact or_congr_right (by simp [e])
            · rw [if_neg e]
              simp [e]
          rw [hall, hold, hjp]
          constructor
          · rintro (⟨z, w, z1, z2, z3⟩ | ⟨z1, z2⟩)
            · exact ⟨z, w, hlsget' k z z1, z2, z3⟩
            · refine ⟨(i, .left), (b, .left), ?_, hpar, z1⟩
              rw [z2, hlenls, List.getElem?_append_right (le_refl _)]
              simp
          · rintro ⟨z, w, z1, z2, z3⟩
            rcases hlsget k z z1 with z1 | ⟨hk, rfl⟩
            · exact Or.inl ⟨z, w, z1, z2, z3⟩
            · rw [hpar] at z2
              cases z2
              exact Or.inr ⟨z3, by omega⟩
    · rw [if_neg hcl]
      have hnp : parentOf G.keep A (i, .left) = none := by
        unfold parentOf
        rw [if_neg hcl]
      exact Or.inl ⟨ids', _, arena', _, rfl, hcommon (fun w hw => by rw [hnp] at hw; cases hw) _ (hnoparent hnp)⟩

/-- The loop over the endpoints. -/
theorem traceAll_plan {A : Arena ℝ} {included : List EndId} (hR : Ready G A included) {fuel : Nat} (hfuel : included.length < fuel) :
    ∀ (rest pre : List EndId) (ids : EndId → Option Nat) (ls : List EndId) (arena : Arena ℝ) (contours : List (Contour ℝ)), included = pre ++ rest →
    Traced G A included pre ids ls arena contours →
    (∃ ids' ls' arena' contours', traceAll fuel included rest arena contours = .ok (arena', contours') ∧ Traced G A included included ids' ls' arena' contours') ∨
      ∃ x ∈ included, G.keep.Start x ∧ ¬ Safe G A x ∧ traceAll fuel included rest arena contours = .panic .unwrap
  | [], pre, ids, ls, arena, contours, hsplit, h => by
    refine Or.inl ⟨ids, ls, arena, contours, rfl, ?_⟩
    rw [List.append_nil] at hsplit
    subst hsplit
    exact h
  | x :: rest, pre, ids, ls, arena, contours, hsplit, h => by
    rcases traceStep_plan hR hfuel hsplit h with ⟨ids1, ls1, arena1, contours1, hrun, h1⟩ | ⟨h1, h2, hrun⟩
    · have hgo : traceAll fuel included (x :: rest) arena contours = traceAll fuel included rest arena1 contours1 := by
        rw [traceAll, hrun]
        rfl
      rw [hgo]
      exact traceAll_plan hR hfuel rest (pre ++ [x]) ids1 ls1 arena1 contours1 (by rw [hsplit]; simp) h1
    · refine Or.inr ⟨x, by rw [hsplit]; simp, h1, h2, ?_⟩
      rw [traceAll, hrun]
      rfl

end Plan

end Idc
