import Verif.Props.TidyTrace
/-!
# Tracing all outlines of a net, for C76
-/

namespace Idc

open Net Function

variable {G : Net}

/-! ### Walks as lists -/

theorem chain_range {x : EndId} (h : x.1 < G.N) : ∀ (n k : Nat), k + (n + 1) = G.period x → Chain G x ((List.range' k (n + 1)).map fun i => G.next^[i] x)
  | 0, k, e => by
    show G.next (G.next^[k] x) = x
    rw [← iterate_succ_apply' G.next, Nat.succ_eq_add_one, show k + 1 = G.period x by omega, iter_period]
  | n + 1, k, e => by
    have := chain_range h n (k + 1) (by omega)
    rw [List.range'_succ, List.map_cons]
    rw [List.range'_succ, List.map_cons] at this ⊢
    refine ⟨?_, this⟩
    rw [← iterate_succ_apply' G.next]

theorem orbit_chain {x : EndId} (h : x.1 < G.N) : ∃ l, G.orbit x = x :: l ∧ Chain G x (x :: l) := by
  obtain ⟨n, hn⟩ : ∃ n, G.period x = n + 1 := ⟨G.period x - 1, by have := period_pos h; omega⟩
  have hc := chain_range h n 0 (by omega)
  have ho : G.orbit x = (List.range' 0 (n + 1)).map fun i => G.next^[i] x := by
    unfold orbit
    rw [hn, List.range_eq_range']
  refine ⟨(List.range' 1 n).map fun i => G.next^[i] x, ?_, ?_⟩
  · rw [ho, List.range'_succ]; rfl
  · rw [List.range'_succ] at hc; exact hc

theorem chain_last {x : EndId} : ∀ {l : List EndId}, Chain G x l → ∃ z, l.getLast? = some z ∧ G.next z = x
  | [], h => h.elim
  | [y], h => ⟨y, rfl, h⟩
  | y :: z :: l, h => by
    obtain ⟨w, hw, hn⟩ := chain_last (l := z :: l) h.2
    exact ⟨w, by rw [List.getLast?_cons_cons]; exact hw, hn⟩

theorem orbit_last {x : EndId} (h : x.1 < G.N) : (G.orbit x).getLast? = some (G.prev x) := by
  obtain ⟨l, hl, hc⟩ := orbit_chain h
  rw [hl]
  obtain ⟨z, hz, hn⟩ := chain_last hc
  rw [hz, ← hn, G.prev_next]
  refine orbit_lt h ?_
  rw [hl]
  exact List.mem_of_getLast? hz

/-! ### The contours traced so far -/

open Classical in
/-- Does the code take the walk for clockwise? -/
noncomputable def seemsClockwise (G : Net) (x : EndId) : Bool := match areaOf ((G.orbit x).map G.pt) with
  | .ok area => FloatOps.lt area (FloatOps.ofInt 0)
  | _ => false

/-- The endpoint whose contour the code makes the parent. -/
noncomputable def parentOf (G : Net) (A : Arena ℝ) (x : EndId) : Option EndId :=
  if seemsClockwise G x then (dat A (G.prev x).1).below_in_result.map fun b => (b, .left) else none

/-- What the contours are: walks from the endpoints `ls`. -/
structure Desc (G : Net) (A : Arena ℝ) (ls : List EndId) (contours : List (Contour ℝ)) : Prop where
  len : contours.length = ls.length
  points : ∀ (j : Nat) c x, contours[j]? = some c → ls[j]? = some x → c.points = (G.orbit x).map G.pt
  flags : ∀ (j : Nat) c x, contours[j]? = some c → ls[j]? = some x → c.from_polygons = sideFlags A x
  neighbors : ∀ (j : Nat) c x, contours[j]? = some c → ls[j]? = some x → c.neighbors = []
  external : ∀ (j : Nat) c x, contours[j]? = some c → ls[j]? = some x → c.external = (parentOf G A x).isNone
  holes : ∀ (j : Nat) c x, contours[j]? = some c → ls[j]? = some x → ∀ h, h ∈ c.holes ↔ ∃ y w, ls[h]? = some y ∧ parentOf G A y = some w ∧ w ∈ G.orbit x

/-- What tracing starts from. -/
structure Ready (G : Net) (A : Arena ℝ) (W : List Bool → Prop) (included : List EndId) : Prop where
  corner : ∀ x : EndId, x.1 < G.N → sideFlags A (G.mate x) = sideFlags A (opp x)
  below : ∀ i < G.N, ∀ k, (dat A i).below_in_result = some k → k < G.N ∧
    (dat A k).left_faces_polygons = (dat A i).right_faces_polygons ∧ G.key (k, .left) < G.key (i, .left)
  mem : ∀ x, x ∈ included ↔ x.1 < G.N ∧ W (sideFlags A x)
  sorted : included.Pairwise fun x y => G.key x < G.key y
  lindex : ∀ i, (i, .left) ∈ included → included[(dat A i).left_index]? = some (i, .left)

theorem Ready.orbit_flags {A : Arena ℝ} {W : List Bool → Prop} {included : List EndId} (h : Ready G A W included) {x y : EndId} (hx : x.1 < G.N) (hy : y ∈ G.orbit x) :
    sideFlags A y = sideFlags A x := by
  obtain ⟨k, rfl⟩ := (mem_orbit hx).1 hy
  clear hy
  induction k with
  | zero => rfl
  | succ k ih =>
    rw [iterate_succ_apply', G.next_eq, h.corner (opp (G.next^[k] x)) (G.iter_lt hx k), opp_opp]
    exact ih

theorem Ready.orbit_mem {A : Arena ℝ} {W : List Bool → Prop} {included : List EndId} (h : Ready G A W included) {x y : EndId} (hx : x ∈ included) (hy : y ∈ G.orbit x) :
    y ∈ included := by
  have hx' := (h.mem x).1 hx
  exact (h.mem y).2 ⟨orbit_lt hx'.1 hy, by rw [h.orbit_flags hx'.1 hy]; exact hx'.2⟩

/-- The state between two turns of the loop over the endpoints. -/
structure Traced (G : Net) (A : Arena ℝ) (included pre : List EndId) (ids : EndId → Option Nat) (ls : List EndId) (arena : Arena ℝ) (contours : List (Contour ℝ)) : Prop where
  tr : Tr G A ids arena
  desc : Desc G A ls contours
  ids_iff : ∀ z j, ids z = some j ↔ ∃ x, ls[j]? = some x ∧ z ∈ G.orbit x
  leaders : ∀ x ∈ ls, G.Leader x ∧ x ∈ included
  order : ls.Pairwise fun x y => G.key x < G.key y
  pre_mem : ∀ x ∈ ls, x ∈ pre
  done : ∀ z ∈ pre, (ids z).isSome
  parents : ∀ x ∈ ls, ∀ w, parentOf G A x = some w → (ids w).isSome

theorem modify_at {cs : List (Contour ℝ)} {i : Nat} {c : Contour ℝ} (h : cs[i]? = some c) (f : Contour ℝ → Contour ℝ) :
    modifyContour cs i (fun c => .ok (f c)) = .ok (cs.set i (f c)) := by
  unfold modifyContour index
  rw [h]
  rfl

theorem set_get {α : Type} (l : List α) (i : Nat) (a : α) (j : Nat) (h : i < l.length) : (l.set i a)[j]? = if j = i then some a else l[j]? := by
  rw [List.getElem?_set]
  by_cases e : i = j
  · subst e; simp [h]
  · rw [if_neg e, if_neg (Ne.symm e)]

/-- One turn of the loop. -/
theorem traceStep_net {A : Arena ℝ} {W : List Bool → Prop} {included pre rest : List EndId} (hR : Ready G A W included) {fuel : Nat} (hfuel : included.length < fuel)
    {x : EndId} (hsplit : included = pre ++ x :: rest) {ids : EndId → Option Nat} {ls : List EndId} {arena : Arena ℝ} {contours : List (Contour ℝ)}
    (h : Traced G A included pre ids ls arena contours) :
    ∃ ids' ls' arena' contours', traceStep fuel included arena contours x = .ok (arena', contours') ∧ Traced G A included (pre ++ [x]) ids' ls' arena' contours' := by
  have hxi : x ∈ included := by rw [hsplit]; simp
  have hx : x.1 < G.N := ((hR.mem x).1 hxi).1
  have hin : ∀ z ∈ included, z.1 < G.N := fun z hz => ((hR.mem z).1 hz).1
  obtain ⟨s, hs, hs', is, hd⟩ := h.tr.get hx
  unfold traceStep
  rw [hs]
  simp only [Res.bind_ok]
  rw [hd, h.tr.processed x hx]
  rcases hidx : ids x with _ | id
  swap
  · -- done already
    rw [if_pos (by rfl)]
    refine ⟨ids, ls, arena, contours, rfl, h.tr, h.desc, h.ids_iff, h.leaders, h.order, fun y hy => by simp [h.pre_mem y hy], ?_, h.parents⟩
    intro z hz
    rw [List.mem_append, List.mem_singleton] at hz
    rcases hz with hz | rfl
    · exact h.done z hz
    · rw [hidx]; rfl
  · rw [if_neg (by simp)]
    -- nothing on this walk is done
    have hfree : ∀ z ∈ G.orbit x, ids z = none := by
      intro z hz
      rcases hiz : ids z with _ | j
      · rfl
      · exfalso
        obtain ⟨y, hy, hzy⟩ := (h.ids_iff z j).1 hiz
        have hyN := (h.leaders y (List.mem_of_getElem? hy)).1.1
        have := (h.ids_iff x j).2 ⟨y, hy, orbit_trans hyN hzy (orbit_symm hx hz)⟩
        rw [hidx] at this
        cases this
    have hsort := hR.sorted
    rw [hsplit] at hsort
    have hsort2 := List.pairwise_append.1 hsort
    have hlead : G.Leader x := by
      refine ⟨hx, fun y hy => ?_⟩
      have hyi := hR.orbit_mem hxi hy
      rw [hsplit, List.mem_append] at hyi
      rcases hyi with hyi | hyi
      · have := h.done y hyi
        rw [hfree y hy] at this
        cases this
      · rcases List.mem_cons.1 hyi with e | e
        · rw [e]
        · exact ((List.pairwise_cons.1 hsort2.2.1).1 y e).le
    have hxl := hlead.left
    obtain ⟨i, e⟩ := x
    dsimp only at hxl
    subst hxl
    obtain ⟨l, hol, hch⟩ := orbit_chain hx
    have hnd := orbit_nodup (G := G) (i, .left)
    have hsub : (G.orbit (i, .left)) ⊆ included := fun z hz => hR.orbit_mem hxi hz
    have hlen : (G.orbit (i, .left)).length ≤ included.length := (List.subperm_of_subset hnd hsub).length_le
    have hlidx : included[(dat arena i).left_index]? = some (i, .left) := by
      rw [h.tr.lindex i hx]
      exact hR.lindex i hxi
    have hfl : (dat arena i).faces .left = sideFlags A (i, .left) := h.tr.faces (i, .left) hx
    obtain ⟨arena', last, hrun, htr, hlast⟩ := traceContour_net hin hR.sorted contours.length hx (sideFlags A (i, .left)) l (i, .left) ids arena
      (({ (Contour.new : Contour ℝ) with from_polygons := sideFlags A (i, .left) } : Contour ℝ).add (G.pt (i, .left))) (dat arena i).left_index fuel h.tr
      (by
        intro z hz
        rw [← hol] at hz
        exact ⟨hsub hz, hfree z hz, hR.orbit_flags hx hz, fun e => opp_not_mem_orbit hx hz (by rw [e]; exact self_mem_orbit hx)⟩)
      (by rw [hol, List.nodup_cons] at hnd; exact hnd.1) (by rw [hol] at hnd; exact hnd) hch hlidx rfl
      (by rw [hol, List.length_cons] at hlen; omega)
    rw [← hol] at htr hlast
    have hsl : s.left_point = G.pt (i, .left) := is.left
    dsimp only
    rw [hfl, hsl, hrun]
    simp only [Res.bind_ok]
    set c0 : Contour ℝ := { (({ (Contour.new : Contour ℝ) with from_polygons := sideFlags A (i, .left) } : Contour ℝ).add (G.pt (i, .left))) with
      points := (({ (Contour.new : Contour ℝ) with from_polygons := sideFlags A (i, .left) } : Contour ℝ).add (G.pt (i, .left))).points ++ l.map G.pt } with hc0
    have hpts : c0.points = (G.orbit (i, .left)).map G.pt := by
      rw [hol]; rfl
    obtain ⟨area, harea⟩ : ∃ area, areaOf c0.points = .ok area := by
      rw [hpts, hol, List.map_cons]
      unfold areaOf
      rw [List.getLast?_cons]
      exact ⟨_, rfl⟩
    have hcw : c0.clockwise = .ok (seemsClockwise G (i, .left), { c0 with is_clockwise := some (seemsClockwise G (i, .left)) }) := by
      have hsc : seemsClockwise G (i, .left) = FloatOps.lt area (FloatOps.ofInt 0) := by
        unfold seemsClockwise
        rw [← hpts, harea]
      unfold Contour.clockwise
      rw [show c0.is_clockwise = none from rfl]
      dsimp only
      rw [harea, hsc]
      rfl
    rw [hcw]
    simp only [Res.bind_ok]
    set c1 : Contour ℝ := { c0 with is_clockwise := some (seemsClockwise G (i, .left)) } with hc1
    set ids' := assignAll ids (G.orbit (i, .left)) contours.length with hids'
    have hlenls := h.desc.len
    have hids1 : ∀ z ∈ G.orbit (i, .left), ids' z = some contours.length := fun z hz => by rw [hids']; unfold assignAll; rw [if_pos hz]
    have hids2 : ∀ z, z ∉ G.orbit (i, .left) → ids' z = ids z := fun z hz => by rw [hids']; unfold assignAll; rw [if_neg hz]
    have hids3 : ∀ z, (ids z).isSome → (ids' z).isSome := by
      intro z hz
      by_cases hm : z ∈ G.orbit (i, .left)
      · rw [hids1 z hm]; rfl
      · rw [hids2 z hm]; exact hz
    have hiff : ∀ z j, ids' z = some j ↔ ∃ y, (ls ++ [(i, .left)])[j]? = some y ∧ z ∈ G.orbit y := by
      intro z j
      by_cases hm : z ∈ G.orbit (i, .left)
      · rw [hids1 z hm, hlenls]
        constructor
        · intro hj
          cases hj
          exact ⟨(i, .left), by simp, hm⟩
        · rintro ⟨y, hy, hzy⟩
          rcases lt_trichotomy j ls.length with hj | hj | hj
          · rw [List.getElem?_append_left hj] at hy
            have := (h.ids_iff z j).2 ⟨y, hy, hzy⟩
            rw [hfree z hm] at this
            cases this
          · rw [hj]
          · rw [List.getElem?_eq_none (by simp; omega)] at hy
            cases hy
      · rw [hids2 z hm, h.ids_iff]
        constructor
        · rintro ⟨y, hy, hzy⟩
          exact ⟨y, by rw [List.getElem?_append_left (List.getElem?_eq_some_iff.1 hy).1]; exact hy, hzy⟩
        · rintro ⟨y, hy, hzy⟩
          rcases lt_or_ge j ls.length with hj | hj
          · rw [List.getElem?_append_left hj] at hy
            exact ⟨y, hy, hzy⟩
          · exfalso
            rw [List.getElem?_append_right hj] at hy
            have : y = (i, .left) := by
              have := List.mem_of_getElem? hy
              rwa [List.mem_singleton] at this
            rw [this] at hzy
            exact hm hzy
    -- the parent, if there is one, is known
    have hparent : ∀ b, (dat A (G.prev (i, .left)).1).below_in_result = some b → b < G.N ∧ ∃ p, ids' (b, .left) = some p ∧ p ≤ contours.length := by
      intro b hb
      have hmate := hlead.mate
      rcases hm : G.mate (i, .left) with ⟨j, e⟩
      rw [hm] at hmate
      dsimp only at hmate
      subst hmate
      have hpj : G.prev (i, .left) = (j, .right) := by unfold prev; rw [hm]; rfl
      have hj : j < G.N := by have := G.mate_lt hx; rw [hm] at this; exact this
      rw [hpj] at hb
      obtain ⟨b1, b2, b3⟩ := hR.below j hj b hb
      have hflb : sideFlags A (b, .left) = sideFlags A (i, .left) := by
        rw [← hR.orbit_flags hx (G.prev_mem_orbit hx), hpj]
        exact b2
      have hbi : (b, .left) ∈ included := (hR.mem _).2 ⟨b1, by rw [hflb]; exact ((hR.mem _).1 hxi).2⟩
      have hsome : (ids' (b, .left)).isSome := by
        rw [hsplit, List.mem_append] at hbi
        rcases hbi with hbi | hbi
        · exact hids3 _ (h.done _ hbi)
        · have hle : G.key (i, .left) ≤ G.key (b, .left) := by
            rcases List.mem_cons.1 hbi with e | e
            · rw [e]
            · exact ((List.pairwise_cons.1 hsort2.2.1).1 _ e).le
          have hpt : G.pt (b, .left) = G.pt (i, .left) := by
            by_contra hne
            have hmp : G.pt (j, .left) = G.pt (i, .left) := by rw [← hm]; exact G.mate_pt hx
            rcases LeftOf.total hne with h1 | h1
            · exact absurd (key_lt_of_leftOf h1) (not_lt.2 hle)
            · exact absurd (key_lt_of_leftOf (x := (j, .left)) (y := (b, .left)) (by rw [hmp]; exact h1)) (lt_asymm b3)
          rcases G.at_corner hx (y := (b, .left)) b1 hpt with e | e
          · rw [e, hids1 _ (self_mem_orbit hx)]; rfl
          · rw [hm] at e
            rw [e] at b3
            exact absurd b3 (lt_irrefl _)
      obtain ⟨p, hp⟩ := Option.isSome_iff_exists.1 hsome
      refine ⟨b1, p, hp, ?_⟩
      obtain ⟨y, hy, _⟩ := (hiff _ p).1 hp
      have := (List.getElem?_eq_some_iff.1 hy).1
      simp only [List.length_append, List.length_cons, List.length_nil] at this
      omega
    -- what is known in any case
    have hcommon : ∀ cs' : List (Contour ℝ), Desc G A (ls ++ [(i, .left)]) cs' → Traced G A included (pre ++ [(i, .left)]) ids' (ls ++ [(i, .left)]) arena' cs' := by
      intro cs' hdesc
      refine ⟨htr, hdesc, hiff, ?_, ?_, ?_, ?_, ?_⟩
      · intro y hy
        rw [List.mem_append, List.mem_singleton] at hy
        rcases hy with hy | rfl
        · exact h.leaders y hy
        · exact ⟨hlead, hxi⟩
      · rw [List.pairwise_append]
        refine ⟨h.order, by simp, ?_⟩
        intro a ha b hb
        rw [List.mem_singleton] at hb
        subst hb
        exact hsort2.2.2 a (h.pre_mem a ha) _ (by simp)
      · intro y hy
        rw [List.mem_append, List.mem_singleton] at hy ⊢
        rcases hy with hy | rfl
        · exact Or.inl (h.pre_mem y hy)
        · exact Or.inr rfl
      · intro z hz
        rw [List.mem_append, List.mem_singleton] at hz
        rcases hz with hz | rfl
        · exact hids3 z (h.done z hz)
        · rw [hids1 _ (self_mem_orbit hx)]; rfl
      · intro y hy w hw
        rw [List.mem_append, List.mem_singleton] at hy
        rcases hy with hy | rfl
        · exact hids3 w (h.parents y hy w hw)
        · unfold parentOf at hw
          split at hw
          · rw [Option.map_eq_some_iff] at hw
            obtain ⟨b, hb, rfl⟩ := hw
            obtain ⟨_, p, hp, _⟩ := hparent b hb
            rw [hp]; rfl
          · cases hw
    -- contours so far
    have hget : ∀ (j : Nat) c y, (contours ++ [c1])[j]? = some c → (ls ++ [(i, .left)])[j]? = some y →
        (contours[j]? = some c ∧ ls[j]? = some y) ∨ (j = ls.length ∧ c = c1 ∧ y = (i, .left)) := by
      intro j c y hc hy
      rcases lt_trichotomy j ls.length with hj | hj | hj
      · left
        rw [List.getElem?_append_left (by omega)] at hc hy
        exact ⟨hc, hy⟩
      · right
        rw [List.getElem?_append_right (by omega), hj, hlenls] at hc
        rw [List.getElem?_append_right (by omega), hj] at hy
        simp at hc hy
        exact ⟨hj, hc.symm, hy.symm⟩
      · rw [List.getElem?_eq_none (by simp; omega)] at hy
        cases hy
    -- earlier contours have no parent on this walk
    have hearlier : ∀ (k : Nat) y w, ls[k]? = some y → parentOf G A y = some w → w ∉ G.orbit (i, .left) := by
      intro k y w hy hw hm
      have := h.parents y (List.mem_of_getElem? hy) w hw
      rw [hfree w hm] at this
      cases this
    have hlsget : ∀ (k : Nat) y, (ls ++ [(i, SegmentEnd.left)])[k]? = some y → ls[k]? = some y ∨ (k = ls.length ∧ y = (i, .left)) := by
      intro k y hy
      rcases lt_trichotomy k ls.length with hj | hj | hj
      · left; rwa [List.getElem?_append_left (by omega)] at hy
      · right
        rw [List.getElem?_append_right (by omega), hj] at hy
        simp at hy
        exact ⟨hj, hy.symm⟩
      · rw [List.getElem?_eq_none (by simp; omega)] at hy
        cases hy
    have hlsget' : ∀ (k : Nat) y, ls[k]? = some y → (ls ++ [(i, SegmentEnd.left)])[k]? = some y := by
      intro k y hy
      rw [List.getElem?_append_left (List.getElem?_eq_some_iff.1 hy).1]
      exact hy
    -- without a parent
    have hnoparent : parentOf G A (i, .left) = none → Desc G A (ls ++ [(i, .left)]) (contours ++ [c1]) := by
      intro hnp
      refine ⟨by simp [hlenls], ?_, ?_, ?_, ?_, ?_⟩
      · intro j c y hc hy
        rcases hget j c y hc hy with ⟨a1, a2⟩ | ⟨_, rfl, rfl⟩
        · exact h.desc.points j c y a1 a2
        · exact hpts
      · intro j c y hc hy
        rcases hget j c y hc hy with ⟨a1, a2⟩ | ⟨_, rfl, rfl⟩
        · exact h.desc.flags j c y a1 a2
        · rfl
      · intro j c y hc hy
        rcases hget j c y hc hy with ⟨a1, a2⟩ | ⟨_, rfl, rfl⟩
        · exact h.desc.neighbors j c y a1 a2
        · rfl
      · intro j c y hc hy
        rcases hget j c y hc hy with ⟨a1, a2⟩ | ⟨_, rfl, rfl⟩
        · exact h.desc.external j c y a1 a2
        · rw [hnp]; rfl
      · intro j c y hc hy k
        rcases hget j c y hc hy with ⟨a1, a2⟩ | ⟨_, rfl, rfl⟩
        · rw [h.desc.holes j c y a1 a2 k]
          constructor
          · rintro ⟨z, w, z1, z2, z3⟩
            exact ⟨z, w, hlsget' k z z1, z2, z3⟩
          · rintro ⟨z, w, z1, z2, z3⟩
            rcases hlsget k z z1 with z1 | ⟨_, rfl⟩
            · exact ⟨z, w, z1, z2, z3⟩
            · rw [hnp] at z2; cases z2
        · constructor
          · intro hk
            have : c1.holes = [] := rfl
            rw [this] at hk
            cases hk
          · rintro ⟨z, w, z1, z2, z3⟩
            exfalso
            rcases hlsget k z z1 with z1 | ⟨_, rfl⟩
            · exact hearlier k z w z1 z2 z3
            · rw [hnp] at z2; cases z2
    by_cases hcl : seemsClockwise G (i, .left) = true
    · rw [if_pos hcl]
      have hli : index included last = .ok (G.prev (i, .left)) := by
        unfold index
        rw [hlast, orbit_last hx]
      rw [hli]
      simp only [Res.bind_ok]
      obtain ⟨s2, hs2, hs2', is2, hd2⟩ := htr.get (x := G.prev (i, .left)) (G.prev_lt hx)
      rw [hs2]
      simp only [Res.bind_ok]
      rw [hd2, htr.below _ (G.prev_lt hx)]
      rcases hb : (dat A (G.prev (i, .left)).1).below_in_result with _ | b
      · dsimp only
        refine ⟨ids', _, arena', _, rfl, hcommon _ (hnoparent ?_)⟩
        unfold parentOf
        rw [hb]; simp
      · dsimp only
        obtain ⟨hbN, p, hp, hple⟩ := hparent b hb
        obtain ⟨s3, hs3, hs3', is3, hd3⟩ := htr.get (x := (b, .left)) hbN
        dsimp only at hs3
        rw [hs3]
        simp only [Res.bind_ok]
        rw [hd3, htr.lid b hbN, hp]
        have hpl : p < (contours ++ [c1]).length := by simp; omega
        have hpar : parentOf G A (i, .left) = some (b, .left) := by
          unfold parentOf
          rw [if_pos hcl, hb]; rfl
        obtain ⟨cp, hcp⟩ : ∃ cp, (contours ++ [c1])[p]? = some cp := ⟨_, List.getElem?_eq_getElem hpl⟩
        have hm1 := modify_at hcp (fun c => c.addHole contours.length)
        have hsl1 : contours.length < ((contours ++ [c1]).set p (cp.addHole contours.length)).length := by simp
        obtain ⟨cq, hcq⟩ : ∃ cq, ((contours ++ [c1]).set p (cp.addHole contours.length))[contours.length]? = some cq := ⟨_, List.getElem?_eq_getElem hsl1⟩
        have hm2 := modify_at hcq (fun c => c.setExternal false)
        rw [show unwrap (some p) = Res.ok p from rfl]
        simp only [Res.bind_ok]
        rw [hm1]
        simp only [Res.bind_ok]
        rw [hm2]
        refine ⟨ids', _, arena', _, rfl, hcommon _ ?_⟩
        -- each contour, before and after
        have hafter : ∀ (j : Nat) c, (((contours ++ [c1]).set p (cp.addHole contours.length)).set contours.length (cq.setExternal false))[j]? = some c →
            ∃ c', (contours ++ [c1])[j]? = some c' ∧ c.points = c'.points ∧ c.from_polygons = c'.from_polygons ∧ c.neighbors = c'.neighbors ∧
              (c.external = if j = contours.length then false else c'.external) ∧ c.holes = if j = p then c'.holes ++ [contours.length] else c'.holes := by
          have step1 : ∀ (j : Nat) c, ((contours ++ [c1]).set p (cp.addHole contours.length))[j]? = some c → ∃ c', (contours ++ [c1])[j]? = some c' ∧
              c.points = c'.points ∧ c.from_polygons = c'.from_polygons ∧ c.neighbors = c'.neighbors ∧
              c.external = c'.external ∧ c.holes = if j = p then c'.holes ++ [contours.length] else c'.holes := by
            intro j c hc
            rw [set_get _ _ _ _ hpl] at hc
            by_cases hjp : j = p
            · rw [if_pos hjp] at hc
              cases hc
              refine ⟨cp, by rw [hjp]; exact hcp, rfl, rfl, rfl, rfl, ?_⟩
              rw [if_pos hjp]; rfl
            · rw [if_neg hjp] at hc
              refine ⟨c, hc, rfl, rfl, rfl, rfl, ?_⟩
              rw [if_neg hjp]
          intro j c hc
          rw [set_get _ _ _ _ hsl1] at hc
          by_cases hjc : j = contours.length
          · rw [if_pos hjc] at hc
            cases hc
            obtain ⟨c', d1, d2, d3, d4, d5, d6⟩ := step1 j cq (by rw [hjc]; exact hcq)
            refine ⟨c', d1, d2, d3, d4, ?_, d6⟩
            rw [if_pos hjc]; rfl
          · rw [if_neg hjc] at hc
            obtain ⟨c', d1, d2, d3, d4, d5, d6⟩ := step1 j c hc
            refine ⟨c', d1, d2, d3, d4, ?_, d6⟩
            rw [if_neg hjc]; exact d5
        refine ⟨by simp [hlenls], ?_, ?_, ?_, ?_, ?_⟩
        · intro j c y hc hy
          obtain ⟨c', d1, d2, d3, d4, d5, d6⟩ := hafter j c hc
          rcases hget j c' y d1 hy with ⟨a1, a2⟩ | ⟨_, rfl, rfl⟩
          · rw [d2]; exact h.desc.points j c' y a1 a2
          · rw [d2]; exact hpts
        · intro j c y hc hy
          obtain ⟨c', d1, d2, d3, d4, d5, d6⟩ := hafter j c hc
          rcases hget j c' y d1 hy with ⟨a1, a2⟩ | ⟨_, rfl, rfl⟩
          · rw [d3]; exact h.desc.flags j c' y a1 a2
          · rw [d3]; rfl
        · intro j c y hc hy
          obtain ⟨c', d1, d2, d3, d4, d5, d6⟩ := hafter j c hc
          rcases hget j c' y d1 hy with ⟨a1, a2⟩ | ⟨_, rfl, rfl⟩
          · rw [d4]; exact h.desc.neighbors j c' y a1 a2
          · rw [d4]; rfl
        · intro j c y hc hy
          obtain ⟨c', d1, d2, d3, d4, d5, d6⟩ := hafter j c hc
          rcases hget j c' y d1 hy with ⟨a1, a2⟩ | ⟨hj, rfl, rfl⟩
          · rw [d5, if_neg]
            · exact h.desc.external j c' y a1 a2
            · have := (List.getElem?_eq_some_iff.1 a1).1
              omega
          · rw [d5, if_pos (by omega), hpar]; rfl
        · intro j c y hc hy k
          obtain ⟨c', d1, d2, d3, d4, d5, d6⟩ := hafter j c hc
          have hjp : j = p ↔ (b, SegmentEnd.left) ∈ G.orbit y := by
            constructor
            · rintro rfl
              obtain ⟨y', hy', hm⟩ := (hiff _ _).1 hp
              rw [hy] at hy'
              cases hy'
              exact hm
            · intro hm
              have := (hiff _ j).2 ⟨y, hy, hm⟩
              rw [hp] at this
              exact (Option.some.inj this).symm
          have hold : k ∈ c'.holes ↔ ∃ z w, ls[k]? = some z ∧ parentOf G A z = some w ∧ w ∈ G.orbit y := by
            rcases hget j c' y d1 hy with ⟨a1, a2⟩ | ⟨hj, rfl, rfl⟩
            · exact h.desc.holes j c' y a1 a2 k
            · constructor
              · intro hk
                have : c1.holes = [] := rfl
                rw [this] at hk
                cases hk
              · rintro ⟨z, w, z1, z2, z3⟩
                exact absurd z3 (hearlier k z w z1 z2)
          have hall : k ∈ c.holes ↔ k ∈ c'.holes ∨ (j = p ∧ k = contours.length) := by
            rw [d6]
            by_cases e : j = p
            · rw [if_pos e, List.mem_append, List.mem_singleton]
              exact or_congr_right (by simp [e])
            · rw [if_neg e]
              simp [e]
          rw [hall, hold, hjp]
          constructor
          · rintro (⟨z, w, z1, z2, z3⟩ | ⟨z1, z2⟩)
            · exact ⟨z, w, hlsget' k z z1, z2, z3⟩
            · refine ⟨(i, .left), (b, .left), ?_, hpar, z1⟩
              rw [z2, hlenls, List.getElem?_append_right (le_refl _)]
              simp
          · rintro ⟨z, w, z1, z2, z3⟩
            rcases hlsget k z z1 with z1 | ⟨hk, rfl⟩
            · exact Or.inl ⟨z, w, z1, z2, z3⟩
            · rw [hpar] at z2
              cases z2
              exact Or.inr ⟨z3, by omega⟩
    · rw [if_neg hcl]
      refine ⟨ids', _, arena', _, rfl, hcommon _ (hnoparent ?_)⟩
      unfold parentOf
      rw [if_neg hcl]

/-- The loop over the endpoints. -/
theorem traceAll_net {A : Arena ℝ} {W : List Bool → Prop} {included : List EndId} (hR : Ready G A W included) {fuel : Nat} (hfuel : included.length < fuel) :
    ∀ (rest pre : List EndId) (ids : EndId → Option Nat) (ls : List EndId) (arena : Arena ℝ) (contours : List (Contour ℝ)), included = pre ++ rest →
    Traced G A included pre ids ls arena contours →
    ∃ ids' ls' arena' contours', traceAll fuel included rest arena contours = .ok (arena', contours') ∧ Traced G A included included ids' ls' arena' contours'
  | [], pre, ids, ls, arena, contours, hsplit, h => by
    refine ⟨ids, ls, arena, contours, rfl, ?_⟩
    rw [List.append_nil] at hsplit
    subst hsplit
    exact h
  | x :: rest, pre, ids, ls, arena, contours, hsplit, h => by
    obtain ⟨ids1, ls1, arena1, contours1, hrun, h1⟩ := traceStep_net hR hfuel hsplit h
    obtain ⟨ids2, ls2, arena2, contours2, hrun2, h2⟩ := traceAll_net hR hfuel rest (pre ++ [x]) ids1 ls1 arena1 contours1 (by rw [hsplit]; simp) h1
    refine ⟨ids2, ls2, arena2, contours2, ?_, h2⟩
    rw [traceAll, hrun]
    exact hrun2

end Idc
