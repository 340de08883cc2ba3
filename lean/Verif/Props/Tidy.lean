import Verif.Props.TidyParity
import Verif.Props.TidyFinish
import Verif.Props.TidyLib
/-!
# C76: what `compute` does to outlines that do not touch
-/

namespace Idc

open Net

namespace Net

variable {G : Net}

/-- Which of the two edges at the leftmost corner is the lower one. -/
theorem turn {i j : Nat} (hi : i < G.N) (hj : j < G.N) (hij : i ≠ j) (h : G.lp i = G.lp j) :
    (G.key (i, .left) < G.key (j, .left) →
      0 < ((G.rp i).x - (G.lp i).x) * ((G.rp j).y - (G.lp i).y) - ((G.rp i).y - (G.lp i).y) * ((G.rp j).x - (G.lp i).x)) ∧
    (G.key (j, .left) < G.key (i, .left) →
      ((G.rp i).x - (G.lp i).x) * ((G.rp j).y - (G.lp i).y) - ((G.rp i).y - (G.lp i).y) * ((G.rp j).x - (G.lp i).x) < 0) := by
  have hab := G.a_lt_b hi
  have haj : G.a i = G.a j := by unfold a; rw [h]
  have hu : G.a i < G.b j := by rw [haj]; exact G.a_lt_b hj
  obtain ⟨h1, h2⟩ := key_left_left hi hj hij h hu
  have hr := G.h_right hj
  have ha := G.area_h' hi (G.rp j)
  simp only [triangleSignedArea, FloatOps.sub, FloatOps.mul] at ha
  have hb : G.b j = G.time (G.rp j) := rfl
  have e : (G.b i - G.a i) * ((G.rp j).y - G.h i (G.b j)) =
      ((G.rp i).x - (G.lp i).x) * ((G.rp j).y - (G.lp i).y) - ((G.rp i).y - (G.lp i).y) * ((G.rp j).x - (G.lp i).x) := by
    rw [hb]
    linear_combination ha
  rw [← e, ← hr]
  constructor
  · intro h
    exact mul_pos (by linarith) (by linarith [h2.1 h])
  · intro h
    have : G.h j (G.b j) < G.h i (G.b j) := by
      rcases lt_trichotomy (G.h i (G.b j)) (G.h j (G.b j)) with k | k | k
      · exact absurd (h2.2 k) (not_lt.2 h.le)
      · exact absurd k h1
      · exact k
    exact mul_neg_of_pos_of_neg (by linarith) (by linarith)

theorem orbit_two {x : EndId} (hx : x.1 < G.N) (h : 2 ≤ G.period x) : ∃ l, G.orbit x = x :: G.next x :: l := by
  have h0 := orbit_get (G := G) (x := x) (k := 0) (by omega)
  have h1 := orbit_get (G := G) (x := x) (k := 1) (by omega)
  match ho : G.orbit x, h0, h1 with
  | a :: b :: l, h0, h1 =>
    refine ⟨l, ?_⟩
    have e0 : a = x := by simpa using h0
    have e1 : b = G.next x := by simpa using h1
    rw [e0, e1]

/-- Both walks from a leftmost corner start there. -/
theorem Leader.mateLeader {x : EndId} (h : G.Leader x) : G.Leader (G.mate x) := by
  refine ⟨G.mate_lt h.1, fun y hy => ?_⟩
  have hm := G.mate_lt h.1
  -- going the other way round
  have hrev : ∀ k, ∃ z ∈ G.orbit x, G.next^[k] (G.mate x) = G.mate z := by
    intro k
    induction k with
    | zero => exact ⟨x, self_mem_orbit h.1, rfl⟩
    | succ k ih =>
      obtain ⟨z, hz, e⟩ := ih
      have hz' := orbit_lt h.1 hz
      refine ⟨G.prev z, orbit_trans h.1 hz (prev_mem_orbit hz'), ?_⟩
      rw [Function.iterate_succ_apply', e, G.next_eq]
      rfl
  obtain ⟨k, rfl⟩ := (mem_orbit hm).1 hy
  obtain ⟨z, hz, e⟩ := hrev k
  rw [e]
  by_cases hzx : z = x
  · rw [hzx]
  · refine (key_lt_of_leftOf ?_).le
    rw [G.mate_pt h.1, G.mate_pt (orbit_lt h.1 hz)]
    exact h.leftOf hz hzx

end Net

section
variable {polys : List (Polygon ℝ × PolygonMode)} {hT : Rings.Tidy (Rings.ofPolygons 0 polys)} {hn : ∀ r ∈ Rings.ofPolygons 0 polys, r.1 < polys.length}

/-- The net of some polygons. -/
noncomputable abbrev netOf (polys : List (Polygon ℝ × PolygonMode)) (hT : Rings.Tidy (Rings.ofPolygons 0 polys))
    (hn : ∀ r ∈ Rings.ofPolygons 0 polys, r.1 < polys.length) : Net := Rings.net (Rings.ofPolygons 0 polys) hT polys.length hn

/-- What the sweep is known to have found out in the end. -/
structure Found (polys : List (Polygon ℝ × PolygonMode)) (hT : Rings.Tidy (Rings.ofPolygons 0 polys))
    (hn : ∀ r ∈ Rings.ofPolygons 0 polys, r.1 < polys.length) (A : Arena ℝ) : Prop where
  started : ∀ i < (netOf polys hT hn).N, Started (netOf polys hT hn) (dat A i) i
  corner : ∀ x : EndId, x.1 < (netOf polys hT hn).N → sideFlags A ((netOf polys hT hn).mate x) = sideFlags A (opp x)
  base : ∀ i < (netOf polys hT hn).N, ((netOf polys hT hn).mate (i, .left)).2 = .left → (netOf polys hT hn).key (i, .left) < (netOf polys hT hn).key ((netOf polys hT hn).mate (i, .left)) →
    OutsideFlags polys ((netOf polys hT hn).lp i) (dat A i).right_faces_polygons
  below : ∀ i < (netOf polys hT hn).N, ((netOf polys hT hn).mate (i, .left)).2 = .left → (netOf polys hT hn).key (i, .left) < (netOf polys hT hn).key ((netOf polys hT hn).mate (i, .left)) →
    ∃ l : List Nat, (∀ k, k ∈ l ↔ k < (netOf polys hT hn).N ∧ CrossesBelow ((netOf polys hT hn).lp i) ((netOf polys hT hn).lp k, (netOf polys hT hn).rp k)) ∧
      (dat A i).right_faces_polygons = above (netOf polys hT hn) l (noFlags (netOf polys hT hn)) ∧ (dat A i).below_in_result = l.getLast? ∧
      l.Pairwise fun k k' => (netOf polys hT hn).h k ((netOf polys hT hn).a i) < (netOf polys hT hn).h k' ((netOf polys hT hn).a i)

theorem found_of {Heap} {t : ℝ} {st : SweepState ℝ} (h : Inv (netOf polys hT hn) Heap t st) (hq : st.queue = []) : Found polys hT hn st.arena := by
  have hover : ∀ x : EndId, x.1 < (netOf polys hT hn).N → (netOf polys hT hn).time ((netOf polys hT hn).pt x) < t := by
    intro x hx
    rcases lt_trichotomy ((netOf polys hT hn).time ((netOf polys hT hn).pt x)) t with k | k | k
    · exact k
    · exact absurd k (h.notime x hx)
    · have := (h.queue_mem x).2 ⟨hx, k⟩
      rw [hq] at this
      cases this
  refine ⟨fun i hi => h.packets.started i hi (hover (i, .left) hi), fun x hx => h.packets.corner x hx (hover x hx), fun i hi hm hk => ?_, fun i hi hm hk => ?_⟩
  · obtain ⟨l, h1, h2, h3, _⟩ := h.packets.base i hi (hover (i, .left) hi) hm hk
    rw [h3]
    exact above_evenOdd (x := (i, .left)) hi h1 h2
  · obtain ⟨l, h1, h2, h3, h4, h5⟩ := h.packets.base i hi (hover (i, .left) hi) hm hk
    refine ⟨l, fun k => ?_, h3, h4, h5⟩
    rw [h2]
    exact and_congr_right fun hk => below_iff (G := netOf polys hT hn) (x := (i, .left)) hi hk

/-- Crossing an outline. -/
theorem inside_of_outside {v : Pt ℝ} {flags : List Bool} {k : Nat} (h : OutsideFlags polys v flags) (hk : k < polys.length) : InsideFlags polys k v (toggle flags k) := by
  refine ⟨by rw [toggle_length]; exact h.1, fun j p hp => ?_⟩
  have hj : j < flags.length := by rw [h.1]; exact (List.getElem?_eq_some_iff.1 hp).1
  have := h.2 j p hp
  rw [get_true] at this ⊢
  rw [toggle_getD hj]
  by_cases hjk : k = j
  · rw [if_pos hjk]
    rw [← this]
    subst hjk
    cases flags.getD k false <;> simp
  · rw [if_neg hjk, this]
    have : j ≠ k := fun e => hjk e.symm
    simp [this]

/-- The walk from a leader. -/
theorem leader_walk {x : EndId} (h : (netOf polys hT hn).Leader x) {L₁ : Rings} {k : Nat} {ps : List (Pt ℝ)} {L₂ : Rings} {j : Nat}
    (hat : Rings.At (Rings.ofPolygons 0 polys) x.1 L₁ k ps L₂ j) :
    GoesAround ps (((netOf polys hT hn).orbit x).map (netOf polys hT hn).pt) ((netOf polys hT hn).pt x) ((netOf polys hT hn).pt (opp x))
      ((netOf polys hT hn).pt (opp ((netOf polys hT hn).mate x))) := by
  refine ⟨Rings.orbit_rotated hat, ?_⟩
  have h3 := Rings.three_le hT hat
  obtain ⟨l, hl⟩ := orbit_two (G := netOf polys hT hn) h.1 (by rw [Rings.period_eq_length hat]; omega)
  have hlast := orbit_last (G := netOf polys hT hn) h.1
  refine ⟨l.map (netOf polys hT hn).pt, ?_, ?_, ?_⟩
  · rw [hl, List.map_cons, List.map_cons, (netOf polys hT hn).pt_next h.1]
  · rw [hl] at hlast
    rw [List.getLast?_cons_cons] at hlast
    have := congrArg (Option.map (netOf polys hT hn).pt) hlast
    rw [← List.getLast?_map, List.map_cons, (netOf polys hT hn).pt_next h.1] at this
    exact this
  · intro p hp
    rw [← (netOf polys hT hn).pt_next h.1, ← List.map_cons, List.mem_map] at hp
    obtain ⟨y, hy, rfl⟩ := hp
    have hnd := orbit_nodup (G := netOf polys hT hn) x
    rw [hl, List.nodup_cons] at hnd
    refine h.leftOf (by rw [hl]; exact List.mem_cons_of_mem _ hy) ?_
    rintro rfl
    exact hnd.1 hy

/-- The walk and the flags of a leader. -/
theorem leader_flags {A : Arena ℝ} (hF : Found polys hT hn A) {x : EndId} (h : (netOf polys hT hn).Leader x) {L₁ : Rings} {k : Nat} {ps : List (Pt ℝ)} {L₂ : Rings} {j : Nat}
    (hat : Rings.At (Rings.ofPolygons 0 polys) x.1 L₁ k ps L₂ j) (hk : k < polys.length) :
    Counterclockwise ps (((netOf polys hT hn).orbit x).map (netOf polys hT hn).pt) ∧ InsideFlags polys k ((netOf polys hT hn).pt x) (sideFlags A x) ∨
    Clockwise ps (((netOf polys hT hn).orbit x).map (netOf polys hT hn).pt) ∧ OutsideFlags polys ((netOf polys hT hn).pt x) (sideFlags A x) := by
  have hw := leader_walk h hat
  set G := netOf polys hT hn with hG
  have hleft := h.left
  have hmate := h.mate
  have hx := h.1
  have hmx := G.mate_lt hx
  obtain ⟨i, e⟩ := x
  dsimp only at hleft
  subst hleft
  rcases hm : G.mate (i, .left) with ⟨m, e⟩
  rw [hm] at hmate hmx hw
  dsimp only at hmate
  subst hmate
  have hmi : m ≠ i := by
    have := G.mate_ne (x := (i, .left)) hx
    rw [hm] at this
    exact this
  have hlp : G.lp i = G.lp m := by
    have := G.mate_pt (x := (i, .left)) hx
    rw [hm] at this
    exact this.symm
  obtain ⟨t1, t2⟩ := G.turn hx hmx (Ne.symm hmi) hlp
  have hpoly : G.poly i = k := hat.poly
  rcases lt_trichotomy (G.key (i, .left)) (G.key (m, .left)) with hk' | hk' | hk'
  · left
    refine ⟨⟨_, _, _, hw, t1 hk'⟩, ?_⟩
    have hb := hF.base i hx (by rw [← hG, hm]) (by rw [← hG, hm]; exact hk')
    show InsideFlags polys k (G.lp i) (dat A i).left_faces_polygons
    rw [(hF.started i hx).left, ← hG, hpoly]
    exact inside_of_outside hb hk
  · exact absurd (congrArg Prod.fst (key_inj (x := (i, .left)) (y := (m, .left)) hx hmx hk')).symm hmi
  · right
    refine ⟨⟨_, _, _, hw, t2 hk'⟩, ?_⟩
    have hmm : G.mate (m, .left) = (i, .left) := by rw [← hm, G.mate_mate hx]
    have hb := hF.base m hmx (by rw [← hG, hmm]) (by rw [← hG, hmm]; exact hk')
    have hc := hF.corner (m, .left) hmx
    rw [← hG, hmm] at hc
    rw [hc]
    show OutsideFlags polys (G.lp i) (dat A m).right_faces_polygons
    rw [hlp]
    exact hb

/-- Flags are determined by the polygons they stand for. -/
theorem flags_ext {f g : List Bool} (hl : f.length = polys.length) (hl' : g.length = polys.length) {P : Nat → Polygon ℝ × PolygonMode → Prop}
    (h : ∀ j p, polys[j]? = some p → (f[j]? = some true ↔ P j p)) (h' : ∀ j p, polys[j]? = some p → (g[j]? = some true ↔ P j p)) : f = g := by
  apply List.ext_getElem?
  intro j
  by_cases hj : j < polys.length
  · have h1 := h j _ (List.getElem?_eq_getElem hj)
    rw [← h' j _ (List.getElem?_eq_getElem hj)] at h1
    rw [List.getElem?_eq_getElem (by omega), List.getElem?_eq_getElem (by omega)] at h1 ⊢
    simp only [Option.some.injEq] at h1 ⊢
    exact Bool.eq_iff_iff.2 h1
  · rw [List.getElem?_eq_none (by omega), List.getElem?_eq_none (by omega)]

theorem goesAround_unique {ps q : List (Pt ℝ)} {v a b v' a' b' : Pt ℝ} (h : GoesAround ps q v a b) (h' : GoesAround ps q v' a' b') : v = v' ∧ a = a' ∧ b = b' := by
  obtain ⟨_, r, e1, e2, _⟩ := h
  obtain ⟨_, r', e1', e2', _⟩ := h'
  rw [e1] at e1'
  simp only [List.cons.injEq] at e1'
  obtain ⟨rfl, rfl, rfl⟩ := e1'
  rw [e2] at e2'
  cases e2'
  exact ⟨rfl, rfl, rfl⟩

theorem not_both {ps q : List (Pt ℝ)} (h : Counterclockwise ps q) (h' : Clockwise ps q) : False := by
  obtain ⟨v, a, b, h1, h2⟩ := h
  obtain ⟨v', a', b', h3, h4⟩ := h'
  obtain ⟨rfl, rfl, rfl⟩ := goesAround_unique h1 h3
  linarith

/-- A walk around an outline that starts at the leftmost corner is the walk from a leader. -/
theorem exists_walk {k : Nat} {p : Polygon ℝ × PolygonMode} {c : Contour ℝ} (hp : polys[k]? = some p) (hc : c ∈ p.1.contours) {q : List (Pt ℝ)} {v a b : Pt ℝ}
    (h : GoesAround c.points q v a b) : ∃ x L₁ L₂ j, (netOf polys hT hn).Leader x ∧ Rings.At (Rings.ofPolygons 0 polys) x.1 L₁ k c.points L₂ j ∧
      q = ((netOf polys hT hn).orbit x).map (netOf polys hT hn).pt := by
  have hr : (k, c.points) ∈ Rings.ofPolygons 0 polys := by
    rw [Rings.mem_ofPolygons]
    exact ⟨k, p, c, by rw [Nat.zero_add], hp, hc⟩
  obtain ⟨L₁, L₂, hL⟩ := List.append_of_mem hr
  obtain ⟨hrot, rest, hq, hlast, hleft⟩ := h
  have hv : v ∈ c.points := by
    have : v ∈ q := by rw [hq]; simp
    rcases hrot with h | h
    · exact h.mem_iff.1 this
    · exact List.mem_reverse.1 (h.mem_iff.1 this)
  obtain ⟨j, hj⟩ := List.getElem?_of_mem hv
  have hj' := (List.getElem?_eq_some_iff.1 hj).1
  have hat : Rings.At (Rings.ofPolygons 0 polys) (Rings.size L₁ + j) L₁ k c.points L₂ j := ⟨hL, rfl, hj'⟩
  have hvc : Rings.corner (Rings.ofPolygons 0 polys) (Rings.size L₁ + j) = v := by
    have := hat.corner
    rw [hj] at this
    cases this; rfl
  -- the walk that starts like q
  obtain ⟨x, j', hat', hx, hrot'⟩ : ∃ x j', Rings.At (Rings.ofPolygons 0 polys) x.1 L₁ k c.points L₂ j' ∧ (netOf polys hT hn).pt x = v ∧
      ((netOf polys hT hn).orbit x).map (netOf polys hT hn).pt ~r q := by
    rcases hrot with h | h
    · refine ⟨Rings.fwd (Rings.ofPolygons 0 polys) (Rings.size L₁ + j), j, hat, ?_, ?_⟩
      · exact (Rings.pt_fwd _).trans hvc
      · rw [Rings.orbit_fwd hat]
        exact (List.IsRotated.forall c.points j).trans h.symm
    · refine ⟨Rings.bwd (Rings.ofPolygons 0 polys) (Rings.pred (Rings.ofPolygons 0 polys) (Rings.size L₁ + j)), _, hat.pred, ?_, ?_⟩
      · refine (Rings.pt_bwd _).trans ?_
        rw [Rings.succ_pred hat.size, hvc]
      · rw [Rings.orbit_bwd hat.pred]
        exact (List.IsRotated.forall c.points _).reverse.trans h.symm
  have hxN : x.1 < (netOf polys hT hn).N := hat'.size
  have hnd : (((netOf polys hT hn).orbit x).map (netOf polys hT hn).pt).Nodup := by
    refine List.Nodup.map_on ?_ (orbit_nodup x)
    intro y hy z hz e
    exact orbit_pt_inj hxN hy hz e
  have hhead : (((netOf polys hT hn).orbit x).map (netOf polys hT hn).pt).head? = some v := by
    have := orbit_get (G := netOf polys hT hn) (x := x) (k := 0) (period_pos hxN)
    rw [List.head?_eq_getElem?, List.getElem?_map, this]
    show some ((netOf polys hT hn).pt x) = _
    rw [hx]
  have e := rotated_eq hrot' hnd hhead (by rw [hq]; rfl)
  refine ⟨x, L₁, L₂, j', ⟨hxN, fun y hy => ?_⟩, hat', e.symm⟩
  by_cases hyx : y = x
  · rw [hyx]
  · refine (key_lt_of_leftOf ?_).le
    rw [hx]
    apply hleft
    have hyq : (netOf polys hT hn).pt y ∈ q := by rw [← e]; exact List.mem_map_of_mem hy
    rw [hq, List.mem_cons] at hyq
    refine hyq.resolve_left fun e' => hyx ?_
    exact orbit_pt_inj hxN hy (self_mem_orbit hxN) (e'.trans hx.symm)

theorem wanted_iff {flags : List Bool} (hl : flags.length = polys.length) : Wanted (polys.map fun p => p.2) flags ↔ FlagsOk polys flags := by
  unfold Wanted FlagsOk
  rw [and_iff_right hl]
  refine and_congr_right fun _ => ?_
  constructor
  · intro h i poly mode hp hf hm
    refine h i hf ?_
    rw [List.getElem?_map, hp, ← hm]
    rfl
  · intro h i hf hm
    rw [List.getElem?_map] at hm
    cases hp : polys[i]? with
    | none => rw [hp] at hm; cases hm
    | some p =>
      rw [hp] at hm
      obtain ⟨poly, mode⟩ := p
      simp only [Option.map_some, Option.some.injEq] at hm
      exact h i poly mode hp hf hm

end

/-- All that is known about the result, in terms of the net. -/
theorem compute_net {lib : Lib} (hl : lib.Lawful) {polygons : List (Polygon ℝ × PolygonMode)} (hT : Tidy polygons) (hm : ∀ p ∈ polygons, p.2 ≠ .removeEdges)
    (op : BooleanOpType) : ∃ (hT' : Rings.Tidy (Rings.ofPolygons 0 polygons)) (hn : ∀ r ∈ Rings.ofPolygons 0 polygons, r.1 < polygons.length) (A : Arena ℝ)
      (ls : List EndId) (cs : List (Contour ℝ)), Found polygons hT' hn A ∧ NetResult (netOf polygons hT' hn) A (polygons.map fun p => p.2) ls cs ∧
      ∀ fuel, 2 * (allCorners polygons).length < fuel → compute lib fuel polygons op = .ok ⟨cs⟩ := by
  have hT' := Rings.tidy_of hT
  have hn : ∀ r ∈ Rings.ofPolygons 0 polygons, r.1 < polygons.length := by
    intro r hr
    obtain ⟨k, p, c, rfl, h1, _⟩ := (Rings.mem_ofPolygons 0 polygons r).1 hr
    have := (List.getElem?_eq_some_iff.1 h1).1
    show 0 + k < _
    omega
  obtain ⟨Heap, hh⟩ := hl.heapOk
  obtain ⟨st, e1, h1⟩ := Rings.addPolygons_net (hT := hT') (hn := hn) hh polygons 0 [] ⟨[], [], [], []⟩ hm rfl (loaded_nil hh)
  obtain ⟨t, hinv⟩ := Loaded.inv hh h1
  obtain ⟨t', st', hinv', hq, hsw⟩ := sweep_net hl hh polygons.length _ hinv (le_refl _)
  obtain ⟨ls, cs, hr, hf⟩ := finish_net hl hinv' hq (modes := polygons.map fun p => p.2) (by rw [List.length_map]; rfl)
  refine ⟨hT', hn, st'.arena, ls, cs, found_of hinv' hq, hr, fun fuel hfuel => ?_⟩
  have hN : (netOf polygons hT' hn).N = (allCorners polygons).length := by
    show Rings.size _ = _
    unfold Rings.size
    rw [Rings.ofPolygons_corners]
  have hqlen : st.queue.length ≤ 2 * (netOf polygons hT' hn).N := by
    have hsub : st.queue ⊆ (List.range (netOf polygons hT' hn).N).flatMap fun i => [(i, SegmentEnd.left), (i, SegmentEnd.right)] := by
      intro x hx
      have := (h1.queue_mem x).1 hx
      rw [List.mem_flatMap]
      refine ⟨x.1, List.mem_range.2 this, ?_⟩
      obtain ⟨i, e⟩ := x
      cases e <;> simp
    have := (List.subperm_of_subset h1.queue_nodup hsub).length_le
    rw [List.length_flatMap] at this
    simpa [Nat.mul_comm] using this
  rw [compute_finish, e1]
  simp only [Res.bind_ok]
  rw [hsw fuel (by omega)]
  simp only [Res.bind_ok]
  exact hf fuel (by show 2 * (netOf polygons hT' hn).N < fuel; omega)

/-- **C76.** For polygons whose outlines neither touch nor cross (whole coordinates, exact arithmetic), `compute` ends, and
the outlines of its result are exactly the expected ones: every outline of the input, counterclockwise if the area inside
is wanted and clockwise if the area outside is, each once, with the flags of exactly the polygons that area belongs to by
the even-odd rule. -/
theorem C76_disjoint {lib : Lib} (hl : lib.Lawful) {polygons : List (Polygon ℝ × PolygonMode)} (hT : Tidy polygons)
    (hm : ∀ p ∈ polygons, p.2 ≠ .removeEdges) (op : BooleanOpType) :
    ∃ r, (∀ fuel, 2 * (allCorners polygons).length < fuel → compute lib fuel polygons op = .ok r) ∧
      (r.contours.map fun c => c.points).Nodup ∧
      ∀ q flags, (∃ c ∈ r.contours, c.points = q ∧ c.from_polygons = flags) ↔ Expected polygons q flags := by
  obtain ⟨hT', hn, A, ls, cs, hF, hR, hf⟩ := compute_net hl hT hm op
  set G := netOf polygons hT' hn with hG
  have hget : ∀ (j : Nat) c, cs[j]? = some c → ∃ x, ls[j]? = some x := by
    intro j c hc
    have := (List.getElem?_eq_some_iff.1 hc).1
    exact ⟨_, List.getElem?_eq_getElem (by rw [← hR.len]; exact this)⟩
  -- the outline of a leader
  have hat : ∀ x, G.Leader x → ∃ L₁ k L₂ j p c, Rings.At (Rings.ofPolygons 0 polygons) x.1 L₁ k c.points L₂ j ∧ polygons[k]? = some p ∧ c ∈ Polygon.contours p.1 := by
    intro x hx
    obtain ⟨L₁, k, ps, L₂, j, h⟩ := Rings.exists_at (L := Rings.ofPolygons 0 polygons) hx.1
    have : (k, ps) ∈ Rings.ofPolygons 0 polygons := by rw [h.list]; simp
    obtain ⟨k', p, c, e, h1, h2⟩ := (Rings.mem_ofPolygons 0 polygons _).1 this
    rw [Nat.zero_add] at e
    cases e
    exact ⟨L₁, k, L₂, j, p, c, h, h1, h2⟩
  have hlen : ∀ x, x.1 < G.N → (sideFlags A x).length = polygons.length := by
    intro x hx
    obtain ⟨i, e⟩ := x
    have hs := hF.started i hx
    cases e
    · show (dat A i).left_faces_polygons.length = _
      rw [hs.left, toggle_length, hs.len]; rfl
    · show (dat A i).right_faces_polygons.length = _
      rw [hs.len]; rfl
  refine ⟨⟨cs⟩, hf, ?_, fun q flags => ?_⟩
  · -- no outline twice
    show (cs.map fun c => c.points).Nodup
    rw [List.nodup_iff_injective_getElem]
    intro ⟨i, hi⟩ ⟨j, hj⟩ e
    rw [List.length_map] at hi hj
    simp only [List.getElem_map] at e
    obtain ⟨x, hx⟩ := hget i _ (List.getElem?_eq_getElem hi)
    obtain ⟨y, hy⟩ := hget j _ (List.getElem?_eq_getElem hj)
    rw [hR.points i _ x (List.getElem?_eq_getElem hi) hx, hR.points j _ y (List.getElem?_eq_getElem hj) hy] at e
    have lx := ((hR.leaders x).1 (List.mem_of_getElem? hx)).1
    have ly := ((hR.leaders y).1 (List.mem_of_getElem? hy)).1
    have hxy : x = y := by
      obtain ⟨L₁, k, L₂, m, p, c, ha, _, _⟩ := hat x lx
      obtain ⟨L₁', k', L₂', m', p', c', ha', _, _⟩ := hat y ly
      obtain ⟨l, ol⟩ := orbit_two lx.1 (by rw [Rings.period_eq_length ha]; have := Rings.three_le hT' ha; omega)
      obtain ⟨l', ol'⟩ := orbit_two ly.1 (by rw [Rings.period_eq_length ha']; have := Rings.three_le hT' ha'; omega)
      rw [ol, ol', List.map_cons, List.map_cons, List.map_cons, List.map_cons, List.cons.injEq, List.cons.injEq, G.pt_next lx.1, G.pt_next ly.1] at e
      obtain ⟨e1, e2, _⟩ := e
      have h1 := lx.left
      have h2 := ly.left
      obtain ⟨i1, d1⟩ := x
      obtain ⟨i2, d2⟩ := y
      dsimp only at h1 h2
      subst h1; subst h2
      by_contra hne
      have hne' : i1 ≠ i2 := fun h => hne (by rw [h])
      have e1' : G.lp i1 = G.lp i2 := e1
      have e2' : G.rp i1 = G.rp i2 := e2
      have hb : G.b i1 = G.b i2 := by unfold Net.b; rw [e2']
      refine (key_left_left lx.1 ly.1 hne' e1' (u := G.b i1) (G.a_lt_b lx.1)).1 ?_
      rw [G.h_right lx.1, hb, G.h_right ly.1, e2']
    subst hxy
    have hls : ls.Nodup := hR.order.imp fun h e => by rw [e] at h; exact lt_irrefl _ h
    have hi' : i < ls.length := by rw [← hR.len]; exact hi
    have := (List.getElem?_inj hi' hls).1 (hx.trans hy.symm)
    simpa using this
  · constructor
    · rintro ⟨c, hc, rfl, rfl⟩
      obtain ⟨i, hi⟩ := List.getElem?_of_mem hc
      obtain ⟨x, hx⟩ := hget i c hi
      obtain ⟨lx, hw⟩ := (hR.leaders x).1 (List.mem_of_getElem? hx)
      rw [hR.points i c x hi hx, hR.flags i c x hi hx]
      obtain ⟨L₁, k, L₂, m, p, c', ha, hp, hc'⟩ := hat x lx
      refine ⟨(wanted_iff (hlen x lx.1)).1 hw, k, p, c', G.pt x, hp, hc', ?_, ?_⟩
      · have := orbit_get (G := G) (x := x) (k := 0) (period_pos lx.1)
        rw [List.head?_eq_getElem?, List.getElem?_map, this]
        rfl
      · exact leader_flags hF lx ha (List.getElem?_eq_some_iff.1 hp).1
    · rintro ⟨hfl, k, p, c, v, hp, hc, hv, hcase⟩
      obtain ⟨v', a, b, hgo⟩ : ∃ v' a b, GoesAround c.points q v' a b := by
        rcases hcase with ⟨⟨v', a, b, h, _⟩, _⟩ | ⟨⟨v', a, b, h, _⟩, _⟩ <;> exact ⟨v', a, b, h⟩
      obtain ⟨x, L₁, L₂, j, lx, ha, hq⟩ := exists_walk (hT := hT') (hn := hn) hp hc hgo
      have hvx : v = G.pt x := by
        have := orbit_get (G := G) (x := x) (k := 0) (period_pos lx.1)
        rw [hq, List.head?_eq_getElem?, List.getElem?_map, this] at hv
        simpa using hv.symm
      have hk := (List.getElem?_eq_some_iff.1 hp).1
      have hflags : sideFlags A x = flags := by
        rcases leader_flags hF lx ha hk with ⟨g1, g2⟩ | ⟨g1, g2⟩ <;> rw [← hG, ← hq] at g1 <;> rcases hcase with ⟨h1, h2⟩ | ⟨h1, h2⟩
        · rw [hvx] at h2
          exact flags_ext g2.1 h2.1 g2.2 h2.2
        · exact (not_both g1 h1).elim
        · exact (not_both h1 g1).elim
        · rw [hvx] at h2
          exact flags_ext g2.1 h2.1 (P := fun _ p => p.1.evenOdd (G.pt x)) g2.2 h2.2
      have hmem : x ∈ ls := (hR.leaders x).2 ⟨lx, by rw [hflags]; exact (wanted_iff hfl.1).2 hfl⟩
      obtain ⟨i, hi⟩ := List.getElem?_of_mem hmem
      have hi' := (List.getElem?_eq_some_iff.1 hi).1
      have hi'' : i < cs.length := by rw [hR.len]; exact hi'
      have hci : cs[i]? = some cs[i] := List.getElem?_eq_getElem hi''
      refine ⟨_, List.mem_of_getElem? hci, ?_, ?_⟩
      · rw [hR.points i _ x hci hi, hq]
      · rw [hR.flags i _ x hci hi, hflags]

/-- Two walks along the same outline, in opposite directions. -/
theorem opposite_iff {G : Net} {x y : EndId} (lx : G.Leader x) (ly : G.Leader y) :
    (∃ z ∈ G.orbit x, opp z ∈ G.orbit y) ↔ x ≠ y ∧ ((G.orbit y).map G.pt).Perm ((G.orbit x).map G.pt) := by
  have hx := lx.1
  have hy := ly.1
  have hnd : ∀ w : EndId, w.1 < G.N → ((G.orbit w).map G.pt).Nodup := by
    intro w hw
    refine List.Nodup.map_on ?_ (orbit_nodup w)
    intro a ha b hb e
    exact orbit_pt_inj hw ha hb e
  constructor
  · rintro ⟨z, hz, hz'⟩
    refine ⟨?_, ?_⟩
    · rintro rfl
      exact opp_not_mem_orbit hx hz hz'
    · -- every corner of one is a corner of the other
      have key : ∀ u v : EndId, u.1 < G.N → v.1 < G.N → (∃ z ∈ G.orbit u, opp z ∈ G.orbit v) → ∀ w ∈ G.orbit v, ∃ w' ∈ G.orbit u, G.pt w' = G.pt w := by
        rintro u v hu hv ⟨z, hz, hz'⟩
        have hzN := orbit_lt hu hz
        have hstep : ∀ k, ∃ z' ∈ G.orbit u, G.next^[k] (opp z) = opp z' := by
          intro k
          induction k with
          | zero => exact ⟨z, hz, rfl⟩
          | succ k ih =>
            obtain ⟨z', h1, e⟩ := ih
            refine ⟨G.prev z', orbit_trans hu h1 (prev_mem_orbit (orbit_lt hu h1)), ?_⟩
            rw [Function.iterate_succ_apply', e, G.next_eq, opp_opp]
            unfold Net.prev
            rw [opp_opp]
        intro w hw
        have hw' : w ∈ G.orbit (opp z) := orbit_trans (x := opp z) (by exact hzN) (orbit_symm hv hz') hw
        obtain ⟨k, rfl⟩ := (mem_orbit (x := opp z) (by exact hzN)).1 hw'
        obtain ⟨z', h1, e⟩ := hstep k
        refine ⟨G.next z', next_mem_orbit hu h1, ?_⟩
        rw [e, G.pt_next (orbit_lt hu h1)]
      rw [List.perm_ext_iff_of_nodup (hnd y hy) (hnd x hx)]
      intro q
      rw [List.mem_map, List.mem_map]
      constructor
      · rintro ⟨w, hw, rfl⟩
        obtain ⟨w', h1, h2⟩ := key x y hx hy ⟨z, hz, hz'⟩ w hw
        exact ⟨w', h1, h2⟩
      · rintro ⟨w, hw, rfl⟩
        obtain ⟨w', h1, h2⟩ := key y x hy hx ⟨opp z, hz', by rw [opp_opp]; exact hz⟩ w hw
        exact ⟨w', h1, h2⟩
  · rintro ⟨hne, hp⟩
    have hyx : G.pt y ∈ (G.orbit x).map G.pt := hp.mem_iff.1 (List.mem_map_of_mem (self_mem_orbit hy))
    obtain ⟨z, hz, e⟩ := List.mem_map.1 hyx
    have hzN := orbit_lt hx hz
    rcases G.at_corner hzN hy e.symm with h | h
    · rw [← h] at hz
      exact absurd (lx.unique ly hz) hne
    · refine ⟨opp y, ?_, by rw [opp_opp]; exact self_mem_orbit hy⟩
      rw [h]
      exact orbit_trans hx hz (prev_mem_orbit hzN)

/-- **C76.** Two outlines of the result are recorded as neighbours exactly if they go around the same outline of the
input, one in each direction: they are different, and one has the corners of the other. -/
theorem C76_neighbors {lib : Lib} (hl : lib.Lawful) {polygons : List (Polygon ℝ × PolygonMode)} (hT : Tidy polygons)
    (hm : ∀ p ∈ polygons, p.2 ≠ .removeEdges) (op : BooleanOpType) {fuel : Nat} (hfuel : 2 * (allCorners polygons).length < fuel) {r : Polygon ℝ}
    (hr : compute lib fuel polygons op = .ok r) {i : Nat} {c : Contour ℝ} (hc : r.contours[i]? = some c) :
    c.neighbors.length = r.contours.length ∧ ∀ (j : Nat) c', r.contours[j]? = some c' → (c.neighbors[j]? = some true ↔ i ≠ j ∧ c'.points.Perm c.points) := by
  obtain ⟨hT', hn, A, ls, cs, hF, hR, hf⟩ := compute_net hl hT hm op
  rw [hf fuel hfuel] at hr
  cases hr
  have hget : ∀ (j : Nat) c, cs[j]? = some c → ∃ x, ls[j]? = some x := by
    intro j c hc
    have := (List.getElem?_eq_some_iff.1 hc).1
    exact ⟨_, List.getElem?_eq_getElem (by rw [← hR.len]; exact this)⟩
  have hls : ls.Nodup := hR.order.imp fun h e => by rw [e] at h; exact lt_irrefl _ h
  obtain ⟨x, hx⟩ := hget i c hc
  refine ⟨(hR.neighbors i c x hc hx).1, fun j c' hc' => ?_⟩
  obtain ⟨y, hy⟩ := hget j c' hc'
  have lx := ((hR.leaders x).1 (List.mem_of_getElem? hx)).1
  have ly := ((hR.leaders y).1 (List.mem_of_getElem? hy)).1
  rw [(hR.neighbors i c x hc hx).2 j y hy, opposite_iff lx ly, hR.points i c x hc hx, hR.points j c' y hc' hy]
  refine and_congr_left fun _ => ?_
  have hi' : i < ls.length := (List.getElem?_eq_some_iff.1 hx).1
  constructor
  · rintro h rfl
    rw [hx] at hy
    cases hy
    exact h rfl
  · rintro h rfl
    exact h ((List.getElem?_inj hi' hls).1 (hx.trans hy.symm))

/-- **C76.** The outlines of the result are in the order of their first corners, which are their leftmost ones: from left
to right, on one vertical line from bottom to top; of two with the same first corner the counterclockwise one is first. -/
theorem C76_order {lib : Lib} (hl : lib.Lawful) {polygons : List (Polygon ℝ × PolygonMode)} (hT : Tidy polygons)
    (hm : ∀ p ∈ polygons, p.2 ≠ .removeEdges) (op : BooleanOpType) {fuel : Nat} (hfuel : 2 * (allCorners polygons).length < fuel) {r : Polygon ℝ}
    (hr : compute lib fuel polygons op = .ok r) {i j : Nat} (hij : i < j) {c c' : Contour ℝ} (hc : r.contours[i]? = some c) (hc' : r.contours[j]? = some c') :
    ∃ v v', c.points.head? = some v ∧ c'.points.head? = some v' ∧ (LeftOf v v' ∨ v = v' ∧ ∃ ps, Counterclockwise ps c.points ∧ Clockwise ps c'.points) := by
  obtain ⟨hT', hn, A, ls, cs, hF, hR, hf⟩ := compute_net hl hT hm op
  rw [hf fuel hfuel] at hr
  cases hr
  set G := netOf polygons hT' hn with hG
  have hget : ∀ (j : Nat) c, cs[j]? = some c → ∃ x, ls[j]? = some x := by
    intro j c hc
    have := (List.getElem?_eq_some_iff.1 hc).1
    exact ⟨_, List.getElem?_eq_getElem (by rw [← hR.len]; exact this)⟩
  obtain ⟨x, hx⟩ := hget i c hc
  obtain ⟨y, hy⟩ := hget j c' hc'
  have lx := ((hR.leaders x).1 (List.mem_of_getElem? hx)).1
  have ly := ((hR.leaders y).1 (List.mem_of_getElem? hy)).1
  have hkey : G.key x < G.key y := by
    have := List.pairwise_iff_getElem.1 hR.order i j (List.getElem?_eq_some_iff.1 hx).1 (List.getElem?_eq_some_iff.1 hy).1 hij
    rwa [(List.getElem?_eq_some_iff.1 hx).2, (List.getElem?_eq_some_iff.1 hy).2] at this
  have hhead : ∀ z : EndId, z.1 < G.N → ((G.orbit z).map G.pt).head? = some (G.pt z) := by
    intro z hz
    have := orbit_get (G := G) (x := z) (k := 0) (period_pos hz)
    rw [List.head?_eq_getElem?, List.getElem?_map, this]
    rfl
  rw [hR.points i c x hc hx, hR.points j c' y hc' hy]
  refine ⟨_, _, hhead x lx.1, hhead y ly.1, ?_⟩
  by_cases hp : G.pt x = G.pt y
  · right
    refine ⟨hp, ?_⟩
    have hyx : y = G.mate x := by
      rcases G.at_corner lx.1 ly.1 hp.symm with h | h
      · rw [h] at hkey; exact absurd hkey (lt_irrefl _)
      · exact h
    obtain ⟨L₁, k, ps, L₂, m, ha⟩ := Rings.exists_at (L := Rings.ofPolygons 0 polygons) lx.1
    obtain ⟨L₁', k', ps', L₂', m', ha'⟩ := Rings.exists_at (L := Rings.ofPolygons 0 polygons) ly.1
    have w := leader_walk lx ha
    have w' := leader_walk ly ha'
    -- the same outline, followed the other way
    have w'' : GoesAround ps (((netOf polygons hT' hn).orbit y).map (netOf polygons hT' hn).pt) ((netOf polygons hT' hn).pt y) ((netOf polygons hT' hn).pt (opp y))
        ((netOf polygons hT' hn).pt (opp ((netOf polygons hT' hn).mate y))) := by
      refine ⟨?_, w'.2⟩
      rw [hyx]
      rcases Rings.fwd_or_bwd (L := Rings.ofPolygons 0 polygons) x with e | e
      · have hm' : G.mate x = Rings.bwd (Rings.ofPolygons 0 polygons) (Rings.pred (Rings.ofPolygons 0 polygons) x.1) := by
          show Rings.next _ (opp x) = _
          rw [e, Rings.opp_fwd, Rings.next_bwd]
          rfl
        rw [hm']
        right
        rw [Rings.orbit_bwd ha.pred]
        exact (List.IsRotated.forall ps _).reverse
      · have hm' : G.mate x = Rings.fwd (Rings.ofPolygons 0 polygons) (Rings.succ (Rings.ofPolygons 0 polygons) x.1) := by
          show Rings.next _ (opp x) = _
          rw [e, Rings.opp_bwd, Rings.next_fwd]
          rfl
        rw [hm']
        left
        rw [Rings.orbit_fwd ha.succ]
        exact List.IsRotated.forall ps _
    have h1 := lx.left
    have h2 := ly.left
    have hmm := G.mate_mate lx.1
    rw [← hyx] at hmm
    rw [← hG] at w w''
    rw [← hyx] at w
    rw [hmm] at w''
    obtain ⟨i1, d1⟩ := x
    obtain ⟨i2, d2⟩ := y
    dsimp only at h1 h2
    subst h1; subst h2
    have hne : i1 ≠ i2 := fun h => by rw [h] at hkey; exact lt_irrefl _ hkey
    have hp' : G.lp i1 = G.lp i2 := hp
    refine ⟨ps, ⟨_, _, _, w, (G.turn lx.1 ly.1 hne hp').1 hkey⟩, ⟨_, _, _, w'', (G.turn ly.1 lx.1 (Ne.symm hne) hp'.symm).2 hkey⟩⟩
  · left
    rcases LeftOf.total hp with h | h
    · exact h
    · exact absurd hkey (not_lt.2 (key_lt_of_leftOf h).le)

end Idc
