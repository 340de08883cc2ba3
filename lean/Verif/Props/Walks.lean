import Verif.Props.PlanHoles
import Verif.Props.CrossMade
/-!
# C86: at most one way to draw the outlines
-/

namespace Idc

abbrev Arrow := Pt ℝ × Pt ℝ

/-- Outlines, as lists of edges, each starting at its leftmost corner, going on from `d` to `d'` only if `N d d'`. -/
structure Walks (N : Arrow → Arrow → Prop) (W : List (List Arrow)) : Prop where
  once : W.flatten.Nodup
  turns : ∀ es ∈ W, ∀ (j : Nat) d d', es[j]? = some d → es[j + 1]? = some d' → d'.1 = d.2 ∧ N d d'
  start : ∀ es ∈ W, ∃ e0, es[0]? = some e0 ∧ ∀ (j : Nat) d, es[j + 1]? = some d → LeftOf e0.1 d.1
  closed : ∀ es ∈ W, ∀ (j : Nat) d e0, es[j]? = some d → es[j + 1]? = none → es[0]? = some e0 → d.2 = e0.1

namespace Walks

variable {N : Arrow → Arrow → Prop} {W W' : List (List Arrow)}

theorem same (h : Walks N W) {f g : List Arrow} (hf : f ∈ W) (hg : g ∈ W) {d : Arrow} (h1 : d ∈ f) (h2 : d ∈ g) : f = g := by
  by_contra hne
  have hd := (List.nodup_flatten.1 h.once).2
  haveI : Std.Symm (List.Disjoint (α := Arrow)) := ⟨fun _ _ h => h.symm⟩
  exact List.Pairwise.forall (R := List.Disjoint) hd hf hg hne h1 h2

theorem index (h : Walks N W) {f : List Arrow} (hf : f ∈ W) {d : Arrow} {i j : Nat} (h1 : f[i]? = some d) (h2 : f[j]? = some d) : i = j :=
  (List.getElem?_inj (List.getElem?_eq_some_iff.1 h1).1 ((List.nodup_flatten.1 h.once).1 f hf)).1 (h1.trans h2.symm)

variable {E : Arrow → Prop} (hf : ∀ d a b, E d → E a → E b → N d a → N d b → a = b) (hi : ∀ a b d, E a → E b → E d → N a d → N b d → a = b)
  (h : Walks N W) (h' : Walks N W') (hE : ∀ d, d ∈ W.flatten ↔ E d) (hE' : ∀ d, d ∈ W'.flatten ↔ E d)

include hf hi h h' hE hE'

theorem head {es es' : List Arrow} (hes : es ∈ W) (hes' : es' ∈ W') {e0 : Arrow} (h0 : es[0]? = some e0) {k : Nat} (hk : es'[k]? = some e0) : k = 0 := by
  have memE : ∀ {f : List Arrow} {j : Nat} {d}, f ∈ W → f[j]? = some d → E d := fun hf hd => (hE _).1 (List.mem_flatten.2 ⟨_, hf, List.mem_of_getElem? hd⟩)
  have memE' : ∀ {f : List Arrow} {j : Nat} {d}, f ∈ W' → f[j]? = some d → E d := fun hf hd => (hE' _).1 (List.mem_flatten.2 ⟨_, hf, List.mem_of_getElem? hd⟩)
  -- going back, all edges are on outlines from this corner
  have back : ∀ n, n ≤ k → ∃ x f f0, es'[k - n]? = some x ∧ f ∈ W ∧ x ∈ f ∧ f[0]? = some f0 ∧ f0.1 = e0.1 := by
    intro n
    induction n with
    | zero => exact fun _ => ⟨e0, es, e0, hk, hes, List.mem_of_getElem? h0, h0, rfl⟩
    | succ n ih =>
      intro hn
      obtain ⟨x, f, f0, hx, hfW, hxf, hf0, hv⟩ := ih (by omega)
      have hlt := (List.getElem?_eq_some_iff.1 hx).1
      obtain ⟨p, hp⟩ : ∃ p, es'[k - (n + 1)]? = some p := ⟨_, List.getElem?_eq_getElem (by omega)⟩
      have hx' : es'[k - (n + 1) + 1]? = some x := by rw [← hx]; congr 1; omega
      obtain ⟨t1, t2⟩ := h'.turns es' hes' _ p x hp hx'
      have hpE := memE' hes' hp
      have hxE := memE' hes' hx
      obtain ⟨m, hm⟩ := List.mem_iff_getElem?.1 hxf
      rcases m with _ | m
      · rw [hf0] at hm
        cases hm
        obtain ⟨g, hg, hpg⟩ := List.mem_flatten.1 ((hE p).2 hpE)
        obtain ⟨m, hm⟩ := List.mem_iff_getElem?.1 hpg
        obtain ⟨g0, hg0, _⟩ := h.start g hg
        rcases hnx : g[m + 1]? with _ | y
        · exact ⟨p, g, g0, hp, hg, hpg, hg0, by rw [← h.closed g hg m p g0 hm hnx hg0, ← t1, hv]⟩
        · exfalso
          obtain ⟨_, u2⟩ := h.turns g hg m p y hm hnx
          have hyx := hf p y _ hpE (memE hg hnx) hxE u2 t2
          rw [hyx] at hnx
          have := h.same hg hfW (List.mem_of_getElem? hnx) hxf
          rw [this] at hnx
          have := h.index hfW hnx hf0
          omega
      · have hlt := (List.getElem?_eq_some_iff.1 hm).1
        obtain ⟨q, hq⟩ : ∃ q, f[m]? = some q := ⟨_, List.getElem?_eq_getElem (by omega)⟩
        obtain ⟨_, u2⟩ := h.turns f hfW m q x hq hm
        have := hi p q x hpE (memE hfW hq) hxE t2 u2
        exact ⟨p, f, f0, hp, hfW, this ▸ List.mem_of_getElem? hq, hf0, hv⟩
  rcases k with _ | k
  · rfl
  exfalso
  obtain ⟨x, f, f0, hx, hfW, hxf, hf0, hv⟩ := back (k + 1) le_rfl
  rw [Nat.sub_self] at hx
  obtain ⟨x', hx', hs⟩ := h'.start es' hes'
  rw [hx] at hx'
  cases hx'
  have h1 := hs k e0 hk
  obtain ⟨m, hm⟩ := List.mem_iff_getElem?.1 hxf
  obtain ⟨f0', hf0', hs'⟩ := h.start f hfW
  rw [hf0] at hf0'
  cases hf0'
  rcases m with _ | m
  · rw [hf0] at hm
    cases hm
    rw [hv] at h1
    exact LeftOf.irrefl _ h1
  · have h2 := hs' m x hm
    rw [hv] at h2
    exact LeftOf.irrefl _ (h2.trans h1)

theorem mem {es : List Arrow} (hes : es ∈ W) : es ∈ W' := by
  have memE : ∀ {f : List Arrow} {j : Nat} {d}, f ∈ W → f[j]? = some d → E d := fun hf hd => (hE _).1 (List.mem_flatten.2 ⟨_, hf, List.mem_of_getElem? hd⟩)
  have memE' : ∀ {f : List Arrow} {j : Nat} {d}, f ∈ W' → f[j]? = some d → E d := fun hf hd => (hE' _).1 (List.mem_flatten.2 ⟨_, hf, List.mem_of_getElem? hd⟩)
  obtain ⟨e0, h0, hs⟩ := h.start es hes
  obtain ⟨es', hes', hm⟩ := List.mem_flatten.1 ((hE' e0).2 (memE hes h0))
  obtain ⟨k, hk⟩ := List.mem_iff_getElem?.1 hm
  have := head hf hi h h' hE hE' hes hes' h0 hk
  subst this
  obtain ⟨e0', h0', hs'⟩ := h'.start es' hes'
  rw [hk] at h0'
  cases h0'
  have : es = es' := by
    apply List.ext_getElem?
    intro j
    induction j with
    | zero => rw [h0, hk]
    | succ j ih =>
      rcases h1 : es[j + 1]? with _ | a <;> rcases h2 : es'[j + 1]? with _ | b
      · rfl
      · exfalso
        have hlt := (List.getElem?_eq_some_iff.1 h2).1
        obtain ⟨d, hd⟩ : ∃ d, es'[j]? = some d := ⟨_, List.getElem?_eq_getElem (by omega)⟩
        have c := h.closed es hes j d e0 (ih.trans hd) h1 h0
        obtain ⟨t, _⟩ := h'.turns es' hes' j d b hd h2
        have := hs' j b h2
        rw [t, c] at this
        exact LeftOf.irrefl _ this
      · exfalso
        have hlt := (List.getElem?_eq_some_iff.1 h1).1
        obtain ⟨d, hd⟩ : ∃ d, es[j]? = some d := ⟨_, List.getElem?_eq_getElem (by omega)⟩
        have c := h'.closed es' hes' j d e0 (ih.symm.trans hd) h2 hk
        obtain ⟨t, _⟩ := h.turns es hes j d a hd h1
        have := hs j a h1
        rw [t, c] at this
        exact LeftOf.irrefl _ this
      · have hlt := (List.getElem?_eq_some_iff.1 h1).1
        obtain ⟨d, hd⟩ : ∃ d, es[j]? = some d := ⟨_, List.getElem?_eq_getElem (by omega)⟩
        have hd' := ih.symm.trans hd
        rw [hf d a b (memE hes hd) (memE hes h1) (memE' hes' h2) (h.turns es hes j d a hd h1).2 (h'.turns es' hes' j d b hd' h2).2]
  rw [this]
  exact hes'

end Walks

/-! ### The rule for going on -/

theorem turns_asymm {a b c : Arrow} (h : TurnsThrough a b c) (h' : TurnsThrough b a c) : False := by
  unfold TurnsThrough cross2 at *
  rcases h with h | h | h <;> rcases h' with h' | h' | h' <;> linarith [h.1, h.2, h'.1, h'.2]

theorem turns_rotate {a b c : Arrow} (h : TurnsThrough a b c) : TurnsThrough b c a := by
  unfold TurnsThrough at *
  tauto

/-- One goes on along `d'` from `d`. -/
def GoesOn (polys : List (Polygon ℝ × PolygonMode)) (d d' : Arrow) : Prop :=
  d'.1 = d.2 ∧ d' ≠ d.swap ∧ ∀ u, Drawn (keptPolygons polys) u → u.1 = d.2 → u ≠ d' → u ≠ d.swap → TurnsThrough u d' d.swap

variable {polys : List (Polygon ℝ × PolygonMode)}

theorem GoesOn.unique {d a b : Arrow} (hka : Drawn (keptPolygons polys) a) (hkb : Drawn (keptPolygons polys) b) (ha : GoesOn polys d a) (hb : GoesOn polys d b) : a = b := by
  by_contra hne
  exact turns_asymm (ha.2.2 b hkb hb.1 (Ne.symm hne) hb.2.1) (hb.2.2 a hka ha.1 hne ha.2.1)

theorem GoesOn.inj {d a b : Arrow} (hka : Drawn (keptPolygons polys) a) (hkb : Drawn (keptPolygons polys) b) (ha : GoesOn polys a d) (hb : GoesOn polys b d) : a = b := by
  by_contra hne
  have h1 := ha.2.2 b.swap (Plan.Drawn.swap hkb) (hb.1.symm.trans ha.1) (Ne.symm hb.2.1) (fun e => hne (Prod.swap_injective e).symm)
  have h2 := hb.2.2 a.swap (Plan.Drawn.swap hka) (ha.1.symm.trans hb.1) (Ne.symm ha.2.1) (fun e => hne (Prod.swap_injective e))
  exact turns_asymm (turns_rotate h1) h2

/-! ### The outlines as lists of edges -/

theorem closed_some {v : Pt ℝ} {rest : List (Pt ℝ)} {j : Nat} {d : Arrow} :
    (closedEdges (v :: rest))[j]? = some d ↔ (v :: rest)[j]? = some d.1 ∧ (rest ++ [v])[j]? = some d.2 := by
  unfold closedEdges
  rw [List.rotate_cons_succ, List.rotate_zero, List.getElem?_zip_eq_some]

theorem closed_none {v : Pt ℝ} {rest : List (Pt ℝ)} {j : Nat} : (closedEdges (v :: rest))[j]? = none ↔ rest.length < j := by
  unfold closedEdges
  rw [List.getElem?_eq_none_iff]
  simp

theorem closedEdges_fst (ps : List (Pt ℝ)) : (closedEdges ps).map Prod.fst = ps := by
  unfold closedEdges
  rw [List.map_fst_zip (by simp)]

theorem KeptOutlines.walks {outlines : List (List (Pt ℝ))} (h : KeptOutlines polys outlines) : Walks (GoesOn polys) (outlines.map closedEdges) := by
  refine ⟨by rw [← List.flatMap_def]; exact h.once, ?_, ?_, ?_⟩
  · intro es hes j d d' hd hd'
    obtain ⟨ps, hps, rfl⟩ := List.mem_map.1 hes
    have := h.turns ps hps j d d' hd hd'
    exact ⟨this.1, this⟩
  · intro es hes
    obtain ⟨ps, hps, rfl⟩ := List.mem_map.1 hes
    obtain ⟨v, rest, rfl, hv⟩ := h.start ps hps
    obtain ⟨w, hw⟩ : ∃ w, (rest ++ [v])[0]? = some w := ⟨_, List.getElem?_eq_getElem (by simp)⟩
    refine ⟨(v, w), closed_some.2 ⟨rfl, hw⟩, fun j d hd => hv _ ?_⟩
    have := (closed_some.1 hd).1
    rw [List.getElem?_cons_succ] at this
    exact List.mem_of_getElem? this
  · intro es hes j d e0 hd hn h0
    obtain ⟨ps, hps, rfl⟩ := List.mem_map.1 hes
    obtain ⟨v, rest, rfl, hv⟩ := h.start ps hps
    have h1 := (closed_some.1 hd).2
    have h2 := (closed_some.1 h0).1
    have h3 := closed_none.1 hn
    rw [List.getElem?_cons_zero] at h2
    have h4 := (List.getElem?_eq_some_iff.1 h1).1
    rw [List.length_append, List.length_singleton] at h4
    have : j = rest.length := by omega
    subst this
    rw [List.getElem?_append_right (le_refl _), Nat.sub_self, List.getElem?_cons_zero] at h1
    rw [← Option.some.inj h1, ← Option.some.inj h2]

/-- There is at most one way to draw the outlines. -/
theorem KeptOutlines.unique (hP : Planar polys) {o o' : List (List (Pt ℝ))} (h : KeptOutlines polys o) (h' : KeptOutlines polys o') : o = o' := by
  have area : ∀ d, Drawn polys d → ∃ f, AreaLeft polys d f := by
    intro d hd
    obtain ⟨z, hz, rfl⟩ := Plan.drawn_top (hP := hP) hd
    exact ⟨_, Plan.areaLeft_flag hz⟩
  let E : Arrow → Prop := fun d => Drawn (keptPolygons polys) d ∧ ∃ f, AreaLeft polys d f ∧ FlagsOk polys f
  have mem : ∀ {o}, KeptOutlines polys o → ∀ d, d ∈ (o.map closedEdges).flatten ↔ E d := by
    intro o h d
    rw [← List.flatMap_def]
    constructor
    · intro hd
      obtain ⟨f, hf⟩ := area d (h.drawn d hd)
      obtain ⟨h1, h2⟩ := (h.edges d f (h.drawn d hd) hf).1 hd
      exact ⟨h1, f, hf, h2⟩
    · rintro ⟨h1, f, hf, h2⟩
      exact (h.edges d f (Plan.kept_drawn h1) hf).2 ⟨h1, h2⟩
  have sub : ∀ {o o'}, KeptOutlines polys o → KeptOutlines polys o' → ∀ ps ∈ o, ps ∈ o' := by
    intro o o' h h' ps hps
    have := Walks.mem (E := E) (N := GoesOn polys) (fun d a b _ ha hb h1 h2 => GoesOn.unique ha.1 hb.1 h1 h2) (fun a b d ha hb _ h1 h2 => GoesOn.inj ha.1 hb.1 h1 h2)
      h.walks h'.walks (mem h) (mem h') (List.mem_map_of_mem (f := closedEdges) hps)
    obtain ⟨ps', h1, h2⟩ := List.mem_map.1 this
    rw [← closedEdges_fst ps, ← h2, closedEdges_fst]
    exact h1
  have asymm : ∀ ps ps' : List (Pt ℝ), (∃ d d', (closedEdges ps).head? = some d ∧ (closedEdges ps').head? = some d' ∧ (LeftOf d.1 d'.1 ∨ d.1 = d'.1 ∧ 0 < cross2 d d')) →
      (∃ d d', (closedEdges ps').head? = some d ∧ (closedEdges ps).head? = some d' ∧ (LeftOf d.1 d'.1 ∨ d.1 = d'.1 ∧ 0 < cross2 d d')) → False := by
    rintro ps ps' ⟨d, d', h1, h2, h3⟩ ⟨e, e', h4, h5, h6⟩
    rw [h2] at h4
    rw [h1] at h5
    cases h4
    cases h5
    rcases h3 with h3 | ⟨h3, h3'⟩ <;> rcases h6 with h6 | ⟨h6, h6'⟩
    · exact LeftOf.irrefl _ (h3.trans h6)
    · rw [h6] at h3; exact LeftOf.irrefl _ h3
    · rw [h3] at h6; exact LeftOf.irrefl _ h6
    · unfold cross2 at h3' h6'
      linarith
  have nodup : ∀ {o}, KeptOutlines polys o → o.Nodup := by
    intro o h
    refine List.Pairwise.imp ?_ h.order
    intro a b hR e
    subst e
    exact asymm _ _ hR hR
  exact List.Perm.eq_of_pairwise (le := fun ps ps' => ∃ d d', (closedEdges ps).head? = some d ∧ (closedEdges ps').head? = some d' ∧ (LeftOf d.1 d'.1 ∨ d.1 = d'.1 ∧ 0 < cross2 d d'))
    (fun a b _ _ h1 h2 => (asymm a b h1 h2).elim) h.order h'.order ((List.perm_ext_iff_of_nodup (nodup h) (nodup h')).2 fun ps => ⟨sub h h' ps, sub h' h ps⟩)

end Idc
