import Verif.Spec.Result
import Verif.Props.Walks
import Verif.Props.HolesSorted
/-!
# C86: the result is determined by the polygons
-/

namespace Idc

variable {lib : Lib} {polys : List (Polygon ℝ × PolygonMode)}

theorem flags_eq {f g : List Bool} (hl : f.length = g.length) (h : ∀ m : ℕ, f[m]? = some true ↔ g[m]? = some true) : f = g := by
  apply List.ext_getElem?
  intro m
  by_cases hm : m < f.length
  · have := h m
    rw [List.getElem?_eq_getElem hm, List.getElem?_eq_getElem (by omega)] at this ⊢
    rw [Option.some.injEq, Option.some.injEq] at this
    rw [Bool.eq_iff_iff.2 this]
  · rw [List.getElem?_eq_none (by omega), List.getElem?_eq_none (by omega)]

/-- **C86.** There is at most one result: the description leaves nothing open. -/
theorem C86_unique (hP : Planar polys) {r r' : Polygon ℝ} (h : IsResult polys r) (h' : IsResult polys r') : r = r' := by
  have ho := h.outlines.unique hP h'.outlines
  have hlen : r.contours.length = r'.contours.length := by simpa using congrArg List.length ho
  have hpts : ∀ (i : Nat) c c', r.contours[i]? = some c → r'.contours[i]? = some c' → c.points = c'.points := by
    intro i c c' hc hc'
    have := congrArg (fun l => l[i]?) ho
    simpa only [List.getElem?_map, hc, hc', Option.map_some, Option.some.injEq] using this
  have hother : ∀ {i : Nat} {c}, r.contours[i]? = some c → ∃ c', r'.contours[i]? = some c' := fun {i c} hc =>
    ⟨_, List.getElem?_eq_getElem (by have := (List.getElem?_eq_some_iff.1 hc).1; omega)⟩
  have hother' : ∀ {i : Nat} {c}, r'.contours[i]? = some c → ∃ c', r.contours[i]? = some c' := fun {i c} hc =>
    ⟨_, List.getElem?_eq_getElem (by have := (List.getElem?_eq_some_iff.1 hc).1; omega)⟩
  have key : ∀ (i : Nat) c c', r.contours[i]? = some c → r'.contours[i]? = some c' → c = c' := by
    intro i c c' hc hc'
    have hp := hpts i c c' hc hc'
    have hm := List.mem_of_getElem? hc
    have hm' := List.mem_of_getElem? hc'
    have e1 : c.from_polygons = c'.from_polygons := flags_eq (by rw [(h.labels c hm).1, (h'.labels c' hm').1]) fun m => by
      rw [(h.labels c hm).2, (h'.labels c' hm').2, hp]
    have e2 : c.neighbors = c'.neighbors := flags_eq (by rw [(h.neighbors c hm).1, (h'.neighbors c' hm').1, hlen]) fun m => by
      by_cases hml : m < r.contours.length
      · obtain ⟨d, hd⟩ : ∃ d, r.contours[m]? = some d := ⟨_, List.getElem?_eq_getElem hml⟩
        obtain ⟨d', hd'⟩ := hother hd
        rw [(h.neighbors c hm).2 m d hd, (h'.neighbors c' hm').2 m d' hd', hp, hpts m d d' hd hd']
      · rw [List.getElem?_eq_none (by rw [(h.neighbors c hm).1]; omega), List.getElem?_eq_none (by rw [(h'.neighbors c' hm').1]; omega)]
    have e3 : c.external = c'.external := Bool.eq_iff_iff.2 (by rw [h.external c hm, h'.external c' hm', hp])
    have e4 : c.is_clockwise = c'.is_clockwise := by
      obtain ⟨b, h1, h2⟩ := h.clockwise c hm
      obtain ⟨b', h1', h2'⟩ := h'.clockwise c' hm'
      rw [h1, h1', show b = b' from Bool.eq_iff_iff.2 (by rw [h2, h2', hp])]
    have e5 : c.holes = c'.holes := by
      refine List.Perm.eq_of_pairwise (le := (· < ·)) (fun a b _ _ h1 h2 => absurd h1 (by omega)) (h.sorted c hm) (h'.sorted c' hm')
        ((List.perm_ext_iff_of_nodup ((h.sorted c hm).imp fun h => by omega) ((h'.sorted c' hm').imp fun h => by omega)).2 fun j => ?_)
      rw [h.holes c hm, h'.holes c' hm']
      constructor
      · rintro ⟨d, hd, k⟩
        obtain ⟨d', hd'⟩ := hother hd
        exact ⟨d', hd', by rw [← hpts j d d' hd hd', ← hp]; exact k⟩
      · rintro ⟨d', hd', k⟩
        obtain ⟨d, hd⟩ := hother' hd'
        exact ⟨d, hd, by rw [hpts j d d' hd hd', hp]; exact k⟩
    cases c
    cases c'
    dsimp only at hp e1 e2 e3 e4 e5
    subst hp e1 e2 e3 e4 e5
    rfl
  have : r.contours = r'.contours := by
    apply List.ext_getElem?
    intro i
    rcases hc : r.contours[i]? with _ | c
    · rw [List.getElem?_eq_none_iff] at hc
      rw [List.getElem?_eq_none (by omega)]
    · obtain ⟨c', hc'⟩ := hother hc
      rw [hc', key i c c' hc hc']
  cases r
  cases r'
  dsimp only at this
  rw [this]

theorem compute_isResult (hl : lib.Lawful) (hP : Planar polys) (hR : Removable polys) {op : BooleanOpType} {fuel : ℕ} (hf : 2 * (allCorners polys).length < fuel)
    {r : Polygon ℝ} (h : compute lib fuel polys op = .ok r) : IsResult polys r := by
  obtain ⟨o, h1, h2, h3⟩ := C85_outlines hl hP hR op
  have hn : ¬ ∃ ps ∈ o, Orphan polys ps := by
    intro hn
    rw [h2 hn fuel hf] at h
    cases h
  obtain ⟨r', e, h3⟩ := h3 hn
  have h3 := h3 fuel hf
  rw [h] at h3
  cases h3
  have hk := compute_kept h
  have hne : ∀ c ∈ r.contours, c.points ≠ [] := by
    intro c hc e'
    obtain ⟨v, rest, h4, _⟩ := h1.start c.points (e ▸ List.mem_map_of_mem (f := fun c : Contour ℝ => c.points) hc)
    rw [h4] at e'
    cases e'
  refine ⟨e ▸ h1, fun c hc ho => hn ⟨c.points, e ▸ List.mem_map_of_mem (f := fun c : Contour ℝ => c.points) hc, ho⟩, fun c hc => C85_labels hl hP hR hf h hc, ?_,
    fun c hc => (C85_external hl hP hR hf h hc).1, ?_, fun c hc => (hk c hc).1, ?_⟩
  · intro c hc
    obtain ⟨i, hi⟩ := List.mem_iff_getElem?.1 hc
    exact ⟨(C85_neighbors hl hP hR hf h hi hi).1, fun j c' hc' => (C85_neighbors hl hP hR hf h hi hc').2⟩
  · intro c hc
    obtain ⟨_, _, area, ha, hcw⟩ := hk c hc
    rw [areaOf_eq (hne c hc)] at ha
    cases ha
    refine ⟨_, hcw, ?_⟩
    rw [Plan.flt_iff]
    simp [FloatOps.ofInt]
  · intro c hc j
    obtain ⟨i, hi⟩ := List.mem_iff_getElem?.1 hc
    constructor
    · intro hj
      obtain ⟨d, hd⟩ : ∃ d, r.contours[j]? = some d := ⟨_, List.getElem?_eq_getElem ((hk c hc).2.1 j hj)⟩
      exact ⟨d, hd, (C85_holes hl hP hR hf h hi hd).1 hj⟩
    · rintro ⟨d, hd, k⟩
      exact (C85_holes hl hP hR hf h hi hd).2 k

/-- **C86.** `compute` returns the result, all of it as described; if there is none, it fails, always in the same way.  So no freedom is
left to the containers it uses. -/
theorem C86_exact (hl : lib.Lawful) (hP : Planar polys) (hR : Removable polys) (op : BooleanOpType) {fuel : ℕ} (hf : 2 * (allCorners polys).length < fuel) :
    (∀ r, compute lib fuel polys op = .ok r ↔ IsResult polys r) ∧ ((¬ ∃ r, IsResult polys r) → compute lib fuel polys op = .panic .unwrap) := by
  obtain ⟨o, h1, h2, h3⟩ := C85_outlines hl hP hR op
  by_cases hn : ∃ ps ∈ o, Orphan polys ps
  · have hp := h2 hn fuel hf
    refine ⟨fun r => ⟨fun h => by rw [hp] at h; exact (nomatch h), fun h => ?_⟩, fun _ => hp⟩
    exfalso
    obtain ⟨ps, hps, ho⟩ := hn
    rw [h1.unique hP h.outlines, List.mem_map] at hps
    obtain ⟨c, hc, rfl⟩ := hps
    exact h.parents c hc ho
  · obtain ⟨r0, _, h3⟩ := h3 hn
    have h0 := compute_isResult hl hP hR hf (h3 fuel hf)
    refine ⟨fun r => ⟨compute_isResult hl hP hR hf, fun h => ?_⟩, fun hno => absurd ⟨r0, h0⟩ hno⟩
    rw [h3 fuel hf, C86_unique hP h h0]

end Idc
