import Verif.Props.AreasPlan
/-!
# Which side of an edge is inside of a polygon, for C88
-/

namespace Idc

open Plan

/-- The area just left of the edge is inside of the polygon. -/
def InsideLeft (p : Polygon ℝ) (d : Pt ℝ × Pt ℝ) : Prop := ∃ δ₀ : ℝ, 0 < δ₀ ∧ ∀ δ, 0 < δ → δ < δ₀ → p.evenOdd (leftPoint d δ)

/-- A polygon made of edges that are there. -/
structure Fits (polys : List (Polygon ℝ × PolygonMode)) (X : Polygon ℝ) : Prop where
  drawn : ∀ d ∈ X.edges, d.1 ≠ d.2 → Drawn polys d
  corners : ∀ c ∈ X.contours, ∀ q ∈ c.points, q ∈ allCorners polys
  once : X.edges.Pairwise fun e e' => e.1 ≠ e.2 → e' ≠ e ∧ e' ≠ e.swap

/-- The polygons, and some more. -/
def withPolys (polys : List (Polygon ℝ × PolygonMode)) (Xs : List (Polygon ℝ)) : List (Polygon ℝ × PolygonMode) :=
  polys ++ Xs.map fun X => (X, PolygonMode.normal)

variable {polys : List (Polygon ℝ × PolygonMode)} {Xs : List (Polygon ℝ)} {X : Polygon ℝ}

theorem mem_with {p : Polygon ℝ × PolygonMode} : p ∈ withPolys polys Xs ↔ p ∈ polys ∨ ∃ X ∈ Xs, p = (X, PolygonMode.normal) := by
  unfold withPolys
  rw [List.mem_append, List.mem_map]
  exact or_congr Iff.rfl ⟨fun ⟨X, h, e⟩ => ⟨X, h, e.symm⟩, fun ⟨X, h, e⟩ => ⟨X, h, e.symm⟩⟩

theorem drawn_with (h : ∀ X ∈ Xs, Fits polys X) {d : Pt ℝ × Pt ℝ} : Drawn (withPolys polys Xs) d ↔ Drawn polys d := by
  constructor
  · intro hd
    obtain ⟨hne, p, hp, he⟩ := drawn_iff.1 hd
    rcases mem_with.1 hp with hp | ⟨X, hX, rfl⟩
    · exact drawn_iff.2 ⟨hne, p, hp, he⟩
    · rcases he with he | he
      · exact (h X hX).drawn d he hne
      · have := Plan.Drawn.swap ((h X hX).drawn d.swap he (Ne.symm hne))
        rwa [Prod.swap_swap] at this
  · intro hd
    obtain ⟨hne, p, hp, he⟩ := drawn_iff.1 hd
    exact drawn_iff.2 ⟨hne, p, mem_with.2 (.inl hp), he⟩

theorem planar_with (hP : Planar polys) (h : ∀ X ∈ Xs, Fits polys X) : Planar (withPolys polys Xs) where
  separate := hP.separate.mono (by
    intro q hq
    unfold allCorners at hq
    obtain ⟨p, hp, hq⟩ := List.mem_flatMap.1 hq
    obtain ⟨c, hc, hq'⟩ := List.mem_flatMap.1 hq
    rcases mem_with.1 hp with hp | ⟨X, hX, rfl⟩
    · exact List.mem_flatMap.2 ⟨p, hp, List.mem_flatMap.2 ⟨c, hc, hq'⟩⟩
    · exact (h X hX).corners c hc q hq') fun e he => (drawn_with h).1 he
  once p hp := by
    rcases mem_with.1 hp with hp | ⟨X, hX, rfl⟩
    · exact hP.once p hp
    · exact (h X hX).once
  apart e e' he he' := hP.apart e e' ((drawn_with h).1 he) ((drawn_with h).1 he')
  angles e e' he he' := hP.angles e e' ((drawn_with h).1 he) ((drawn_with h).1 he')
  distances e e' he he' := hP.distances e e' ((drawn_with h).1 he) ((drawn_with h).1 he')

theorem fits_self (hP : Planar polys) {p : Polygon ℝ × PolygonMode} (hp : p ∈ polys) : Fits polys p.1 where
  drawn d hd hne := drawn_iff.2 ⟨hne, p, hp, .inl hd⟩
  corners c hc q hq := List.mem_flatMap.2 ⟨p, hp, List.mem_flatMap.2 ⟨c, hc, hq⟩⟩
  once := hP.once p hp

/-- What the flags say. -/
theorem insideLeft_iff {hP : Planar polys} {m : ℕ} {p : Polygon ℝ × PolygonMode} (hp : polys[m]? = some p) {z : EndId} (hz : (ofPolys polys hP).Top z.1) :
    InsideLeft p.1 ((ofPolys polys hP).edge z) ↔ (ofPolys polys hP).F z m = 1 := by
  obtain ⟨δ₀, h0, h⟩ := under_left hz
  constructor
  · rintro ⟨δ₁, h1, h'⟩
    have d0 : 0 < Min.min δ₀ δ₁ / 2 := by have := lt_min h0 h1; linarith
    have d1 : Min.min δ₀ δ₁ / 2 < δ₀ := by have := min_le_left δ₀ δ₁; linarith
    have d2 : Min.min δ₀ δ₁ / 2 < δ₁ := by have := min_le_right δ₀ δ₁; linarith
    obtain ⟨g1, g2⟩ := h _ d0 d1
    have := h' _ d0 d2
    rwa [evenOdd_under hp g1, g2] at this
  · intro hF
    refine ⟨δ₀, h0, fun δ d0 d1 => ?_⟩
    obtain ⟨g1, g2⟩ := h δ d0 d1
    rw [evenOdd_under hp g1, g2, hF]

theorem insideLeft_area {d : Pt ℝ × Pt ℝ} {f : List Bool} (h : AreaLeft polys d f) {m : ℕ} {p : Polygon ℝ × PolygonMode} (hp : polys[m]? = some p) :
    f[m]? = some true ↔ InsideLeft p.1 d := by
  obtain ⟨_, δ₀, h0, h⟩ := h
  constructor
  · intro hf
    exact ⟨δ₀, h0, fun δ d0 d1 => (h δ d0 d1 m p hp).1 hf⟩
  · rintro ⟨δ₁, h1, h'⟩
    have d0 : 0 < Min.min δ₀ δ₁ / 2 := by have := lt_min h0 h1; linarith
    have d1 : Min.min δ₀ δ₁ / 2 < δ₀ := by have := min_le_left δ₀ δ₁; linarith
    have d2 : Min.min δ₀ δ₁ / 2 < δ₁ := by have := min_le_right δ₀ δ₁; linarith
    exact (h _ d0 d1 m p hp).2 (h' _ d0 d2)

theorem with_last : (withPolys polys [X])[polys.length]? = some (X, PolygonMode.normal) := by
  unfold withPolys
  rw [List.getElem?_append_right (le_refl _), Nat.sub_self]
  rfl

theorem fits_one (hX : Fits polys X) : ∀ Y ∈ [X], Fits polys Y := by
  intro Y hY
  rw [List.mem_singleton.1 hY]
  exact hX

/-- At a corner, both edges of an outline have the same area on the left. -/
theorem InsideLeft.turn (hP : Planar polys) (hX : Fits polys X) {d d' : Pt ℝ × Pt ℝ} (hd : Drawn polys d) (hd' : Drawn polys d') (h1 : d'.1 = d.2)
    (h2 : d' ≠ d.swap) (h3 : ∀ u, Drawn polys u → u.1 = d.2 → u ≠ d' → u ≠ d.swap → TurnsThrough u d' d.swap) : InsideLeft X d' ↔ InsideLeft X d := by
  have hQ := planar_with hP (fits_one hX)
  have hdr : ∀ {d}, Drawn (withPolys polys [X]) d ↔ Drawn polys d := drawn_with (fits_one hX)
  obtain ⟨z, hz, rfl⟩ := drawn_top (hP := hQ) (hdr.2 hd)
  obtain ⟨z', hz', rfl⟩ := drawn_top (hP := hQ) (hdr.2 hd')
  rw [insideLeft_iff with_last hz, insideLeft_iff with_last hz']
  have : (ofPolys _ hQ).next z = z' := by
    refine next_of_turns hz (mem_corner.2 ⟨hz', h1⟩) ?_ ?_
    · rintro rfl
      exact h2 (edge_opp _)
    · intro w hw hwz hwo
      obtain ⟨w1, w2⟩ := mem_corner.1 hw
      have := h3 ((ofPolys _ hQ).edge w) (hdr.1 (top_drawn w1)) w2 (fun e => hwz (edge_inj w1 hz' e))
        (fun e => hwo (edge_inj w1 (z := opp z) hz (by rw [edge_opp]; exact e)))
      rw [← edge_opp] at this
      exact this
  rw [← this, F_next hz]

theorem nextBelow_with (h : ∀ X ∈ Xs, Fits polys X) {e d : Pt ℝ × Pt ℝ} (hn : NextBelow polys e d) : NextBelow (withPolys polys Xs) e d where
  drawn := (drawn_with h).2 hn.drawn
  right := hn.right
  next := by
    rcases hn.next with ⟨h1, h2, h3⟩ | ⟨h1, h2, h3⟩
    · exact .inl ⟨h1, h2, fun u hu => h3 u ((drawn_with h).1 hu)⟩
    · refine .inr ⟨fun u hu => h1 u ((drawn_with h).1 hu), h2, ?_⟩
      intro e' he' hc x ho ho'
      have hx := crosses_x hc
      have hne : e'.1 ≠ e'.2 := fun e => hx (by rw [e])
      have hd : Drawn polys e' := (drawn_with h).1 ⟨hne, .inl he'⟩
      rcases hd.2 with hd | hd
      · exact h3 e' hd hc x ho ho'
      · have := h3 e'.swap hd ((crosses_swap _).2 hc) x ho ((over_swap e' x).2 ho')
        have e1 : heightAt e'.swap x = heightAt e' x := heightAt_swap hx x
        rwa [e1] at this

/-- Between an edge and the next one below. -/
theorem InsideLeft.below (hP : Planar polys) (hX : Fits polys X) {e d : Pt ℝ × Pt ℝ} (he : Drawn polys e) (hl : LeftOf e.1 e.2) (hn : NextBelow polys e d) :
    InsideLeft X e.swap ↔ InsideLeft X d := by
  have hQ := planar_with hP (fits_one hX)
  have hdr : ∀ {d}, Drawn (withPolys polys [X]) d ↔ Drawn polys d := drawn_with (fits_one hX)
  obtain ⟨i, hi, rfl⟩ := drawn_right (hP := hQ) (hdr.2 he) hl
  obtain ⟨k, hk, rfl⟩ := drawn_right (hP := hQ) (hdr.2 hn.drawn) hn.right
  have hu := under_of_next hi hk (nextBelow_with (fits_one hX) hn)
  have h1 := insideLeft_iff (hP := hQ) with_last (z := (i, .right)) hi
  have h2 := insideLeft_iff (hP := hQ) with_last (z := (k, .left)) hk
  have h3 : (ofPolys _ hQ).F (i, .right) polys.length = (ofPolys _ hQ).F (k, .left) polys.length := by
    refine lo_of_below ((ofPolys _ hQ).tau_quiet i) (alive_self hi.1) hu.alive hk hu.low ?_ _
    intro j hj hlt
    by_contra hc
    exact hu.max j hj hlt (.inl (not_le.1 hc))
  rw [h3] at h1
  exact h1.trans h2.symm

/-- There is a next edge below one that is inside of some polygon. -/
theorem exists_below (hP : Planar polys) {e : Pt ℝ × Pt ℝ} (he : Drawn polys e) (hl : LeftOf e.1 e.2) {p : Polygon ℝ × PolygonMode} (hp : p ∈ polys)
    (h : InsideLeft p.1 e.swap) : ∃ d, NextBelow polys e d := by
  obtain ⟨i, hi, rfl⟩ := drawn_right (hP := hP) he hl
  obtain ⟨m, hm⟩ := List.mem_iff_getElem?.1 hp
  have h1 := (insideLeft_iff (hP := hP) hm (z := (i, .right)) hi).1 h
  obtain ⟨k, hk⟩ := under_of_lo (G := ofPolys polys hP) (i := i) (m := m) (by
    have : (ofPolys polys hP).lo i m = 1 := h1
    rw [this]; exact one_ne_zero)
  exact ⟨_, nextBelow_of hi hk⟩

end Idc
