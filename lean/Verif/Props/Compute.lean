import Verif.Props.Walk
/-!
# C57-C60: what `compute` returns
-/

namespace Idc

open FloatOps

variable {F : Type} [FloatOps F] {polys : List (Polygon F × PolygonMode)}

/-! ### Holes -/

theorem count_set_append {α : Type} (f : α → List Nat) {a' : α} {j : Nat} (i : Nat) : ∀ {l : List α} {p : Nat} {a : α}, l[p]? = some a → f a' = f a ++ [j] →
    ((l.set p a').flatMap f).count i = (l.flatMap f).count i + if i = j then 1 else 0
  | [], _, _, h, _ => by simp at h
  | x :: l, 0, a, h, hf => by
    simp only [List.getElem?_cons_zero, Option.some.injEq] at h
    subst h
    simp only [List.set_cons_zero, List.flatMap_cons, List.count_append, hf, List.count_singleton]
    rcases Nat.decEq i j with h | h
    · simp [h, Ne.symm h]
    · simp [h]; omega
  | x :: l, p + 1, a, h, hf => by
    simp only [List.set_cons_succ, List.flatMap_cons, List.count_append, count_set_append f i (by simpa using h) hf]
    omega

theorem flatMap_set_same {α : Type} (f : α → List Nat) {a a' : α} {l : List α} {p : Nat} (h : l[p]? = some a) (hf : f a' = f a) :
    (l.set p a').flatMap f = l.flatMap f := by
  rw [List.flatMap_def, List.flatMap_def]
  congr 1
  apply List.ext_getElem?
  intro j
  rw [List.getElem?_map, List.getElem?_map, getElem?_set_of h]
  by_cases hj : j = p
  · rw [if_pos hj, hj, h, Option.map_some, Option.map_some, hf]
  · rw [if_neg hj]

theorem HolesOk.nil : HolesOk ([] : List (Contour F)) := ⟨by simp, by simp, by simp⟩

theorem HolesOk.not_mem {cs : List (Contour F)} (h : HolesOk cs) : cs.length ∉ cs.flatMap fun c => c.holes := by
  intro hm
  obtain ⟨c, hc, hj⟩ := List.mem_flatMap.mp hm
  obtain ⟨p, hp⟩ := List.mem_iff_getElem?.mp hc
  have := (h.order p c hp _ hj).2
  omega

theorem HolesOk.append {cs : List (Contour F)} (h : HolesOk cs) {c : Contour F} (hh : c.holes = []) (he : c.external = true) : HolesOk (cs ++ [c]) := by
  refine ⟨?_, ?_, ?_⟩
  · intro i d hd
    rw [List.flatMap_append]
    simp only [List.flatMap_cons, List.flatMap_nil, hh, List.append_nil]
    rcases Nat.lt_or_ge i cs.length with hi | hi
    · rw [List.getElem?_append_left hi] at hd
      exact h.once i d hd
    · have hil : i = cs.length := by have := lt_of_getElem? hd; simp at this; omega
      rw [hil, List.getElem?_append_right (Nat.le_refl _)] at hd
      simp only [Nat.sub_self, List.getElem?_cons_zero, Option.some.injEq] at hd
      subst hd
      rw [he, hil, List.count_eq_zero.mpr h.not_mem]
      rfl
  · intro p d hd j hj
    rcases Nat.lt_or_ge p cs.length with hp | hp
    · rw [List.getElem?_append_left hp] at hd
      have := h.order p d hd j hj
      exact ⟨this.1, by simp; omega⟩
    · have hil : p = cs.length := by have := lt_of_getElem? hd; simp at this; omega
      rw [hil, List.getElem?_append_right (Nat.le_refl _)] at hd
      simp only [Nat.sub_self, List.getElem?_cons_zero, Option.some.injEq] at hd
      subst hd
      rw [hh] at hj
      cases hj
  · intro d hd hx
    rcases List.mem_append.mp hd with hd | hd
    · exact h.clockwise d hd hx
    · rw [List.mem_singleton] at hd
      subst hd
      rw [he] at hx
      cases hx

theorem HolesOk.hole {cs : List (Contour F)} (h : HolesOk cs) {p j : Nat} {cp cj : Contour F} (hpj : p ≤ j) (hp : cs[p]? = some cp)
    (hj : (cs.set p (cp.addHole j))[j]? = some cj) (hext : ∃ c, cs[j]? = some c ∧ c.external = true)
    (hcw : ∃ area, areaOf cj.points = .ok area ∧ lt area (ofInt 0) = true) :
    HolesOk ((cs.set p (cp.addHole j)).set j (cj.setExternal false)) := by
  have hget : ∀ i d, ((cs.set p (cp.addHole j)).set j (cj.setExternal false))[i]? = some d →
      ∃ c, cs[i]? = some c ∧ d.external = (if i = j then false else c.external) ∧ d.holes = (if i = p then c.holes ++ [j] else c.holes) ∧
        d.points = c.points := by
    intro i d hd
    rw [getElem?_set_of hj] at hd
    by_cases hij : i = j
    · rw [if_pos hij] at hd
      cases hd
      rw [getElem?_set_of hp] at hj
      by_cases hjp : j = p
      · rw [if_pos hjp] at hj
        cases hj
        exact ⟨cp, by rw [hij, hjp]; exact hp, by simp [hij, Contour.setExternal], by simp [hij, hjp, Contour.setExternal, Contour.addHole], rfl⟩
      · rw [if_neg hjp] at hj
        exact ⟨cj, by rw [hij]; exact hj, by simp [hij, Contour.setExternal], by rw [if_neg (by omega)]; rfl, rfl⟩
    · rw [if_neg hij, getElem?_set_of hp] at hd
      by_cases hip : i = p
      · rw [if_pos hip] at hd
        cases hd
        exact ⟨cp, by rw [hip]; exact hp, by rw [if_neg hij]; rfl, by rw [if_pos hip]; rfl, rfl⟩
      · rw [if_neg hip] at hd
        exact ⟨d, hd, by rw [if_neg hij], by rw [if_neg hip], rfl⟩
  refine ⟨?_, ?_, ?_⟩
  · intro i d hd
    rw [flatMap_set_same (fun c : Contour F => c.holes) (a' := cj.setExternal false) hj rfl,
      count_set_append (fun c : Contour F => c.holes) (a' := cp.addHole j) (j := j) i hp rfl]
    obtain ⟨c, hc, h1, _⟩ := hget i d hd
    rw [h.once i c hc, h1]
    by_cases hij : i = j
    · obtain ⟨c', hc', he⟩ := hext
      rw [hij, hc'] at hc
      cases hc
      simp [hij, he]
    · simp [hij]
  · intro q d hd k hk
    obtain ⟨c, hc, _, h2, _⟩ := hget q d hd
    simp only [List.length_set]
    rw [h2] at hk
    split at hk
    · rename_i hqp
      rcases List.mem_append.mp hk with hk | hk
      · exact h.order q c hc k hk
      · rw [List.mem_singleton] at hk
        subst hk
        refine ⟨by omega, ?_⟩
        obtain ⟨c', hc', _⟩ := hext
        exact lt_of_getElem? hc'
    · exact h.order q c hc k hk
  · intro d hd hx
    obtain ⟨i, hi⟩ := List.mem_iff_getElem?.mp hd
    obtain ⟨c, hc, h1, _, h3⟩ := hget i d hi
    by_cases hij : i = j
    · rw [getElem?_set_of hj, if_pos hij] at hi
      cases hi
      exact hcw
    · rw [if_neg hij] at h1
      rw [h3]
      exact h.clockwise c (mem_of_getElem? hc) (h1 ▸ hx)

/-! ### Tracing all contours -/

/-- A claim about an edge whose first point may be off, in terms of the endpoint a stray walk starts with. -/
def Follows₀ (o0 : Pt F) (j : Nat) (pts : List (Pt F)) (a b : Pt F) : Prop :=
  ∃ k x y, IsEdge pts k x y ∧ SamePoint y b ∧ (SamePoint x a ∨ k = 0 ∧ (x = y ∨ 0 < j ∧ y = o0))

/-- What holds of the traced contours. -/
structure TraceInv (polys : List (Polygon F × PolygonMode)) (arena0 : Arena F) (o0 : Pt F) (arena : Arena F) (contours : List (Contour F)) : Prop where
  frame : Frame arena0 arena
  own : ∀ (i : Nat) t e j, arena[i]? = some t → t.data.cid e = some j →
    ∃ c : Contour F, contours[j]? = some c ∧ Follows₀ o0 j c.points (t.pointAt e) (t.otherPointAt e)
  edges : ∀ (j : Nat) (c : Contour F), contours[j]? = some c → ∀ k x y, IsEdge c.points k x y →
    ∃ a b, KeptPiece polys a b ∧ SamePoint y b ∧ (SamePoint x a ∨ k = 0 ∧ (x = y ∨ 0 < j ∧ y = o0))
  verts : ∀ c ∈ contours, ∀ p ∈ c.points, ∃ q, KeptPiece polys p q
  flags : ∀ c ∈ contours, FlagsOk polys c.from_polygons
  nbrs : ∀ c ∈ contours, c.neighbors = []
  cw : ∀ c ∈ contours, c.points ≠ [] ∧ ∃ area, areaOf c.points = .ok area ∧ c.is_clockwise = some (lt area (ofInt 0))
  first : ∀ c : Contour F, contours[0]? = some c → ∃ q ∈ c.points.take 2, SamePoint o0 q

/-- What `TraceInv` looks at of a contour. -/
def shape (c : Contour F) : List (Pt F) × List Bool × List Bool × Option Bool := (c.points, c.from_polygons, c.neighbors, c.is_clockwise)

theorem shape_back {cs cs' : List (Contour F)} (h : cs'.map shape = cs.map shape) {i : Nat} {c' : Contour F} (hc : cs'[i]? = some c') :
    ∃ c, cs[i]? = some c ∧ c'.points = c.points ∧ c'.from_polygons = c.from_polygons ∧ c'.neighbors = c.neighbors ∧ c'.is_clockwise = c.is_clockwise := by
  have h1 := congrArg (fun l => l[i]?) h
  simp only [List.getElem?_map, hc, Option.map_some] at h1
  rcases ha : cs[i]? with _ | c
  · rw [ha] at h1; cases h1
  · rw [ha] at h1
    have := Option.some.inj h1
    unfold shape at this
    simp only [Prod.mk.injEq] at this
    exact ⟨c, rfl, this⟩

theorem TraceInv.congr {arena0 arena : Arena F} {o0 : Pt F} {cs cs' : List (Contour F)} (hi : TraceInv polys arena0 o0 arena cs)
    (h : cs'.map shape = cs.map shape) : TraceInv polys arena0 o0 arena cs' := by
  have bk : ∀ c' ∈ cs', ∃ c ∈ cs, c'.points = c.points ∧ c'.from_polygons = c.from_polygons ∧ c'.neighbors = c.neighbors ∧ c'.is_clockwise = c.is_clockwise := by
    intro c' hc'
    obtain ⟨i, hi⟩ := List.mem_iff_getElem?.mp hc'
    obtain ⟨c, hc, h'⟩ := shape_back h hi
    exact ⟨c, mem_of_getElem? hc, h'⟩
  refine ⟨hi.frame, ?_, ?_, ?_, ?_, ?_, ?_, ?_⟩
  · intro i t e j ht hc
    obtain ⟨c, hc1, hc2⟩ := hi.own i t e j ht hc
    obtain ⟨c', hc', e1, _⟩ := shape_back h.symm hc1
    exact ⟨c', hc', by rw [← e1]; exact hc2⟩
  · intro j c' hc' k x y he
    obtain ⟨c, hc, e1, _⟩ := shape_back h hc'
    exact hi.edges j c hc k x y (by rw [← e1]; exact he)
  · intro c' hc'
    obtain ⟨c, hc, e1, e2, e3, e4⟩ := bk c' hc'
    rw [e1]; exact hi.verts c hc
  · intro c' hc'
    obtain ⟨c, hc, e1, e2, e3, e4⟩ := bk c' hc'
    rw [e2]; exact hi.flags c hc
  · intro c' hc'
    obtain ⟨c, hc, e1, e2, e3, e4⟩ := bk c' hc'
    rw [e3]; exact hi.nbrs c hc
  · intro c' hc'
    obtain ⟨c, hc, e1, e2, e3, e4⟩ := bk c' hc'
    rw [e1, e4]; exact hi.cw c hc
  · intro c' hc'
    obtain ⟨c, hc, e1, _⟩ := shape_back h hc'
    rw [e1]; exact hi.first c hc

theorem map_set_same {α β : Type} (f : α → β) {a a' : α} {l : List α} {p : Nat} (h : l[p]? = some a) (hf : f a' = f a) : (l.set p a').map f = l.map f := by
  apply List.ext_getElem?
  intro j
  rw [List.getElem?_map, List.getElem?_map, getElem?_set_of h]
  by_cases hj : j = p
  · rw [if_pos hj, hj, h, Option.map_some, Option.map_some, hf]
  · rw [if_neg hj]

theorem traceStep_ok {fuel : Nat} {included : List (Nat × SegmentEnd)} {arena0 arena arena' : Arena F} {contours contours' : List (Contour F)}
    {endpoint x0 : Nat × SegmentEnd} {s0 : BoolSegment F}
    (he : ∀ x ∈ included, EndOk polys arena0 x)
    (h1 : ∀ (j : Nat) s, arena0[j]? = some s → (j, .left) ∈ included → included[s.data.left_index]? = some (j, .left))
    (h2 : ∀ (j : Nat) s, arena0[j]? = some s → (j, .left) ∉ included → s.data.left_index = 0)
    (hx0 : included[0]? = some x0) (hs0 : arena0[x0.1]? = some s0)
    (hm : endpoint ∈ included) (hfirst : contours = [] → endpoint = x0)
    (hi : TraceInv polys arena0 (s0.otherPointAt x0.2) arena contours) (hh : HolesOk contours)
    (h : traceStep fuel included arena contours endpoint = .ok (arena', contours')) :
    TraceInv polys arena0 (s0.otherPointAt x0.2) arena' contours' ∧ HolesOk contours' ∧ (contours' = [] → contours = [] ∧ arena' = arena ∧
      ∃ s, arena[endpoint.1]? = some s ∧ s.data.isProcessed endpoint.2 = true) := by
  unfold traceStep at h
  obtain ⟨s, hs, h⟩ := Res.bind_eq_ok h
  have hs := index_eq_ok hs
  split at h
  · rename_i hproc
    cases h
    exact ⟨hi, hh, fun h0 => ⟨h0, rfl, s, hs, hproc⟩⟩
  obtain ⟨⟨arena1, c, last⟩, htr, h⟩ := Res.bind_eq_ok h
  obtain ⟨⟨cw, c1⟩, hcw, h⟩ := Res.bind_eq_ok h
  dsimp only at h hcw htr
  have hea : ∀ x ∈ included, EndOk polys arena x := fun x hx => (he x hx).frame hi.frame
  obtain ⟨s', hs', hkp, hfl⟩ := hea endpoint hm
  rw [hs] at hs'
  cases hs'
  -- the endpoint the walk starts with
  obtain ⟨sa, hsa, hcore⟩ := hi.frame.back hs
  have hli : sa.data.left_index = s.data.left_index := by
    unfold core at hcore; simp only [Prod.mk.injEq] at hcore; exact hcore.2.2.2.2
  have hlp : sa.left_point = s.left_point := by unfold core at hcore; simp only [Prod.mk.injEq] at hcore; exact hcore.1
  obtain ⟨t0, ht0, hcore0⟩ := hi.frame.fwd hs0
  obtain ⟨x1, t1, hx1, ht1, hpt, hast⟩ : ∃ x1 t1, included[s.data.left_index]? = some x1 ∧ arena[x1.1]? = some t1 ∧
      (t1.pointAt x1.2 = s.left_point ∨ (endpoint.1, SegmentEnd.left) ∉ included) ∧
      ((endpoint.1, SegmentEnd.left) ∉ included → x1 = x0 ∧ t1 = t0) := by
    by_cases hin : (endpoint.1, SegmentEnd.left) ∈ included
    · exact ⟨(endpoint.1, .left), s, by rw [← hli]; exact h1 _ sa hsa hin, hs, Or.inl rfl, fun h => absurd hin h⟩
    · exact ⟨x0, t0, by rw [← hli, h2 _ sa hsa hin]; exact hx0, ht0, Or.inr hin, fun _ => ⟨rfl, rfl⟩⟩
  have hpts0 : (({ (Contour.new : Contour F) with from_polygons := s.data.faces endpoint.2 }).add s.left_point).points = [s.left_point] := rfl
  have hlen : ∀ (i : Nat) t e, arena[i]? = some t → t.data.cid e ≠ some contours.length := by
    intro i t e ht hc
    obtain ⟨c, hc, _⟩ := hi.own i t e _ ht hc
    have := lt_of_getElem? hc
    omega
  have hwalk : TraceWalk polys included contours.length ((endpoint.1, SegmentEnd.left) ∉ included) s.left_point (t1.otherPointAt x1.2) arena
      [s.left_point] s.data.left_index := by
    refine ⟨rfl, ?_, ?_, ?_, ?_, ?_⟩
    · intro k x y _ hy; simp at hy
    · intro p hp
      rw [List.mem_singleton] at hp
      subst hp
      rcases hee : endpoint.2 with _ | _ <;> rw [hee] at hkp
      · exact ⟨_, hkp⟩
      · exact ⟨_, hkp.turn⟩
    · refine ⟨x1, t1, hx1, ht1, ?_, fun _ => rfl⟩
      rcases hpt with hpt | hpt
      · exact Or.inl ⟨s.left_point, rfl, Or.inl hpt.symm⟩
      · exact Or.inr ⟨rfl, hpt⟩
    · intro y hy; simp at hy
    · intro i t e ht hc
      exact absurd hc (hlen i t e ht)
  obtain ⟨w1, w2, w3, w4, w5, w6, w7, w8, w9, w10, w11, w12, w13⟩ := contourWalk_ok hea hwalk hfl htr
  have hcwn : c.is_clockwise = none := w12
  have hc1 : c1.points = c.points ∧ c1.from_polygons = c.from_polygons ∧ c1.holes = c.holes ∧ c1.external = c.external ∧ c1.neighbors = c.neighbors ∧
      ∃ area, areaOf c.points = .ok area ∧ c1.is_clockwise = some (lt area (ofInt 0)) ∧ cw = lt area (ofInt 0) := by
    unfold Contour.clockwise at hcw
    rw [hcwn] at hcw
    obtain ⟨area, harea, hcw⟩ := Res.bind_eq_ok hcw
    cases hcw
    exact ⟨rfl, rfl, rfl, rfl, rfl, area, harea, rfl, rfl⟩
  obtain ⟨c1p, c1f, c1h, c1e, c1n, area, harea, hcwc, hcwb⟩ := hc1
  -- the exception
  have hstray : ∀ x y, IsEdge c.points 0 x y → (endpoint.1, SegmentEnd.left) ∉ included → x = y ∨ 0 < contours.length ∧ y = s0.otherPointAt x0.2 := by
    intro x y ⟨hx, hy⟩ hnot
    obtain ⟨rfl, rfl⟩ := hast hnot
    have ho : t1.otherPointAt x1.2 = s0.otherPointAt x1.2 := (core_pointAt hcore0 x1.2).2.1
    rw [w3] at hx
    cases hx
    rcases hy1 : c.points[1]? with _ | y1
    · have hl1 : c.points.length = 1 := by
        have := List.getElem?_eq_none_iff.mp hy1
        have := lt_of_getElem? w3
        omega
      rw [hl1, Nat.mod_self, w3] at hy
      cases hy
      exact Or.inl rfl
    · rw [Nat.mod_eq_of_lt (lt_of_getElem? hy1), hy1] at hy
      cases hy
      have hyo := w4 _ hy1
      rcases contours with _ | ⟨d, ds⟩
      · have hxe := hfirst rfl
        subst hxe
        rw [hs] at ht1
        cases ht1
        left
        rcases hee : endpoint.2 with _ | _
        · exfalso
          apply hnot
          have : endpoint = (endpoint.1, SegmentEnd.left) := by rw [← hee]
          rw [← this]; exact hm
        · rw [hyo, hee]
          rfl
      · right
        exact ⟨by simp, by rw [hyo, ho]⟩
  have hinv1 : TraceInv polys arena0 (s0.otherPointAt x0.2) arena1 (contours ++ [c1]) := by
    refine ⟨hi.frame.trans w1, ?_, ?_, ?_, ?_, ?_, ?_, ?_⟩
    · intro i t e j ht hc
      by_cases hj : j = contours.length
      · subst hj
        refine ⟨c1, by simp, ?_⟩
        rw [c1p]
        obtain ⟨k, x, y, he', hy, hx⟩ := w7 i t e ht hc
        refine ⟨k, x, y, he', hy, ?_⟩
        rcases hx with hx | ⟨rfl, hx⟩
        · exact Or.inl hx
        · exact Or.inr ⟨rfl, hstray x y he' hx⟩
      · obtain ⟨t', ht', hc'⟩ := w2 i t e j ht hc hj
        obtain ⟨d, hd, hfo⟩ := hi.own i t' e j ht' hc'
        obtain ⟨t'', ht'', hco⟩ := w1.back ht
        rw [ht'] at ht''
        cases ht''
        obtain ⟨p1, p2, _⟩ := core_pointAt hco e
        refine ⟨d, ?_, by rw [← p1, ← p2]; exact hfo⟩
        rw [List.getElem?_append_left (lt_of_getElem? hd)]
        exact hd
    · intro j d hd k x y hk
      rcases Nat.lt_or_ge j contours.length with hlt | hge
      · rw [List.getElem?_append_left hlt] at hd
        exact hi.edges j d hd k x y hk
      · have hj : j = contours.length := by have := lt_of_getElem? hd; simp at this; omega
        rw [hj, List.getElem?_append_right (Nat.le_refl _)] at hd
        simp only [Nat.sub_self, List.getElem?_cons_zero, Option.some.injEq] at hd
        subst hd
        rw [c1p] at hk
        obtain ⟨a, b, ha, hy, hx⟩ := w5 k x y hk
        refine ⟨a, b, ha, hy, ?_⟩
        rcases hx with hx | ⟨rfl, hx⟩
        · exact Or.inl hx
        · exact Or.inr ⟨rfl, hj ▸ hstray x y hk hx⟩
    all_goals try
      intro d hd
      rcases List.mem_append.mp hd with hd | hd
    · exact hi.verts d hd
    · rw [List.mem_singleton] at hd; subst hd; rw [c1p]; exact w6
    · exact hi.flags d hd
    · rw [List.mem_singleton] at hd; subst hd; rw [c1f]; exact w8
    · exact hi.nbrs d hd
    · rw [List.mem_singleton] at hd; subst hd; rw [c1n]; exact w11
    · exact hi.cw d hd
    · rw [List.mem_singleton] at hd; subst hd; rw [c1p]
      refine ⟨?_, area, harea, hcwc⟩
      intro h0
      rw [h0] at w3
      cases w3
    · intro d hd
      rcases contours with _ | ⟨d0, ds⟩
      · simp only [List.nil_append, List.getElem?_cons_zero, Option.some.injEq] at hd
        subst hd
        rw [c1p]
        have hxe := hfirst rfl
        subst hxe
        rw [hs] at ht0
        cases ht0
        have ho : s.otherPointAt endpoint.2 = s0.otherPointAt endpoint.2 := (core_pointAt hcore0 endpoint.2).2.1
        rw [← ho]
        have hmem0 : s.left_point ∈ c.points.take 2 := by
          apply List.mem_of_getElem? (i := 0)
          rw [List.getElem?_take_of_lt (by omega)]
          exact w3
        rcases hee : endpoint.2 with _ | _
        · have hin : (endpoint.1, SegmentEnd.left) ∈ included := by rw [← hee]; exact hm
          have hx1' : included[s.data.left_index]? = some (endpoint.1, .left) := hli ▸ h1 _ sa hsa hin
          rw [hx1] at hx1'
          cases hx1'
          rw [hs] at ht1
          cases ht1
          rcases hy1 : c.points[1]? with _ | y1
          · exact ⟨s.left_point, hmem0, w13 hy1⟩
          · refine ⟨y1, ?_, Or.inl (w4 y1 hy1).symm⟩
            apply List.mem_of_getElem? (i := 1)
            rw [List.getElem?_take_of_lt (by omega)]
            exact hy1
        · exact ⟨s.left_point, hmem0, Or.inl rfl⟩
      · rw [List.getElem?_append_left (by simp)] at hd
        exact hi.first d hd
  have hh1 : HolesOk (contours ++ [c1]) := hh.append (by rw [c1h, w9]; rfl) (by rw [c1e, w10]; rfl)
  have hnil : contours ++ [c1] = [] → False := by simp
  split at h
  · rename_i hcwt
    obtain ⟨⟨lseg, le⟩, _, h⟩ := Res.bind_eq_ok h
    obtain ⟨ls, hls, h⟩ := Res.bind_eq_ok h
    split at h
    · rename_i b hb
      obtain ⟨below, hbelow, h⟩ := Res.bind_eq_ok h
      obtain ⟨parent, hparent, h⟩ := Res.bind_eq_ok h
      obtain ⟨cs2, hcs2, h⟩ := Res.bind_eq_ok h
      obtain ⟨cs3, hcs3, h⟩ := Res.bind_eq_ok h
      cases h
      obtain ⟨cp, cp', hcp, hcp', rfl⟩ := modify_eq_ok hcs2
      cases hcp'
      obtain ⟨cj, cj', hcj, hcj', rfl⟩ := modify_eq_ok hcs3
      cases hcj'
      refine ⟨hinv1.congr ?_, ?_, fun h0 => absurd (congrArg List.length h0) (by simp)⟩
      · rw [map_set_same shape (a' := cj.setExternal false) hcj rfl, map_set_same shape (a' := cp.addHole contours.length) hcp rfl]
      · refine hh1.hole ?_ hcp hcj ⟨c1, by simp, by rw [c1e, w10]; rfl⟩ ?_
        · have := lt_of_getElem? hcp
          simp at this
          omega
        · refine ⟨area, ?_, by rw [← hcwb]; exact hcwt⟩
          rw [getElem?_set_of hcp] at hcj
          by_cases hjp : contours.length = parent
          · rw [if_pos hjp] at hcj
            cases hcj
            have : cp = c1 := by rw [← hjp] at hcp; simpa using hcp.symm
            rw [this]
            show areaOf c1.points = _
            rw [c1p]; exact harea
          · rw [if_neg hjp] at hcj
            have : cj = c1 := by simpa using hcj.symm
            rw [this, c1p]; exact harea
    · cases h
      exact ⟨hinv1, hh1, fun h0 => (hnil h0).elim⟩
  · cases h
    exact ⟨hinv1, hh1, fun h0 => (hnil h0).elim⟩

theorem traceAll_ok {fuel : Nat} {included : List (Nat × SegmentEnd)} {arena0 : Arena F} {x0 : Nat × SegmentEnd} {s0 : BoolSegment F}
    (he : ∀ x ∈ included, EndOk polys arena0 x)
    (h1 : ∀ (j : Nat) s, arena0[j]? = some s → (j, .left) ∈ included → included[s.data.left_index]? = some (j, .left))
    (h2 : ∀ (j : Nat) s, arena0[j]? = some s → (j, .left) ∉ included → s.data.left_index = 0)
    (hx0 : included[0]? = some x0) (hs0 : arena0[x0.1]? = some s0) :
    ∀ {rest : List (Nat × SegmentEnd)} {arena arena' : Arena F} {contours contours' : List (Contour F)}, (∀ x ∈ rest, x ∈ included) → contours ≠ [] →
    TraceInv polys arena0 (s0.otherPointAt x0.2) arena contours → HolesOk contours →
    traceAll fuel included rest arena contours = .ok (arena', contours') →
    TraceInv polys arena0 (s0.otherPointAt x0.2) arena' contours' ∧ HolesOk contours'
  | [], _, _, _, _, _, _, hi, hh, h => by cases h; exact ⟨hi, hh⟩
  | e :: rest, arena, arena', contours, contours', hr, hne, hi, hh, h => by
    simp only [traceAll] at h
    obtain ⟨⟨arena1, cs1⟩, hst, h⟩ := Res.bind_eq_ok h
    obtain ⟨i1, i2, i3⟩ := traceStep_ok he h1 h2 hx0 hs0 (hr e List.mem_cons_self) (fun h => absurd h hne) hi hh hst
    exact traceAll_ok he h1 h2 hx0 hs0 (fun x hx => hr x (List.mem_cons_of_mem _ hx)) (fun h => hne (i3 h).1) i1 i2 h

/-! ### Neighbours -/

/-- Contour `i` has `j` as a neighbour. -/
def Nb (cs : List (Contour F)) (i j : Nat) : Prop := ∃ c, cs[i]? = some c ∧ c.neighbors[j]? = some true

/-- Everything but the neighbours. -/
def strip (c : Contour F) : Contour F := { c with neighbors := [] }

theorem setNeighbor_ok {cs cs' : List (Contour F)} {i j n : Nat} (hl : ∀ c ∈ cs, c.neighbors.length = n) (h : setNeighbor cs i j = .ok cs') :
    (∀ c ∈ cs', c.neighbors.length = n) ∧ cs'.map strip = cs.map strip ∧ ∀ a b, Nb cs' a b ↔ Nb cs a b ∨ a = i ∧ b = j := by
  obtain ⟨c, c', hc, hf, rfl⟩ := modify_eq_ok h
  obtain ⟨nb, hnb, hf⟩ := Res.bind_eq_ok hf
  cases hf
  obtain ⟨e1, e2, rfl⟩ := bvSet_length hnb
  refine ⟨?_, map_set_same strip hc rfl, ?_⟩
  · intro d hd
    rcases List.mem_or_eq_of_mem_set hd with hd | rfl
    · exact hl d hd
    · exact e1.trans (hl c (mem_of_getElem? hc))
  · intro a b
    unfold Nb
    by_cases ha : a = i
    · subst ha
      constructor
      · rintro ⟨d, hd, hb⟩
        rw [getElem?_set_of hc, if_pos rfl] at hd
        cases hd
        dsimp only at hb
        rw [List.getElem?_set] at hb
        by_cases hbj : j = b
        · exact Or.inr ⟨rfl, hbj.symm⟩
        · rw [if_neg hbj] at hb
          exact Or.inl ⟨c, hc, hb⟩
      · intro hor
        refine ⟨_, by rw [getElem?_set_of hc, if_pos rfl], ?_⟩
        dsimp only
        rw [List.getElem?_set]
        by_cases hbj : j = b
        · rw [if_pos hbj, if_pos e2]
        · rw [if_neg hbj]
          rcases hor with ⟨d, hd, hb⟩ | ⟨_, hb⟩
          · rw [hc] at hd; cases hd; exact hb
          · exact absurd hb.symm hbj
    · constructor
      · rintro ⟨d, hd, hb⟩
        rw [getElem?_set_of hc, if_neg ha] at hd
        exact Or.inl ⟨d, hd, hb⟩
      · rintro (⟨d, hd, hb⟩ | ⟨hb, _⟩)
        · exact ⟨d, by rw [getElem?_set_of hc, if_neg ha]; exact hd, hb⟩
        · exact absurd hb ha

theorem assign_ok {arena : Arena F} {n : Nat} : ∀ {rest : List (Nat × SegmentEnd)} {cs cs' : List (Contour F)}, (∀ c ∈ cs, c.neighbors.length = n) →
    (∀ a b, Nb cs a b ↔ Nb cs b a) →
    (∀ a b, Nb cs a b → ∃ (i : Nat) (t : BoolSegment F) (e e' : SegmentEnd), arena[i]? = some t ∧ e ≠ e' ∧ t.data.cid e = some a ∧ t.data.cid e' = some b) →
    assignNeighbors arena rest cs = .ok cs' →
    (∀ c ∈ cs', c.neighbors.length = n) ∧ cs'.map strip = cs.map strip ∧ (∀ a b, Nb cs' a b ↔ Nb cs' b a) ∧
    (∀ a b, Nb cs' a b → ∃ (i : Nat) (t : BoolSegment F) (e e' : SegmentEnd), arena[i]? = some t ∧ e ≠ e' ∧ t.data.cid e = some a ∧ t.data.cid e' = some b)
  | [], _, _, hl, hs, hw, h => by cases h; exact ⟨hl, rfl, hs, hw⟩
  | (seg, _) :: rest, cs, cs', hl, hs, hw, h => by
    simp only [assignNeighbors] at h
    obtain ⟨s, hseg, h⟩ := Res.bind_eq_ok h
    split at h
    · rename_i r l hr hlft
      obtain ⟨cs1, hc1, h⟩ := Res.bind_eq_ok h
      obtain ⟨cs2, hc2, h⟩ := Res.bind_eq_ok h
      obtain ⟨a1, a2, a3⟩ := setNeighbor_ok hl hc1
      obtain ⟨b1, b2, b3⟩ := setNeighbor_ok a1 hc2
      have hnb : ∀ a b, Nb cs2 a b ↔ Nb cs a b ∨ (a = l ∧ b = r) ∨ (a = r ∧ b = l) := by
        intro a b
        rw [b3, a3, or_assoc]
      have ih := assign_ok (cs := cs2) b1 ?_ ?_ h
      · exact ⟨ih.1, ih.2.1.trans (b2.trans a2), ih.2.2⟩
      · intro a b
        rw [hnb, hnb, hs a b]
        tauto
      · intro a b hab
        rw [hnb] at hab
        rcases hab with hab | ⟨rfl, rfl⟩ | ⟨rfl, rfl⟩
        · exact hw a b hab
        · exact ⟨seg, s, .left, .right, index_eq_ok hseg, by simp, hlft, hr⟩
        · exact ⟨seg, s, .right, .left, index_eq_ok hseg, by simp, hr, hlft⟩
    · exact assign_ok hl hs hw h

/-! ### The whole -/

/-- Everything known of a result. -/
structure ResultOk (polys : List (Polygon F × PolygonMode)) (contours : List (Contour F)) : Prop where
  holes : HolesOk contours
  neighbors : NeighborsOk contours
  flags : ∀ c ∈ contours, FlagsOk polys c.from_polygons
  verts : ∀ c ∈ contours, c.points ≠ [] ∧ ∀ p ∈ c.points, ∃ q, KeptPiece polys p q
  edges : ∀ (j : Nat) (c : Contour F), contours[j]? = some c → ∀ k x y, IsEdge c.points k x y →
    ∃ a b, KeptPiece polys a b ∧ SamePoint y b ∧ (SamePoint x a ∨ k = 0 ∧ Astray contours j x y)
  cw : ∀ c ∈ contours, ∃ area, areaOf c.points = .ok area ∧ c.clockwise = .ok (lt area (ofInt 0), c)

theorem strip_back {cs cs' : List (Contour F)} (h : cs'.map strip = cs.map strip) {i : Nat} {c' : Contour F} (hc : cs'[i]? = some c') :
    ∃ c, cs[i]? = some c ∧ c'.points = c.points ∧ c'.from_polygons = c.from_polygons ∧ c'.holes = c.holes ∧ c'.external = c.external ∧
      c'.is_clockwise = c.is_clockwise := by
  have h1 := congrArg (fun l => l[i]?) h
  simp only [List.getElem?_map, hc, Option.map_some] at h1
  rcases ha : cs[i]? with _ | c
  · rw [ha] at h1; cases h1
  · rw [ha] at h1
    have := Option.some.inj h1
    unfold strip at this
    simp only [Contour.mk.injEq] at this
    exact ⟨c, rfl, this.1, this.2.2.1, this.2.1, this.2.2.2.2.1, this.2.2.2.2.2⟩

theorem ResultOk.nil : ResultOk polys ([] : List (Contour F)) :=
  ⟨HolesOk.nil, ⟨by simp, by simp, by simp⟩, by simp, by simp, by simp, by simp⟩

theorem compute_ok {lib : Lib} (hl : lib.Ok) {fuel : Nat} {op : BooleanOpType} {r : Polygon F} (h : compute lib fuel polys op = .ok r) :
    ResultOk polys r.contours := by
  unfold compute at h
  obtain ⟨st0, hst0, h⟩ := Res.bind_eq_ok h
  obtain ⟨st, hst, h⟩ := Res.bind_eq_ok h
  obtain ⟨⟨segs, ends⟩, hinc, h⟩ := Res.bind_eq_ok h
  obtain ⟨_, _, h⟩ := Res.bind_eq_ok h
  obtain ⟨included, hsort, h⟩ := Res.bind_eq_ok h
  obtain ⟨arena0, hrec, h⟩ := Res.bind_eq_ok h
  obtain ⟨⟨arena, cs⟩, htr, h⟩ := Res.bind_eq_ok h
  obtain ⟨cs', hnb, h⟩ := Res.bind_eq_ok h
  cases h
  have ho : ArenaOk polys st.arena := by
    refine sweepLoop_ok (addPolygons_ok (st := ⟨[], [], [], []⟩) ?_ ?_ hst0) hst
    · intro s hs; cases hs
    · intro i; rw [Nat.zero_add]
  have hends := include_ok ho (by simp) hinc
  have hincl : ∀ x ∈ included, EndOk polys st.arena x := fun x hx => hends x ((hl.sort_perm _ _ _ hsort).mem_iff.mp hx)
  obtain ⟨hcore, g1, g2⟩ := record_ok (full := included) (fun j => by rw [Nat.zero_add])
    (by rintro j s _ ⟨k, hk, _⟩; omega) (fun j s hs _ => (ho s (mem_of_getElem? hs)).fresh.2.2.2.2) hrec
  have back : ∀ (i : Nat) (s' : BoolSegment F), arena0[i]? = some s' → ∃ s, st.arena[i]? = some s ∧ core' s' = core' s := by
    intro i s' hs'
    have h1 := congrArg (fun l => l[i]?) hcore
    simp only [List.getElem?_map, hs', Option.map_some] at h1
    rcases ha : st.arena[i]? with _ | s
    · rw [ha] at h1; cases h1
    · rw [ha] at h1; exact ⟨s, rfl, Option.some.inj h1⟩
  have he0 : ∀ x ∈ included, EndOk polys arena0 x := by
    intro x hx
    obtain ⟨s, hs, hp, hf⟩ := hincl x hx
    have h1 := congrArg (fun l => l[x.1]?) hcore
    simp only [List.getElem?_map, hs, Option.map_some] at h1
    rcases ha : arena0[x.1]? with _ | s'
    · rw [ha] at h1; cases h1
    · rw [ha] at h1
      have hc := Option.some.inj h1
      unfold core' at hc
      simp only [Prod.mk.injEq] at hc
      obtain ⟨c1, c2, c3, c4, _⟩ := hc
      refine ⟨s', ha, ?_, ?_⟩
      · rcases hx2 : x.2 with _ | _ <;> rw [hx2] at hp <;> simpa only [SweepSegment.pointAt, SweepSegment.otherPointAt, c1, c2] using hp
      · rcases hx2 : x.2 with _ | _ <;> rw [hx2] at hf <;> simpa only [SegmentPacket.faces, c3, c4] using hf
  have fresh0 : ∀ (i : Nat) (s : BoolSegment F), arena0[i]? = some s → (∀ e, s.data.cid e = none) ∧ ∀ e, s.data.isProcessed e = false := by
    intro i s' hs'
    obtain ⟨s, hs, hc⟩ := back i s' hs'
    unfold core' at hc
    simp only [Prod.mk.injEq] at hc
    obtain ⟨_, _, _, _, c5, c6, c7, c8⟩ := hc
    obtain ⟨f1, f2, f3, f4, _⟩ := (ho s (mem_of_getElem? hs)).fresh
    constructor <;> intro e <;> cases e
    · exact c5.trans f1
    · exact c6.trans f2
    · exact c7.trans f3
    · exact c8.trans f4
  -- tracing
  have htrace : cs = [] ∨ ∃ o0, TraceInv polys arena0 o0 arena cs ∧ HolesOk cs := by
    rcases included with _ | ⟨x0, rest⟩
    · cases htr
      exact Or.inl rfl
    · right
      obtain ⟨s0, hs0, _⟩ := he0 x0 List.mem_cons_self
      simp only [traceAll] at htr
      obtain ⟨⟨arena1, cs1⟩, hst1, htr⟩ := Res.bind_eq_ok htr
      have hi0 : TraceInv polys arena0 (s0.otherPointAt x0.2) arena0 [] := by
        refine ⟨Frame.refl _, ?_, by simp, by simp, by simp, by simp, by simp, by simp⟩
        intro i t e j ht hc
        rw [(fresh0 i t ht).1 e] at hc
        cases hc
      obtain ⟨i1, i2, i3⟩ := traceStep_ok he0 g1 g2 (by simp) hs0 List.mem_cons_self (fun _ => rfl) hi0 HolesOk.nil hst1
      have hne : cs1 ≠ [] := by
        intro h0
        obtain ⟨_, _, s, hs, hp⟩ := i3 h0
        rw [(fresh0 _ s hs).2] at hp
        cases hp
      exact ⟨_, traceAll_ok he0 g1 g2 (by simp) hs0 (fun x hx => List.mem_cons_of_mem _ hx) hne i1 i2 htr⟩
  rcases htrace with rfl | ⟨o0, hi, hh⟩
  · have : cs' = [] := by
      have := (assign_ok (n := 0) (by simp) (by simp [Nb]) (by simp [Nb]) hnb).2.1
      simpa using this
    rw [this]
    exact ResultOk.nil
  · -- neighbours
    have hgl : ∀ c ∈ cs.map fun c => { c with neighbors := bvGrow c.neighbors cs.length false }, c.neighbors = List.replicate cs.length false := by
      intro c hc
      obtain ⟨d, hd, rfl⟩ := List.mem_map.mp hc
      dsimp only
      rw [hi.nbrs d hd]
      rfl
    have hnb0 : ∀ a b, ¬ Nb (cs.map fun c => { c with neighbors := bvGrow c.neighbors cs.length false }) a b := by
      rintro a b ⟨c, hc, hb⟩
      rw [hgl c (mem_of_getElem? hc), List.getElem?_replicate] at hb
      split at hb <;> cases hb
    obtain ⟨n1, n2, n3, n4⟩ := assign_ok (n := cs.length) (fun c hc => by rw [hgl c hc]; simp) (fun a b => ⟨fun h => absurd h (hnb0 a b), fun h => absurd h (hnb0 b a)⟩)
      (fun a b h => absurd h (hnb0 a b)) hnb
    have hstrip : cs'.map strip = cs.map strip := by
      rw [n2, List.map_map]
      rfl
    have hlen : cs'.length = cs.length := by
      have := congrArg List.length hstrip
      simpa using this
    have bk : ∀ c' ∈ cs', ∃ c ∈ cs, c'.points = c.points ∧ c'.from_polygons = c.from_polygons ∧ c'.holes = c.holes ∧ c'.external = c.external ∧
        c'.is_clockwise = c.is_clockwise := by
      intro c' hc'
      obtain ⟨i, hi⟩ := List.mem_iff_getElem?.mp hc'
      obtain ⟨c, hc, h'⟩ := strip_back hstrip hi
      exact ⟨c, mem_of_getElem? hc, h'⟩
    have hstray : ∀ j x y, (x = y ∨ 0 < j ∧ y = o0) → j < cs'.length → Astray cs' j x y := by
      intro j x y h hj
      rcases h with h | ⟨h, rfl⟩
      · exact Or.inl h
      · right
        refine ⟨h, ?_⟩
        have h0 : 0 < cs'.length := by omega
        obtain ⟨c, hc, e1, _⟩ := strip_back hstrip (List.getElem?_eq_getElem h0)
        obtain ⟨q, hq, hsame⟩ := hi.first c hc
        exact ⟨cs'[0], q, List.getElem?_eq_getElem h0, by rw [e1]; exact hq, hsame⟩
    have hfl : cs'.flatMap (fun c => c.holes) = cs.flatMap fun c => c.holes := by
      have := congrArg (fun l => l.flatMap fun c : Contour F => c.holes) hstrip
      simp only [List.flatMap_map] at this
      exact this
    refine ⟨⟨?_, ?_, ?_⟩, ⟨?_, ?_, ?_⟩, ?_, ?_, ?_, ?_⟩
    · intro i c hc
      obtain ⟨d, hd, _, _, _, e4, _⟩ := strip_back hstrip hc
      rw [hfl, e4]
      exact hh.once i d hd
    · intro p c hc j hj
      obtain ⟨d, hd, _, _, e3, _, _⟩ := strip_back hstrip hc
      rw [e3] at hj
      rw [hlen]
      exact hh.order p d hd j hj
    · intro c hc hx
      obtain ⟨d, hd, e1, _, _, e4, _⟩ := bk c hc
      rw [e1]
      exact hh.clockwise d hd (e4 ▸ hx)
    · intro c hc
      rw [n1 c hc, hlen]
    · intro i j ci cj hci hcj
      have li := n1 ci (mem_of_getElem? hci)
      have lj := n1 cj (mem_of_getElem? hcj)
      have hi1 : i < cs.length := hlen ▸ lt_of_getElem? hci
      have hj1 : j < cs.length := hlen ▸ lt_of_getElem? hcj
      have := n3 i j
      unfold Nb at this
      simp only [hci, hcj, Option.some.injEq, exists_eq_left'] at this
      rw [List.getElem?_eq_getElem (by omega), List.getElem?_eq_getElem (by omega)] at this ⊢
      simp only [Option.some.injEq] at this ⊢
      exact Bool.eq_iff_iff.mpr this
    · intro i j ci hci hb
      obtain ⟨m, t, e, e', ht, hee, ha, hb'⟩ := n4 i j ⟨ci, hci, hb⟩
      obtain ⟨c1, hc1, k1, x1, y1, f1, f2, f3⟩ := hi.own m t e i ht ha
      obtain ⟨c2, hc2, k2, x2, y2, g1', g2', g3'⟩ := hi.own m t e' j ht hb'
      obtain ⟨d1, hd1, p1, _⟩ := strip_back hstrip.symm hc1
      obtain ⟨d2, hd2, p2, _⟩ := strip_back hstrip.symm hc2
      have hopp : t.pointAt e' = t.otherPointAt e ∧ t.otherPointAt e' = t.pointAt e := by
        cases e <;> cases e'
        · exact absurd rfl hee
        · exact ⟨rfl, rfl⟩
        · exact ⟨rfl, rfl⟩
        · exact absurd rfl hee
      refine ⟨k1, k2, t.pointAt e, t.otherPointAt e, ⟨d1, x1, y1, hd1, by rw [← p1]; exact f1, f2, ?_⟩,
        ⟨d2, x2, y2, hd2, by rw [← p2]; exact g1', by rw [← hopp.2]; exact g2', ?_⟩⟩
      · rcases f3 with f3 | ⟨f3, f4⟩
        · exact Or.inl f3
        · exact Or.inr ⟨f3, hstray i x1 y1 f4 (lt_of_getElem? hd1)⟩
      · rcases g3' with f3 | ⟨f3, f4⟩
        · exact Or.inl (by rw [← hopp.1]; exact f3)
        · exact Or.inr ⟨f3, hstray j x2 y2 f4 (lt_of_getElem? hd2)⟩
    · intro c hc
      obtain ⟨d, hd, _, e2, _⟩ := bk c hc
      rw [e2]; exact hi.flags d hd
    · intro c hc
      obtain ⟨d, hd, e1, _⟩ := bk c hc
      rw [e1]; exact ⟨(hi.cw d hd).1, hi.verts d hd⟩
    · intro j c hc k x y hk
      obtain ⟨d, hd, e1, _⟩ := strip_back hstrip hc
      obtain ⟨a, b, h1, h2, h3⟩ := hi.edges j d hd k x y (by rw [← e1]; exact hk)
      refine ⟨a, b, h1, h2, ?_⟩
      rcases h3 with h3 | ⟨h3, h4⟩
      · exact Or.inl h3
      · exact Or.inr ⟨h3, hstray j x y h4 (lt_of_getElem? hc)⟩
    · intro c hc
      obtain ⟨d, hd, e1, _, _, _, e5⟩ := bk c hc
      obtain ⟨_, area, ha, hcw⟩ := hi.cw d hd
      exact ⟨area, by rw [e1]; exact ha, cached_clockwise (by rw [e5]; exact hcw)⟩

/-- **C57**: the neighbours of the contours of a result. -/
theorem C57_neighbors (lib : Lib) (hl : lib.Ok) (fuel : Nat) (polygons : List (Polygon F × PolygonMode)) (op : BooleanOpType) (r : Polygon F)
    (h : compute lib fuel polygons op = .ok r) : NeighborsOk r.contours := (compute_ok hl h).neighbors

/-- **C58**: the holes of a result; and every contour reports the orientation of its points. -/
theorem C58_holes (lib : Lib) (hl : lib.Ok) (fuel : Nat) (polygons : List (Polygon F × PolygonMode)) (op : BooleanOpType) (r : Polygon F)
    (h : compute lib fuel polygons op = .ok r) :
    HolesOk r.contours ∧ ∀ c ∈ r.contours, ∃ area, areaOf c.points = .ok area ∧ c.clockwise = .ok (lt area (ofInt 0), c) :=
  ⟨(compute_ok hl h).holes, (compute_ok hl h).cw⟩

/-- **C59**: every contour of a result is said to be part of some polygon, and of none whose interior was
to be removed. -/
theorem C59_from_polygons (lib : Lib) (hl : lib.Ok) (fuel : Nat) (polygons : List (Polygon F × PolygonMode)) (op : BooleanOpType) (r : Polygon F)
    (h : compute lib fuel polygons op = .ok r) : ∀ c ∈ r.contours, FlagsOk polygons c.from_polygons := (compute_ok hl h).flags

/-- **C60**, the vertices: every contour has points, and all are ends of pieces of edges of polygons whose
edges were not to be removed. -/
theorem C60_vertices (lib : Lib) (hl : lib.Ok) (fuel : Nat) (polygons : List (Polygon F × PolygonMode)) (op : BooleanOpType) (r : Polygon F)
    (h : compute lib fuel polygons op = .ok r) : ∀ c ∈ r.contours, c.points ≠ [] ∧ ∀ p ∈ c.points, ∃ q, KeptPiece polygons p q :=
  (compute_ok hl h).verts

/-- **C60**, the edges: every edge of every contour is, up to `==`, a piece of an edge of a polygon whose
edges were not to be removed.  Missing: the first edge of a contour, if it goes astray (it can:
`C60_stray_edge`). -/
theorem C60_edges_partial (lib : Lib) (hl : lib.Ok) (fuel : Nat) (polygons : List (Polygon F × PolygonMode)) (op : BooleanOpType) (r : Polygon F)
    (h : compute lib fuel polygons op = .ok r) : ∀ (j : Nat) (c : Contour F), r.contours[j]? = some c → ∀ k x y, IsEdge c.points k x y →
      ∃ a b, KeptPiece polygons a b ∧ SamePoint y b ∧ (SamePoint x a ∨ k = 0 ∧ Astray r.contours j x y) := (compute_ok hl h).edges

/-- **C60**, corollary: if the edges of all polygons are to be removed, nothing is left. -/
theorem C60_all_edges_removed (lib : Lib) (hl : lib.Ok) (fuel : Nat) (polygons : List (Polygon F × PolygonMode)) (op : BooleanOpType) (r : Polygon F)
    (h : compute lib fuel polygons op = .ok r) (hall : ∀ p ∈ polygons, p.2 = .removeEdges) : r.contours = [] := by
  rcases hr : r.contours with _ | ⟨c, cs⟩
  · rfl
  · exfalso
    obtain ⟨hne, hv⟩ := (compute_ok hl h).verts c (by rw [hr]; exact List.mem_cons_self)
    obtain ⟨p, ps, hp⟩ := List.exists_cons_of_ne_nil hne
    obtain ⟨q, k, poly, mode, hk, hm, _⟩ := hv p (by rw [hp]; exact List.mem_cons_self)
    exact hm (hall _ (mem_of_getElem? hk))

end Idc
