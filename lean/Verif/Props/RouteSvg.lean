import Verif.Spec.RouteSvg
import Verif.Spec.Svg
import Verif.Props.RouteMap
import Verif.Props.SvgFull
import Verif.Props.ComputeExamples
/-!
# C73: the drawing of the route finder's result
-/

namespace Idc

open FloatOps

variable {F : Type} [FloatOps F]

theorem contourPath_ok {c : Contour F} {d : List (PathCmd F)} (h : contourPath c = .ok d) : d = roundPath c.points := by
  unfold contourPath at h
  unfold roundPath
  rcases hl : c.points.getLast? with _ | p <;> rw [hl] at h <;> cases h
  rfl

theorem contourPath_succeeds {c : Contour F} (h : c.points ≠ []) : ∃ d, contourPath c = .ok d := by
  unfold contourPath
  rw [List.getLast?_eq_some_getLast h]
  exact ⟨_, rfl⟩

theorem holePaths_ok {contours : List (Contour F)} {hs : List Nat} {d : List (PathCmd F)} (h : holePaths contours hs = .ok d) :
    ∃ holes : List (Contour F), hs.map (fun h => contours[h]?) = holes.map some ∧ d = holes.flatMap fun h => roundPath h.points := by
  induction hs generalizing d with
  | nil => cases h; exact ⟨[], rfl, rfl⟩
  | cons i hs ih =>
    rw [holePaths] at h
    obtain ⟨hole, h1, h⟩ := Res.bind_eq_ok h
    obtain ⟨path, h2, h⟩ := Res.bind_eq_ok h
    obtain ⟨rest, h3, h⟩ := Res.bind_eq_ok h
    cases h
    obtain ⟨holes, e1, rfl⟩ := ih h3
    exact ⟨hole :: holes, by rw [List.map_cons, e1, index_eq_ok h1]; rfl, by rw [contourPath_ok h2]; rfl⟩

theorem holePaths_succeeds {contours : List (Contour F)} {hs : List Nat} (h : ∀ i ∈ hs, ∃ c, contours[i]? = some c ∧ c.points ≠ []) :
    ∃ d, holePaths contours hs = .ok d := by
  induction hs with
  | nil => exact ⟨_, rfl⟩
  | cons i hs ih =>
    obtain ⟨c, h1, h2⟩ := h i (by simp)
    obtain ⟨d, hd⟩ := contourPath_succeeds h2
    obtain ⟨d', hd'⟩ := ih fun i hi => h i (by simp [hi])
    refine ⟨d ++ d', ?_⟩
    unfold holePaths index
    rw [h1]
    simp only [Res.bind_ok, hd, hd']
    rfl

theorem originsOf_ok {refs : List PolygonRef} {flags : List Bool} {p : Nat} {os : List PolygonRef} (h : originsOf refs p flags = .ok os) (o : PolygonRef) :
    o ∈ os ↔ ∃ k : Nat, flags[k]? = some true ∧ refs[p + k]? = some o := by
  induction flags generalizing p os with
  | nil => cases h; simp
  | cons f fs ih =>
    have split : (∃ k : Nat, (f :: fs)[k]? = some true ∧ refs[p + k]? = some o) ↔
        (f = true ∧ refs[p]? = some o) ∨ ∃ k : Nat, fs[k]? = some true ∧ refs[p + 1 + k]? = some o := by
      constructor
      · rintro ⟨_ | k, h1, h2⟩
        · exact .inl ⟨by simpa using h1, h2⟩
        · exact .inr ⟨k, by simpa using h1, by rw [← h2]; congr 1; omega⟩
      · rintro (⟨rfl, h2⟩ | ⟨k, h1, h2⟩)
        · exact ⟨0, rfl, h2⟩
        · exact ⟨k + 1, by simpa using h1, by rw [← h2]; congr 1; omega⟩
    rw [split]
    cases f
    · rw [originsOf] at h
      simpa using ih h
    · rw [originsOf] at h
      simp only [Bool.not_true, Bool.false_eq_true, ↓reduceIte] at h
      obtain ⟨r, h1, h⟩ := Res.bind_eq_ok h
      obtain ⟨rs, h2, h⟩ := Res.bind_eq_ok h
      cases h
      rw [List.mem_cons, ih h2, index_eq_ok h1]
      simp [eq_comm]

theorem originsOf_succeeds {refs : List PolygonRef} {flags : List Bool} {p : Nat} (h : p + flags.length ≤ refs.length) :
    ∃ os, originsOf refs p flags = .ok os := by
  induction flags generalizing p with
  | nil => exact ⟨_, rfl⟩
  | cons f fs ih =>
    rw [List.length_cons] at h
    obtain ⟨os, hos⟩ := ih (p := p + 1) (by omega)
    rw [originsOf]
    split
    · exact ⟨os, hos⟩
    · unfold index
      rw [List.getElem?_eq_getElem (by omega)]
      simp only [Res.bind_ok, hos]
      exact ⟨_, rfl⟩

theorem routeShapes_ok {refs : List PolygonRef} {contours : List (Contour F)} {distance : List Int} (cs : List (Contour F)) (i : Nat)
    (hcs : ∀ k c, cs[k]? = some c → contours[i + k]? = some c) {shapes : List (RouteShape F)}
    (h : routeShapes refs contours distance i cs = .ok shapes) :
    shapes.map (fun s => s.id) = (List.range' i cs.length).filter (fun i => contours[i]?.any fun c => c.external) ∧
    ∀ s ∈ shapes, AreaDrawn refs contours distance s := by
  induction cs generalizing i shapes with
  | nil => cases h; exact ⟨rfl, by simp⟩
  | cons c cs ih =>
    have hc : contours[i]? = some c := hcs 0 c rfl
    have hrest : ∀ k d, cs[k]? = some d → contours[i + 1 + k]? = some d := by
      intro k d hd
      have := hcs (k + 1) d (by simpa using hd)
      rw [← this]; congr 1; omega
    rw [routeShapes] at h
    obtain ⟨x, _, h⟩ := Res.bind_eq_ok h
    rw [List.length_cons, List.range'_succ, List.filter_cons, hc]
    cases hext : c.external
    · rw [hext] at h
      simp only [Option.any_some, hext, Bool.false_eq_true, ↓reduceIte]
      exact ih (i + 1) hrest h
    · rw [hext] at h
      simp only [Bool.not_true, Bool.false_eq_true, ↓reduceIte] at h
      obtain ⟨path, h1, h⟩ := Res.bind_eq_ok h
      obtain ⟨hp, h2, h⟩ := Res.bind_eq_ok h
      obtain ⟨os, h3, h⟩ := Res.bind_eq_ok h
      obtain ⟨d, h4, h⟩ := Res.bind_eq_ok h
      obtain ⟨rest, h5, h⟩ := Res.bind_eq_ok h
      cases h
      obtain ⟨e1, e2⟩ := ih (i + 1) hrest h5
      simp only [Option.any_some, hext, ↓reduceIte, List.map_cons, e1, true_and]
      intro s hs
      rcases List.mem_cons.1 hs with rfl | hs
      · obtain ⟨holes, e3, e4⟩ := holePaths_ok h2
        refine ⟨c, holes, hc, hext, e3, by rw [contourPath_ok h1, e4], index_eq_ok h4, ?_⟩
        intro o
        rw [originsOf_ok h3]
        simp
      · exact e2 s hs

theorem routeShapes_succeeds {refs : List PolygonRef} {contours : List (Contour F)} {distance : List Int}
    (hpts : ∀ c ∈ contours, c.points ≠ []) (hcw : ∀ c ∈ contours, ∃ x, c.clockwise = .ok x)
    (hholes : ∀ c ∈ contours, ∀ h ∈ c.holes, h < contours.length) (hfrom : ∀ c ∈ contours, c.from_polygons.length ≤ refs.length)
    (hlen : distance.length = contours.length) (cs : List (Contour F)) (i : Nat) (hcs : ∀ c ∈ cs, c ∈ contours) (hi : i + cs.length ≤ contours.length) :
    ∃ shapes, routeShapes refs contours distance i cs = .ok shapes := by
  induction cs generalizing i with
  | nil => exact ⟨_, rfl⟩
  | cons c cs ih =>
    rw [List.length_cons] at hi
    have hc := hcs c (by simp)
    obtain ⟨shapes, hs⟩ := ih (i + 1) (fun c h => hcs c (by simp [h])) (by omega)
    obtain ⟨x, hx⟩ := hcw c hc
    rw [routeShapes, hx, Res.bind_ok]
    split
    · exact ⟨shapes, hs⟩
    · obtain ⟨d, hd⟩ := contourPath_succeeds (hpts c hc)
      obtain ⟨d', hd'⟩ := holePaths_succeeds (contours := contours) (hs := c.holes) fun h hh =>
        ⟨_, List.getElem?_eq_getElem (hholes c hc h hh), hpts _ (List.getElem_mem _)⟩
      obtain ⟨os, ho⟩ := originsOf_succeeds (refs := refs) (flags := c.from_polygons) (p := 0) (by have := hfrom c hc; omega)
      rw [hd, Res.bind_ok, hd', Res.bind_ok, ho, Res.bind_ok]
      unfold index
      rw [List.getElem?_eq_getElem (by omega)]
      simp only [Res.bind_ok, hs]
      exact ⟨_, rfl⟩

/-- **C73** The drawing shows one area for each external contour, in order, with its holes, its distance and what it
comes from. -/
theorem C73_drawing (lib : Lib) (fuel : Nat) (m : FullMap F) (doc : RouteDoc F) (h : routeMapAsSvg lib fuel m = .ok doc) :
    ∃ r distance chunks, routeMap lib fuel m = .ok (r, distance, chunks) ∧
      doc.shapes.map (fun s => s.id) = externals r.contours ∧ ∀ s ∈ doc.shapes, AreaDrawn (routeRefs m) r.contours distance s := by
  unfold routeMapAsSvg at h
  obtain ⟨⟨r, distance, chunks⟩, h1, h⟩ := Res.bind_eq_ok h
  obtain ⟨shapes, h2, h⟩ := Res.bind_eq_ok h
  cases h
  refine ⟨r, distance, chunks, h1, ?_⟩
  have := routeShapes_ok r.contours 0 (fun k c hc => by simpa using hc) h2
  rw [← List.range_eq_range'] at this
  exact this

/-- **C73** Nothing goes wrong in drawing. -/
theorem C73_succeeds (lib : Lib) (hl : lib.Ok) (fuel : Nat) (m : FullMap F) (r : Polygon F) (distance : List Int) (chunks : List (List Nat))
    (h : routeMap lib fuel m = .ok (r, distance, chunks)) : ∃ doc, routeMapAsSvg lib fuel m = .ok doc := by
  have hpart := (C62_route_map lib fuel m r distance chunks h).1
  have h' := h
  unfold routeMap at h'
  obtain ⟨polygons, h1, h'⟩ := Res.bind_eq_ok h'
  obtain ⟨r', h2, h'⟩ := Res.bind_eq_ok h'
  obtain ⟨⟨d, cs⟩, h3, h'⟩ := Res.bind_eq_ok h'
  cases h'
  obtain ⟨shapes, hs⟩ := routeShapes_succeeds (refs := routeRefs m) (contours := r.contours) (distance := distance)
    (fun c hc => (C60_vertices lib hl fuel polygons .union r h2 c hc).1)
    (fun c hc => by obtain ⟨a, _, h⟩ := (C58_holes lib hl fuel polygons .union r h2).2 c hc; exact ⟨_, h⟩)
    (fun c hc k hk => by
      obtain ⟨p, hp⟩ := List.getElem?_of_mem hc
      exact ((C58_holes lib hl fuel polygons .union r h2).1.order p c hp k hk).2)
    (fun c hc => by
      have := (C59_from_polygons lib hl fuel polygons .union r h2 c hc).1
      have := routePolygons_length h1
      omega)
    hpart.length r.contours 0 (fun c h => h) (by omega)
  unfold routeMapAsSvg
  rw [h, Res.bind_ok]
  dsimp only
  rw [hs]
  exact ⟨_, rfl⟩

/-- **C73** No contour is drawn twice; an external contour is drawn, and so is a hole of an external contour. -/
theorem C73_once (lib : Lib) (hl : lib.Ok) (fuel : Nat) (polygons : List (Polygon F × PolygonMode)) (op : BooleanOpType) (r : Polygon F)
    (h : compute lib fuel polygons op = .ok r) : (drawnContours r.contours).Nodup ∧
      ∀ (i : Nat) (c : Contour F), r.contours[i]? = some c → (i ∈ drawnContours r.contours ↔ c.external = true ∨
        ∃ (p : Nat) (d : Contour F), r.contours[p]? = some d ∧ d.external = true ∧ i ∈ d.holes) := by
  have H := (C58_holes lib hl fuel polygons op r h).1
  have hmem : ∀ i, i ∈ externals r.contours ↔ ∃ c, r.contours[i]? = some c ∧ c.external = true := by
    intro i
    unfold externals
    rw [List.mem_filter, List.mem_range]
    constructor
    · rintro ⟨hi, he⟩
      rw [List.getElem?_eq_getElem hi] at he
      exact ⟨_, List.getElem?_eq_getElem hi, by simpa using he⟩
    · rintro ⟨c, hc, he⟩
      exact ⟨(List.getElem?_eq_some_iff.1 hc).1, by rw [hc]; simpa using he⟩
  have hsub : ((externals r.contours).flatMap fun i => (r.contours[i]?.map fun c => c.holes).getD []).Sublist
      (r.contours.flatMap fun c => c.holes) := by
    have e : r.contours.flatMap (fun c => c.holes) = (List.range r.contours.length).flatMap fun i => (r.contours[i]?.map fun c => c.holes).getD [] := by
      have : r.contours.map (fun c => c.holes) = (List.range r.contours.length).map fun i => (r.contours[i]?.map fun c => c.holes).getD [] := by
        apply List.ext_getElem
        · simp
        · intro i h1 h2
          simp only [List.length_map] at h1
          simp [List.getElem?_eq_getElem h1]
      rw [List.flatMap_def, List.flatMap_def, this]
    rw [e]
    rw [List.flatMap_def, List.flatMap_def]
    exact (List.Sublist.map _ List.filter_sublist).flatten
  refine ⟨?_, ?_⟩
  · unfold drawnContours
    rw [List.nodup_append]
    refine ⟨(List.nodup_range).filter _, ?_, ?_⟩
    · rw [List.nodup_iff_count_le_one]
      intro i
      refine (hsub.count_le i).trans ?_
      rcases hi : r.contours[i]? with _ | c
      · rw [List.count_eq_zero_of_not_mem]
        · omega
        · intro hm
          obtain ⟨c, hc, hic⟩ := List.mem_flatMap.1 hm
          obtain ⟨p, hp⟩ := List.getElem?_of_mem hc
          have := (H.order p c hp i hic).2
          rw [List.getElem?_eq_none_iff] at hi
          omega
      · rw [H.once i c hi]
        split <;> omega
    · intro i hi j hj e
      subst e
      obtain ⟨c, hc, he⟩ := (hmem i).1 hi
      have := H.once i c hc
      rw [he, if_pos rfl, List.count_eq_zero] at this
      exact this (hsub.subset hj)
  · intro i c hc
    unfold drawnContours
    rw [List.mem_append, hmem, List.mem_flatMap]
    constructor
    · rintro (⟨d, hd, he⟩ | ⟨p, hp, hi⟩)
      · rw [hc] at hd; cases hd; exact .inl he
      · obtain ⟨d, hd, he⟩ := (hmem p).1 hp
        rw [hd] at hi
        exact .inr ⟨p, d, hd, he, hi⟩
    · rintro (he | ⟨p, d, hd, he, hi⟩)
      · exact .inl ⟨c, hc, he⟩
      · exact .inr ⟨p, (hmem p).2 ⟨d, hd, he⟩, by rw [hd]; exact hi⟩

/-- **C73** The view box is the smallest box around the vertices, with a margin of 32. -/
theorem C73_view_box [IntExact F] (lib : Lib) (fuel : Nat) (b : BareDoomMap) (m : FullMap F) (hm : FullMap.fromBare b = .ok m) (doc : RouteDoc F)
    (h : routeMapAsSvg lib fuel m = .ok doc) (hne : b.vertices ≠ []) :
    ∃ x y w ht : Int, SmallestBox x y (x + w) (y + ht) (b.vertices.map fun v => (v.x.toInt, -v.y.toInt)) ∧
      doc.viewBox = (ofInt (x - 32), ofInt (y - 32), ofInt (w + 64), ofInt (ht + 64)) := by
  have hv : doc.viewBox = (sub m.bbox.x (ofInt 32), sub (sub (ofInt 0) m.bbox.maxY) (ofInt 32),
      add m.bbox.width (mul (ofInt 32) (ofInt 2)), add m.bbox.height (mul (ofInt 32) (ofInt 2))) := by
    unfold routeMapAsSvg at h
    obtain ⟨_, _, h⟩ := Res.bind_eq_ok h
    obtain ⟨_, _, h⟩ := Res.bind_eq_ok h
    cases h
    rfl
  obtain ⟨x0, y0, x1, y1, hb, hbb⟩ := C39_bbox b m hm hne
  refine ⟨x0, -y1, x1 - x0, y1 - y0, ?_, ?_⟩
  · have := SmallestBox.seen hb
    rw [List.map_map] at this
    rw [show x0 + (x1 - x0) = x1 by omega, show -y1 + (y1 - y0) = -y0 by omega]
    exact this
  · have hin : ∀ p ∈ (b.vertices.map fun v => (v.x.toInt, v.y.toInt)), (-32768 ≤ p.1 ∧ p.1 < 32768) ∧ -32768 ≤ p.2 ∧ p.2 < 32768 := by
      intro p hp
      obtain ⟨w, _, rfl⟩ := List.mem_map.mp hp
      exact ⟨⟨Int16.le_toInt _, Int16.toInt_lt _⟩, Int16.le_toInt _, Int16.toInt_lt _⟩
    obtain ⟨p, hp, ep⟩ := hb.bottom
    obtain ⟨q, hq, eq⟩ := hb.top
    obtain ⟨p', hp', ep'⟩ := hb.left
    obtain ⟨q', hq', eq'⟩ := hb.right
    have := hin p hp
    have := hin q hq
    have := hin p' hp'
    have := hin q' hq'
    rw [hv, hbb]
    unfold Rect.maxY
    dsimp only
    rw [IntExact.add_ofInt y0 (y1 - y0) (by rw [abs_le]; omega) (by rw [abs_le]; omega) (by rw [abs_le]; omega),
      IntExact.sub_ofInt 0 (y0 + (y1 - y0)) (by simp) (by rw [abs_le]; omega) (by rw [abs_le]; omega),
      IntExact.sub_ofInt (0 - (y0 + (y1 - y0))) 32 (by rw [abs_le]; omega) (by norm_num) (by rw [abs_le]; omega),
      IntExact.sub_ofInt x0 32 (by rw [abs_le]; omega) (by norm_num) (by rw [abs_le]; omega),
      IntExact.mul_ofInt 32 2 (by norm_num) (by norm_num) (by norm_num) (by norm_num) (by norm_num),
      IntExact.add_ofInt (x1 - x0) (32 * 2) (by rw [abs_le]; omega) (by norm_num) (by rw [abs_le]; omega),
      IntExact.add_ofInt (y1 - y0) (32 * 2) (by rw [abs_le]; omega) (by norm_num) (by rw [abs_le]; omega)]
    rw [show (0 : Int) - (y0 + (y1 - y0)) - 32 = -y1 - 32 by omega]
    norm_num

/-! ### Two islands -/

/-- Three sectors, one for each polygon of `exStack`; the floor of the second is at `floor`.  The player starts at (5,5). -/
def exStackMap (floor : Int32) : FullMap Rat where
  vertices := []
  lines := []
  sides := []
  sectors := [⟨0, 0, 0, 128, 160⟩, ⟨0, 0, floor, 128, 160⟩, ⟨0, 0, 0, 128, 160⟩]
  things := [⟨⟨5, 5⟩, 1⟩]

/-- The distances and chunks found in the result of `compute` on `exStack`. -/
def exStackFlood (floor : Int32) : Res (List Int × List (List Nat)) := do
  let r ← compute listLib 200 exStack .union
  floodContours (exStackMap floor) [.sector 0, .sector 1, .sector 2] r.contours 200

/-- **C63**: the chunks can be too small.  `exStack` is a square room (area 0) with two square islands (areas 1 and 3).
The player starts in the room; the second island is level with it, but is in another chunk if the first island is higher,
because the hole for the second one is recorded as a hole of the hole for the first one. -/
theorem C63_island_missed : exStackFlood 0 = .ok ([1, 1, 1, 1, 1], [[0, 1, 2, 3, 4]]) ∧
    exStackFlood 100 = .ok ([1, 2, 3, 3, 3], [[0], [1], [2, 3, 4]]) := by
  decide +kernel

/-- **C73**: a hole can be missing from the drawing: the contour numbered 4 of the same areas is a hole, but not drawn. -/
theorem C73_hole_missing :
    ((compute listLib 200 exStack .union).map fun r => (r.contours[4]?.map fun c => c.external, drawnContours r.contours)) =
      .ok (some false, [0, 1, 3, 2]) := by
  decide +kernel

end Idc
