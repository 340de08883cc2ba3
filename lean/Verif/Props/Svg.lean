import Verif.Spec.Svg
import Verif.Props.Dilate
import Verif.Props.BareOutline
import Verif.Props.Outline
import Verif.Props.Tables
import Verif.Props.RouteMap
import Verif.Props.Flip
/-!
# C65 (view box), C71 (contents of charts)
-/

namespace Idc

open FloatOps

/-! ### 16-bit arithmetic -/

theorem i16Arith_debug {w : Int} {r : Int16} (h : i16Arith .debug w = .ok r) : r.toInt = w := by
  unfold i16Arith at h
  split at h
  · rename_i hw
    cases h
    exact Int16.toInt_ofInt_of_le hw.1 (by omega)
  · cases h

theorem i16Arith_fits (pr : Profile) {w : Int} (h : -32768 ≤ w ∧ w ≤ 32767) : i16Arith pr w = .ok (Int16.ofInt w) := by
  unfold i16Arith
  rw [if_pos h]

theorem i16Arith_any {pr : Profile} {w : Int} {r : Int16} (h : i16Arith .debug w = .ok r) : i16Arith pr w = .ok r := by
  unfold i16Arith at h ⊢
  split at h
  · rename_i hw; rw [if_pos hw]; exact h
  · cases h

theorem i16Arith_cases (pr : Profile) (w : Int) :
    (∃ r, i16Arith pr w = .ok r) ∨ (pr = .debug ∧ i16Arith pr w = .panic .overflow) := by
  unfold i16Arith
  split
  · exact .inl ⟨_, rfl⟩
  · cases pr
    · exact .inr ⟨rfl, rfl⟩
    · exact .inl ⟨_, rfl⟩

/-! ### Extents -/

theorem extend_box {e : Extent} {ps : List (Int × Int)} (p : Int16 × Int16)
    (h : SmallestBox e.minx.toInt e.miny.toInt e.maxx.toInt e.maxy.toInt ps) :
    SmallestBox (e.extend p).minx.toInt (e.extend p).miny.toInt (e.extend p).maxx.toInt (e.extend p).maxy.toInt
      (ps ++ [(p.1.toInt, p.2.toInt)]) := by
  obtain ⟨hin, ⟨a, ha, ea⟩, ⟨b, hb, eb⟩, ⟨c, hc, ec⟩, ⟨d, hd, ed⟩⟩ := h
  have la := hin a ha
  have f1 : (e.extend p).minx = if p.1 < e.minx then p.1 else e.minx := by
    unfold Extent.extend; dsimp only; split_ifs <;> rfl
  have f2 : (e.extend p).maxx = if p.1 > e.maxx then p.1 else e.maxx := by
    unfold Extent.extend; dsimp only; split_ifs <;> first | rfl | contradiction
  have f3 : (e.extend p).miny = if p.2 < e.miny then p.2 else e.miny := by
    unfold Extent.extend; dsimp only; split_ifs <;> first | rfl | contradiction
  have f4 : (e.extend p).maxy = if p.2 > e.maxy then p.2 else e.maxy := by
    unfold Extent.extend; dsimp only; split_ifs <;> first | rfl | contradiction
  rw [f1, f2, f3, f4]
  simp only [Int16.lt_iff_toInt_lt, gt_iff_lt]
  have key : ∀ (P : Int × Int → Prop), (∃ q ∈ ps, P q) → ∃ q ∈ ps ++ [(p.1.toInt, p.2.toInt)], P q := by
    rintro P ⟨q, hq, h⟩; exact ⟨q, by simp [hq], h⟩
  constructor
  · intro q hq
    rw [List.mem_append, List.mem_singleton] at hq
    rcases hq with hq | rfl
    · have := hin q hq
      refine ⟨?_, ?_, ?_, ?_⟩ <;> split_ifs <;> omega
    · dsimp only
      refine ⟨?_, ?_, ?_, ?_⟩ <;> split_ifs <;> omega
  · split_ifs
    · exact ⟨(p.1.toInt, p.2.toInt), by simp, rfl⟩
    · exact key _ ⟨a, ha, ea⟩
  · split_ifs
    · exact ⟨(p.1.toInt, p.2.toInt), by simp, rfl⟩
    · exact key _ ⟨b, hb, eb⟩
  · split_ifs
    · exact ⟨(p.1.toInt, p.2.toInt), by simp, rfl⟩
    · exact key _ ⟨c, hc, ec⟩
  · split_ifs
    · exact ⟨(p.1.toInt, p.2.toInt), by simp, rfl⟩
    · exact key _ ⟨d, hd, ed⟩

theorem extend_foldl {α : Type} (f : α → Int16 × Int16) (l : List α) {e : Extent} {ps : List (Int × Int)}
    (h : SmallestBox e.minx.toInt e.miny.toInt e.maxx.toInt e.maxy.toInt ps) :
    let e' := l.foldl (fun (e : Extent) a => e.extend (f a)) e
    SmallestBox e'.minx.toInt e'.miny.toInt e'.maxx.toInt e'.maxy.toInt (ps ++ l.map fun a => ((f a).1.toInt, (f a).2.toInt)) := by
  induction l generalizing e ps with
  | nil => simpa using h
  | cons a l ih =>
    have := ih (extend_box (f a) h)
    simpa using this

theorem SmallestBox.congr {x0 y0 x1 y1 : Int} {ps qs : List (Int × Int)} (h : SmallestBox x0 y0 x1 y1 ps)
    (e : ∀ p, p ∈ ps ↔ p ∈ qs) : SmallestBox x0 y0 x1 y1 qs := by
  obtain ⟨a, b, c, d, f⟩ := h
  simp only [e] at a b c d f
  exact ⟨a, b, c, d, f⟩

theorem SmallestBox.seen {x0 y0 x1 y1 : Int} {ps : List (Int × Int)} (h : SmallestBox x0 y0 x1 y1 ps) :
    SmallestBox x0 (-y1) x1 (-y0) (ps.map fun p => (p.1, -p.2)) := by
  obtain ⟨hin, ⟨a, ha, ea⟩, ⟨b, hb, eb⟩, ⟨c, hc, ec⟩, ⟨d, hd, ed⟩⟩ := h
  refine ⟨?_, ⟨(a.1, -a.2), List.mem_map.2 ⟨a, ha, rfl⟩, ea⟩, ⟨(b.1, -b.2), List.mem_map.2 ⟨b, hb, rfl⟩, eb⟩,
    ⟨(d.1, -d.2), List.mem_map.2 ⟨d, hd, rfl⟩, by simp [ed]⟩, ⟨(c.1, -c.2), List.mem_map.2 ⟨c, hc, rfl⟩, by simp [ec]⟩⟩
  intro p hp
  obtain ⟨q, hq, rfl⟩ := List.mem_map.1 hp
  have := hin q hq
  dsimp only
  omega

variable {L T : Type} [BareBinaryLine L] [BareBinaryThing T]

/-- The extent the program computes. -/
def extentOf (m : BareBinaryMap L T) : Extent :=
  m.things.foldl (fun (e : Extent) t => e.extend (BareBinaryThing.coords t))
    (m.vertices.foldl (fun (e : Extent) v => e.extend (v.x, v.y)) ⟨(firstPoint m).1, (firstPoint m).2, (firstPoint m).1, (firstPoint m).2⟩)

theorem extentOf_box (m : BareBinaryMap L T) (hne : seenPoints m ≠ []) :
    SmallestBox (extentOf m).minx.toInt (-(extentOf m).maxy.toInt) (extentOf m).maxx.toInt (-(extentOf m).miny.toInt) (seenPoints m) := by
  have h0 : SmallestBox (firstPoint m).1.toInt (firstPoint m).2.toInt (firstPoint m).1.toInt (firstPoint m).2.toInt
      [((firstPoint m).1.toInt, (firstPoint m).2.toInt)] := ⟨by simp, by simp, by simp, by simp, by simp⟩
  have h1 := extend_foldl (fun t : T => BareBinaryThing.coords t) m.things (extend_foldl (fun v : BareVertex => (v.x, v.y)) m.vertices
    (e := ⟨(firstPoint m).1, (firstPoint m).2, (firstPoint m).1, (firstPoint m).2⟩) h0)
  have h2 := SmallestBox.seen h1
  refine SmallestBox.congr h2 ?_
  intro p
  have hf : ((firstPoint m).1.toInt, -(firstPoint m).2.toInt) ∈ seenPoints m := by
    unfold firstPoint seenPoints at *
    rcases hv : m.vertices with _ | ⟨v, vs⟩
    · rcases ht : m.things with _ | ⟨t, ts⟩
      · rw [hv, ht] at hne; simp at hne
      · simp
    · simp
  simp only [List.map_append, List.map_cons, List.map_nil, List.map_map, List.mem_append, List.mem_singleton, seenPoints, List.append_assoc] at hf ⊢
  constructor
  · rintro (rfl | h | h)
    · exact hf
    · exact .inl h
    · exact .inr h
  · rintro (h | h)
    · exact .inr (.inl h)
    · exact .inr (.inr h)

theorem bareMapAsSvg_ok {pr : Profile} {fuel : Nat} {m : BareBinaryMap L T} {doc : SvgDoc Int16} (h : bareMapAsSvg pr fuel m = .ok doc) :
    ∃ lines things sectors y w ht, Res.mapList (bareLineShapes pr m) m.lines = .ok lines ∧
      Res.mapList (bareThingShape pr) m.things = .ok things ∧
      Res.mapList (bareSectorShape m fuel) ((List.range m.sectors.length).zip m.sectors) = .ok sectors ∧
      i16Arith pr (-(extentOf m).maxy.toInt) = .ok y ∧
      i16Arith pr ((extentOf m).maxx.toInt - (extentOf m).minx.toInt) = .ok w ∧
      i16Arith pr ((extentOf m).maxy.toInt - (extentOf m).miny.toInt) = .ok ht ∧
      doc = ⟨((extentOf m).minx, y, w, ht), lines.flatten ++ things ++ sectors⟩ := by
  unfold bareMapAsSvg at h
  obtain ⟨lines, h1, h⟩ := Res.bind_eq_ok h
  obtain ⟨things, h2, h⟩ := Res.bind_eq_ok h
  obtain ⟨sectors, h3, h⟩ := Res.bind_eq_ok h
  obtain ⟨y, h4, h⟩ := Res.bind_eq_ok h
  obtain ⟨w, h5, h⟩ := Res.bind_eq_ok h
  obtain ⟨ht, h6, h⟩ := Res.bind_eq_ok h
  cases h
  exact ⟨lines, things, sectors, y, w, ht, h1, h2, h3, h4, h5, h6, rfl⟩

/-- **C65** (debug build): if a bare map is drawn, the view box is the smallest box around all of its vertices and
things, where they are seen. -/
theorem C65_bare_view_box_partial (fuel : Nat) (m : BareBinaryMap L T) (doc : SvgDoc Int16) (h : bareMapAsSvg .debug fuel m = .ok doc)
    (hne : m.vertices ≠ [] ∨ m.things ≠ []) :
    SmallestBox doc.viewBox.1.toInt doc.viewBox.2.1.toInt (doc.viewBox.1.toInt + doc.viewBox.2.2.1.toInt)
      (doc.viewBox.2.1.toInt + doc.viewBox.2.2.2.toInt) (seenPoints m) := by
  obtain ⟨lines, things, sectors, y, w, ht, _, _, _, h4, h5, h6, rfl⟩ := bareMapAsSvg_ok h
  have hb := extentOf_box m (by unfold seenPoints; rcases hne with h | h <;> simp [h])
  have := i16Arith_debug h4
  have := i16Arith_debug h5
  have := i16Arith_debug h6
  convert hb using 1 <;> dsimp only <;> omega

theorem mapList_any {α β : Type} {f g : α → Res β} (hfg : ∀ a b, f a = .ok b → g a = .ok b) {l : List α} {l' : List β}
    (h : Res.mapList f l = .ok l') : Res.mapList g l = .ok l' := by
  induction l generalizing l' with
  | nil => exact h
  | cons x l ih =>
    simp only [Res.mapList] at h
    split at h <;> try cases h
    rename_i y h1
    split at h <;> try cases h
    rename_i ys h2
    simp only [Res.mapList, hfg x y h1, ih h2]

theorem corner_any {pr : Profile} {v : BareVertex} {dx dy : Int} {p : Int16 × Int16} (h : corner .debug v dx dy = .ok p) :
    corner pr v dx dy = .ok p := by
  unfold corner at h ⊢
  obtain ⟨x, h1, h⟩ := Res.bind_eq_ok h
  obtain ⟨y, h2, h⟩ := Res.bind_eq_ok h
  rw [i16Arith_any h1]
  show (i16Arith pr _ >>= _) = _
  rw [i16Arith_any h2]
  exact h

theorem bareDilation_any {pr : Profile} {v0 v1 : BareVertex} {d : List (PathCmd Int16)} (h : bareDilation .debug v0 v1 = .ok d) :
    bareDilation pr v0 v1 = .ok d := by
  unfold bareDilation at h ⊢
  obtain ⟨cs, h1, h⟩ := Res.bind_eq_ok h
  exact Eq.trans (congrArg (· >>= _) (mapList_any (fun a b => corner_any) h1)) h

/-- **C65, C71**: a release build draws the same as a debug build that does not stop because of an overflow. -/
theorem C71_bare_release (fuel : Nat) (m : BareBinaryMap L T) (doc : SvgDoc Int16) (h : bareMapAsSvg .debug fuel m = .ok doc) :
    bareMapAsSvg .release fuel m = .ok doc := by
  obtain ⟨lines, things, sectors, y, w, ht, h1, h2, h3, h4, h5, h6, rfl⟩ := bareMapAsSvg_ok h
  have e1 : Res.mapList (bareLineShapes .release m) m.lines = .ok lines := by
    refine mapList_any ?_ h1
    intro l s hs
    unfold bareLineShapes at hs ⊢
    obtain ⟨v0, a1, hs⟩ := Res.bind_eq_ok hs
    obtain ⟨v1, a2, hs⟩ := Res.bind_eq_ok hs
    obtain ⟨d, a3, hs⟩ := Res.bind_eq_ok hs
    rw [a1, Res.bind_ok, a2, Res.bind_ok, bareDilation_any a3, Res.bind_ok]
    exact hs
  have e2 : Res.mapList (bareThingShape .release) m.things = .ok things := by
    refine mapList_any ?_ h2
    intro t s hs
    unfold bareThingShape at hs ⊢
    obtain ⟨x, a1, hs⟩ := Res.bind_eq_ok hs
    obtain ⟨y, a2, hs⟩ := Res.bind_eq_ok hs
    dsimp only at a1 a2 ⊢
    rw [i16Arith_any a1, Res.bind_ok, i16Arith_any a2]
    exact hs
  unfold bareMapAsSvg
  rw [e1, Res.bind_ok, e2, Res.bind_ok, h3, Res.bind_ok]
  show (i16Arith .release (-(extentOf m).maxy.toInt) >>= fun y => i16Arith .release ((extentOf m).maxx.toInt - (extentOf m).minx.toInt) >>= fun width =>
    i16Arith .release ((extentOf m).maxy.toInt - (extentOf m).miny.toInt) >>= fun height => Res.ok _) = _
  rw [i16Arith_any h4, Res.bind_ok, i16Arith_any h5, Res.bind_ok, i16Arith_any h6]
  rfl

/-! ### The shapes of bare maps -/

theorem mapList_matches {α β : Type} {f : α → Res β} {l : List α} {l' : List β} (h : Res.mapList f l = .ok l') :
    Matches l l' fun _ x y => f x = .ok y :=
  ⟨(mapList_getElem h).1, (mapList_getElem h).2⟩

theorem corner_debug {v : BareVertex} {dx dy : Int} {p : Int16 × Int16} (h : corner .debug v dx dy = .ok p) :
    p.1.toInt = v.x.toInt + dx * 16 ∧ p.2.toInt = v.y.toInt + dy * 16 := by
  unfold corner at h
  obtain ⟨x, h1, h⟩ := Res.bind_eq_ok h
  obtain ⟨y, h2, h⟩ := Res.bind_eq_ok h
  cases h
  exact ⟨i16Arith_debug h1, i16Arith_debug h2⟩

theorem mapList_map_eq {α β γ : Type} {f : α → Res β} {g : β → γ} {k : α → γ} (hfk : ∀ a b, f a = .ok b → g b = k a) {l : List α} {l' : List β}
    (h : Res.mapList f l = .ok l') : l'.map g = l.map k := by
  induction l generalizing l' with
  | nil => cases h; rfl
  | cons x l ih =>
    simp only [Res.mapList] at h
    split at h <;> try cases h
    rename_i y h1
    split at h <;> try cases h
    rename_i ys h2
    simp [hfk x y h1, ih h2]

theorem bareDilation_points {v0 v1 : BareVertex} {d : List (PathCmd Int16)} (h : bareDilation .debug v0 v1 = .ok d) :
    ∃ p ps, d = .moveTo p.1 p.2 :: (ps.map fun q : Int16 × Int16 => .lineTo q.1 q.2) ∧
      (p :: ps).map realPoint = (dilateLine (F := ℝ) ⟨v0.x.toInt, v0.y.toInt⟩ ⟨v1.x.toInt, v1.y.toInt⟩).map Pt.pair := by
  unfold bareDilation at h
  have hadd : ∀ x y : ℝ, add x y = x + y := fun _ _ => rfl
  have hsub : ∀ x y : ℝ, sub x y = x - y := fun _ _ => rfl
  have hof : ∀ n : Int, (ofInt n : ℝ) = n := fun _ => rfl
  have hlt : ∀ a b : Int16, lt ((a.toInt : ℝ)) (b.toInt : ℝ) = decide (a < b) := by
    intro a b
    show decide (_ < _) = _
    rw [decide_eq_decide]
    rw [Int16.lt_iff_toInt_lt]; exact_mod_cast Iff.rfl
  have hk : ∀ (c : BareVertex × Int × Int) (p : Int16 × Int16), corner .debug c.1 c.2.1 c.2.2 = .ok p →
      realPoint p = ((c.1.x.toInt + c.2.1 * 16 : ℝ), (c.1.y.toInt + c.2.2 * 16 : ℝ)) := by
    intro c p hp
    obtain ⟨e1, e2⟩ := corner_debug hp
    simp only [realPoint, e1, e2]
    push_cast
    rfl
  have key : ∃ cs : List (Int16 × Int16), Res.ok (match cs with | [] => [] | c :: cs => PathCmd.moveTo c.1 c.2 :: cs.map fun c => PathCmd.lineTo c.1 c.2) = Res.ok d ∧
      cs.map realPoint = (dilateLine (F := ℝ) ⟨v0.x.toInt, v0.y.toInt⟩ ⟨v1.x.toInt, v1.y.toInt⟩).map Pt.pair := by
    unfold dilateLine
    simp only [hlt, decide_eq_true_eq]
    by_cases hy : v1.y < v0.y
    · simp only [if_pos hy, hlt, decide_eq_true_eq, gt_iff_lt] at h ⊢
      obtain ⟨cs, h1, h⟩ := Res.bind_eq_ok h
      refine ⟨cs, h, ?_⟩
      rw [mapList_map_eq hk h1]
      by_cases hx : v0.x < v1.x
      · simp only [if_pos hx, List.map_cons, List.map_nil, Pt.pair, hadd, hsub, hof]; norm_num [sub_eq_add_neg]
      · simp only [if_neg hx, List.map_cons, List.map_nil, Pt.pair, hadd, hsub, hof]; norm_num [sub_eq_add_neg]
    · simp only [if_neg hy, hlt, decide_eq_true_eq, gt_iff_lt] at h ⊢
      obtain ⟨cs, h1, h⟩ := Res.bind_eq_ok h
      refine ⟨cs, h, ?_⟩
      rw [mapList_map_eq hk h1]
      by_cases hx : v1.x < v0.x
      · simp only [if_pos hx, List.map_cons, List.map_nil, Pt.pair, hadd, hsub, hof]; norm_num [sub_eq_add_neg]
      · simp only [if_neg hx, List.map_cons, List.map_nil, Pt.pair, hadd, hsub, hof]; norm_num [sub_eq_add_neg]
  obtain ⟨cs, h, key⟩ := key
  rcases cs with _ | ⟨p, ps⟩
  · exfalso
    have := congrArg List.length key
    simp only [List.map_nil, List.length_nil, List.length_map] at this
    unfold dilateLine at this
    dsimp only at this
    split_ifs at this <;> simp at this
  · cases h
    exact ⟨p, ps, rfl, key⟩

theorem neg_one_iff (i : Int16) : (i == -1) = true ↔ i.toInt = -1 := by
  have := ne_neg_one (x := i)
  rw [bne_iff_ne, ne_eq] at this
  rw [beq_iff_eq]
  tauto

theorem bareLineClasses_mem (l : L) (c : String) : c ∈ bareLineClasses l ↔ c = "line" ∨
      SidesClass ((BareBinaryLine.sideIndices l).1.toInt ≠ -1) ((BareBinaryLine.sideIndices l).2.toInt ≠ -1) c ∨
      (c = "has-special" ∧ BareBinaryLine.hasSpecial l = true) := by
  have e1 := neg_one_iff (BareBinaryLine.sideIndices l).1
  have e2 := neg_one_iff (BareBinaryLine.sideIndices l).2
  unfold bareLineClasses SidesClass
  dsimp only
  generalize ((BareBinaryLine.sideIndices l).1 == -1) = a at *
  generalize ((BareBinaryLine.sideIndices l).2 == -1) = b at *
  simp only [ne_eq, ← e1, ← e2]
  cases a <;> cases b <;> cases BareBinaryLine.hasSpecial l <;> simp

theorem bareLine_drawn {m : BareBinaryMap L T} (hm : m.bin.InRange) {l : L} (hl : l ∈ m.lines) {s : List (SvgShape Int16)}
    (h : bareLineShapes .debug m l = .ok s) : ∃ a b, s = [a, b] ∧ BareLineDrawn m l a ∧ BareZoneDrawn m l b := by
  unfold bareLineShapes at h
  obtain ⟨v0, h1, h⟩ := Res.bind_eq_ok h
  obtain ⟨v1, h2, h⟩ := Res.bind_eq_ok h
  obtain ⟨d, h3, h⟩ := Res.bind_eq_ok h
  cases h
  have hmem : (⟨(BareBinaryLine.vertexIndices l).1, (BareBinaryLine.vertexIndices l).2, (BareBinaryLine.sideIndices l).1, (BareBinaryLine.sideIndices l).2⟩ : BinLine) ∈ m.bin.lines :=
    List.mem_map.2 ⟨l, hl, rfl⟩
  have r1 := (hm.starts _ hmem).1
  have r2 := (hm.ends _ hmem).1
  dsimp only at r1 r2
  have h1 := index_eq_ok h1
  have h2 := index_eq_ok h2
  rw [i16AsUsize_nonneg r1] at h1
  rw [i16AsUsize_nonneg r2] at h2
  refine ⟨_, _, rfl, ⟨v0, v1, _, h1, h2, rfl, bareLineClasses_mem l⟩, ?_⟩
  obtain ⟨p, ps, rfl, hp⟩ := bareDilation_points h3
  have := C64_dilation ⟨v0.x.toInt, v0.y.toInt⟩ ⟨v1.x.toInt, v1.y.toInt⟩
  rw [← hp] at this
  exact ⟨v0, v1, p, ps, h1, h2, rfl, this.1, this.2⟩

theorem actors_small (a : ActorType) (h : a ∈ doom2Actors) (d : UInt32) (hd : a.doomednum = some d) : d.toNat < 2 ^ 31 :=
  lt_of_lt_of_le (actors_table.2.1 a h d hd) (by norm_num)

theorem thingLook_spec (n : UInt32) : ThingLook n.toNat (thingLook n).1 (thingLook n).2 := by
  unfold thingLook
  rcases h : lookupThingType n with _ | a
  · right
    refine ⟨?_, rfl, rfl⟩
    intro a ha d hd e
    have : d = n := UInt32.toNat_inj.1 (by exact_mod_cast e)
    subst this
    have := (C47_lookup d a).2 ⟨ha, hd⟩
    rw [h] at this; cases this
  · left
    obtain ⟨h1, h2⟩ := (C47_lookup n a).1 h
    refine ⟨a, h1, n, h2, rfl, rfl, ?_⟩
    dsimp only
    unfold thingColor
    cases a.category <;> rfl

theorem thingLook_bare (n : Int16) : ThingLook n.toInt (thingLook (i16AsU32 n)).1 (thingLook (i16AsU32 n)).2 := by
  have hs := thingLook_spec (i16AsU32 n)
  have hn := i16AsU32_toNat n
  have h1 := Int16.le_toInt n
  have h2 := Int16.toInt_lt n
  rcases hs with ⟨a, ha, d, hd, e, r⟩ | ⟨hno, r⟩
  · refine .inl ⟨a, ha, d, hd, ?_, r⟩
    have := actors_small a ha d hd
    omega
  · refine .inr ⟨?_, r⟩
    intro a ha d hd e
    exact hno a ha d hd (by omega)

theorem bareThing_drawn {t : T} {s : SvgShape Int16} (h : bareThingShape .debug t = .ok s) : BareThingDrawn t s := by
  unfold bareThingShape at h
  obtain ⟨x, h1, h⟩ := Res.bind_eq_ok h
  obtain ⟨y, h2, h⟩ := Res.bind_eq_ok h
  cases h
  have e1 := i16Arith_debug h1
  have e2 := i16Arith_debug h2
  exact ⟨x, y, _, _, by rw [Nat.mul_comm], by omega, by omega, thingLook_bare _⟩

theorem outlinePath_ok {C : Type} (os : List (List (C × C))) (h : ∀ o ∈ os, o ≠ []) : outlinePath os = .ok (os.flatMap closedPath) := by
  induction os with
  | nil => rfl
  | cons o os ih =>
    rcases o with _ | ⟨p, ps⟩
    · exact absurd rfl (h [] (by simp))
    · unfold outlinePath
      rw [ih (fun o ho => h o (by simp [ho]))]
      simp [closedPath]

theorem bareSector_drawn {m : BareBinaryMap L T} (hm : m.bin.InRange) {n : Nat} {sec : BareSector} :
    ∃ s, BareSectorDrawn m n sec s ∧ ∀ fuel, 2 * m.lines.length + 1 ≤ fuel → bareSectorShape m fuel (n, sec) = .ok s := by
  obtain ⟨os, h1, h2, h3, h4, h5⟩ := C43_bare_outlines m.bin n hm
  have hlen : (m.bin.boundary n).length ≤ m.lines.length := by
    unfold BinMap.boundary
    rw [List.length_map]
    refine (List.length_filter_le _ _).trans ?_
    simp [BareBinaryMap.bin]
  have hin : ∀ o ∈ os, ∀ v ∈ o, v < m.vertices.length := by
    intro o ho v hv
    obtain ⟨p, hp, hv⟩ := (h4 v).1 (List.mem_flatten.2 ⟨o, ho, hv⟩)
    unfold BinMap.boundary at hp
    obtain ⟨l, hl, rfl⟩ := List.mem_map.1 hp
    have hl := (List.mem_filter.1 hl).1
    have a1 := (hm.starts l hl).2
    have a2 := (hm.ends l hl).2
    rcases hv with rfl | rfl
    · exact a1
    · exact a2
  have hlook : ∀ o ∈ os, Res.mapList (fun i => (index m.vertices i).map fun v => (v.x, v.y)) o =
      .ok (o.map fun i => match m.vertices[i]? with | some v => (v.x, v.y) | none => (0, 0)) := by
    intro o ho
    refine mapList_ok o fun v hv => ?_
    have := hin o ho v hv
    rw [index_ok (List.getElem?_eq_getElem this), List.getElem?_eq_getElem this]
    rfl
  have hall : Res.mapList (Res.mapList fun i => (index m.vertices i).map fun v => (v.x, v.y)) os =
      .ok (os.map fun o => o.map fun i => match m.vertices[i]? with | some v => (v.x, v.y) | none => (0, 0)) :=
    mapList_ok os hlook
  refine ⟨.sector ((os.map fun o => o.map fun i => match m.vertices[i]? with | some v => (v.x, v.y) | none => (0, 0)).flatMap closedPath)
      (if sec.sector_tag != 0 then some sec.sector_tag.toInt else none) none (["sector"] ++ if sec.sector_type == 9 then ["secret"] else []),
    ⟨os, _, _, _, rfl, ?_, h2, h3, h4, h5, ?_, ?_⟩, ?_⟩
  rotate_right
  · intro fuel hf
    unfold bareSectorShape
    dsimp only
    rw [h1 fuel (by omega), Res.bind_ok, hall, Res.bind_ok, outlinePath_ok _ (by simpa using h2)]
    rfl
  · simp only [List.map_map]
    refine List.map_congr_left fun o ho => ?_
    simp only [Function.comp_def, List.map_map]
    refine List.map_congr_left fun v hv => ?_
    simp [List.getElem?_eq_getElem (hin o ho v hv)]
  · intro k
    by_cases h0 : sec.sector_tag = 0
    · simp only [h0, bne_self_eq_false, Bool.false_eq_true, if_false, reduceCtorEq, false_iff]
      rintro ⟨a, b⟩
      exact a b.symm
    · have h0' : sec.sector_tag.toInt ≠ 0 := fun e => h0 (Int16.toInt_inj.1 e)
      simp only [bne_iff_ne, ne_eq, h0, not_false_iff, if_true, Option.some.injEq]
      constructor
      · rintro rfl; exact ⟨h0', rfl⟩
      · exact fun h => h.2
  · intro c
    have : (sec.sector_type == 9) = true ↔ sec.sector_type.toInt = 9 := by
      rw [beq_iff_eq, ← Int16.toInt_inj]; rfl
    rw [← this]
    cases sec.sector_type == 9 <;> simp

/-- **C71** (debug build): the chart of a bare map with valid references shows, in this order, each line followed by the
zone around it, each thing, and each sector; nothing else. -/
theorem C71_bare_shapes (fuel : Nat) (m : BareBinaryMap L T) (hm : m.bin.InRange) (hf : 2 * m.lines.length + 1 ≤ fuel)
    (doc : SvgDoc Int16) (h : bareMapAsSvg .debug fuel m = .ok doc) :
    ∃ lines zones things sectors, doc.shapes = (lines.zip zones).flatMap (fun p => [p.1, p.2]) ++ things ++ sectors ∧
      Matches m.lines lines (fun _ => BareLineDrawn m) ∧ Matches m.lines zones (fun _ => BareZoneDrawn m) ∧
      Matches m.things things (fun _ => BareThingDrawn) ∧ Matches m.sectors sectors (fun n => BareSectorDrawn m n) := by
  obtain ⟨lines, things, sectors, y, w, ht, h1, h2, h3, _, _, _, rfl⟩ := bareMapAsSvg_ok h
  have key : ∀ (ls : List L) (ss : List (List (SvgShape Int16))), (∀ l ∈ ls, l ∈ m.lines) → Res.mapList (bareLineShapes .debug m) ls = .ok ss →
      ∃ lines zones, ss.flatten = (lines.zip zones).flatMap (fun p => [p.1, p.2]) ∧
        Matches ls lines (fun _ => BareLineDrawn m) ∧ Matches ls zones (fun _ => BareZoneDrawn m) := by
    intro ls
    induction ls with
    | nil => intro ss _ h; cases h; exact ⟨[], [], rfl, ⟨rfl, by simp⟩, ⟨rfl, by simp⟩⟩
    | cons l ls ih =>
      intro ss hls h
      simp only [Res.mapList] at h
      split at h <;> try cases h
      rename_i a ha
      split at h <;> try cases h
      rename_i as has
      obtain ⟨lines, zones, e, q1, q2⟩ := ih as (fun x hx => hls x (by simp [hx])) has
      obtain ⟨x, z, rfl, hx, hz⟩ := bareLine_drawn hm (hls l (by simp)) ha
      refine ⟨x :: lines, z :: zones, by simp [e], ⟨by simp [q1.1], ?_⟩, ⟨by simp [q2.1], ?_⟩⟩
      · intro k a b hka hkb
        cases k with
        | zero => simp only [List.getElem?_cons_zero, Option.some.injEq] at hka hkb; subst hka hkb; exact hx
        | succ k => simp only [List.getElem?_cons_succ] at hka hkb; exact q1.2 k a b hka hkb
      · intro k a b hka hkb
        cases k with
        | zero => simp only [List.getElem?_cons_zero, Option.some.injEq] at hka hkb; subst hka hkb; exact hz
        | succ k => simp only [List.getElem?_cons_succ] at hka hkb; exact q2.2 k a b hka hkb
  obtain ⟨ls, zs, e, q1, q2⟩ := key m.lines lines (fun _ h => h) h1
  refine ⟨ls, zs, things, sectors, by rw [e], q1, q2, ?_, ?_⟩
  · have := mapList_matches h2
    exact ⟨this.1, fun k t s a b => bareThing_drawn (this.2 k t s a b)⟩
  · have := mapList_matches h3
    refine ⟨by rw [this.1]; simp, ?_⟩
    intro k sec s a b
    have hk := (List.getElem?_eq_some_iff.1 a).1
    have hz : ((List.range m.sectors.length).zip m.sectors)[k]? = some (k, sec) := by
      rw [List.getElem?_zip_eq_some]
      exact ⟨by simp [hk], a⟩
    obtain ⟨s', hs', e'⟩ := bareSector_drawn hm (n := k) (sec := sec)
    have : bareSectorShape m fuel (k, sec) = .ok s := this.2 k _ s hz b
    rw [e' fuel hf] at this
    cases this
    exact hs'

/-- Either it succeeds, or it is a debug build and an overflow. -/
def OverflowOnly (pr : Profile) {α : Type} (r : Res α) : Prop := (∃ a, r = .ok a) ∨ (pr = .debug ∧ r = .panic .overflow)

theorem OverflowOnly.bind {pr : Profile} {α β : Type} {r : Res α} {f : α → Res β} (h : OverflowOnly pr r)
    (hf : ∀ a, r = .ok a → OverflowOnly pr (f a)) : OverflowOnly pr (r >>= f) := by
  rcases h with ⟨a, rfl⟩ | ⟨h, rfl⟩
  · exact hf a rfl
  · exact .inr ⟨h, rfl⟩

theorem OverflowOnly.pure {pr : Profile} {α : Type} (a : α) : OverflowOnly pr (Res.ok a) := .inl ⟨a, rfl⟩

theorem OverflowOnly.mapList {pr : Profile} {α β : Type} {f : α → Res β} {l : List α} (hf : ∀ a ∈ l, OverflowOnly pr (f a)) :
    OverflowOnly pr (Res.mapList f l) := by
  induction l with
  | nil => exact .pure _
  | cons x l ih =>
    simp only [Res.mapList]
    rcases hf x (by simp) with ⟨a, h⟩ | ⟨h, h'⟩
    · rcases ih (fun a ha => hf a (by simp [ha])) with ⟨b, h2⟩ | ⟨h2, h2'⟩
      · exact .inl ⟨a :: b, by simp only [h, h2]⟩
      · exact .inr ⟨h2, by simp only [h, h2']⟩
    · exact .inr ⟨h, by simp only [h']⟩

theorem OverflowOnly.arith (pr : Profile) (w : Int) : OverflowOnly pr (i16Arith pr w) := i16Arith_cases pr w

/-- **C71**: drawing a bare map with valid references always comes to an end; it never panics in a release build, and in
a debug build only because of an overflow. -/
theorem C71_bare_total (pr : Profile) (m : BareBinaryMap L T) (hm : m.bin.InRange) :
    ∃ r, (∀ fuel, 2 * m.lines.length + 1 ≤ fuel → bareMapAsSvg pr fuel m = r) ∧
      ((∃ doc, r = .ok doc) ∨ (pr = .debug ∧ r = .panic .overflow)) := by
  choose g hg using fun (n : Nat) (sec : BareSector) => bareSector_drawn hm (n := n) (sec := sec)
  have hs : ∀ fuel, 2 * m.lines.length + 1 ≤ fuel →
      Res.mapList (bareSectorShape m fuel) ((List.range m.sectors.length).zip m.sectors) =
        .ok (((List.range m.sectors.length).zip m.sectors).map fun p => g p.1 p.2) :=
    fun fuel hf => mapList_ok _ fun p _ => (hg p.1 p.2).2 fuel hf
  refine ⟨bareMapAsSvg pr (2 * m.lines.length + 1) m, ?_, ?_⟩
  · intro fuel hf
    unfold bareMapAsSvg
    rw [hs fuel hf, hs _ (le_refl _)]
  · show OverflowOnly pr _
    unfold bareMapAsSvg
    rw [hs _ (le_refl _)]
    refine .bind (.mapList fun l hl => ?_) fun lines _ => .bind (.mapList fun t _ => ?_) fun things _ => ?_
    · unfold bareLineShapes
      have hmem : (⟨(BareBinaryLine.vertexIndices l).1, (BareBinaryLine.vertexIndices l).2, (BareBinaryLine.sideIndices l).1, (BareBinaryLine.sideIndices l).2⟩ : BinLine) ∈ m.bin.lines :=
        List.mem_map.2 ⟨l, hl, rfl⟩
      have r1 : _ ∧ _ < m.vertices.length := hm.starts _ hmem
      have r2 : _ ∧ _ < m.vertices.length := hm.ends _ hmem
      dsimp only at r1 r2
      refine .bind ?_ fun v0 _ => .bind ?_ fun v1 _ => .bind ?_ fun d _ => .pure _
      · rw [i16AsUsize_nonneg r1.1, index_ok (List.getElem?_eq_getElem r1.2)]; exact .pure _
      · rw [i16AsUsize_nonneg r2.1, index_ok (List.getElem?_eq_getElem r2.2)]; exact .pure _
      · unfold bareDilation
        refine .bind (.mapList fun c _ => ?_) fun cs _ => .pure _
        unfold corner
        exact .bind (.arith _ _) fun _ _ => .bind (.arith _ _) fun _ _ => .pure _
    · unfold bareThingShape
      exact .bind (.arith _ _) fun _ _ => .bind (.arith _ _) fun _ _ => .pure _
    · exact .bind (.pure _) fun _ _ => .bind (.arith _ _) fun _ _ => .bind (.arith _ _) fun _ _ => .bind (.arith _ _) fun _ _ => .pure _

theorem bareDilation_fits (pr : Profile) {v0 v1 : BareVertex} (b0 : |v0.x.toInt| ≤ 16000 ∧ |v0.y.toInt| ≤ 16000)
    (b1 : |v1.x.toInt| ≤ 16000 ∧ |v1.y.toInt| ≤ 16000) : ∃ d, bareDilation pr v0 v1 = .ok d := by
  suffices OverflowOnly .release (bareDilation pr v0 v1) by
    rcases this with h | ⟨h, _⟩
    · exact h
    · cases h
  unfold bareDilation
  generalize htb : (if v0.y > v1.y then (v0, v1) else (v1, v0)) = tb
  obtain ⟨top, bottom⟩ := tb
  have ht : (|top.x.toInt| ≤ 16000 ∧ |top.y.toInt| ≤ 16000) ∧ (|bottom.x.toInt| ≤ 16000 ∧ |bottom.y.toInt| ≤ 16000) := by
    split_ifs at htb <;> cases htb
    · exact ⟨b0, b1⟩
    · exact ⟨b1, b0⟩
  dsimp only
  refine .bind (.mapList fun c hc => ?_) fun cs _ => .pure _
  have hc1 : (|c.1.x.toInt| ≤ 16000 ∧ |c.1.y.toInt| ≤ 16000) ∧ |c.2.1| ≤ 1 ∧ |c.2.2| ≤ 1 := by
    revert hc
    split_ifs <;> simp only [List.mem_cons, List.not_mem_nil, or_false] <;>
      rintro (rfl | rfl | rfl | rfl | rfl | rfl) <;> refine ⟨?_, ?_, ?_⟩ <;> first | exact ht.1 | exact ht.2 | norm_num
  obtain ⟨⟨c1, c2⟩, c3, c4⟩ := hc1
  rw [abs_le] at c1 c2 c3 c4
  unfold corner
  rw [i16Arith_fits _ (by omega), Res.bind_ok, i16Arith_fits _ (by omega)]
  exact .pure _

/-- **C65, C71**: no overflow happens in a map within ±16000. -/
theorem C71_bare_succeeds (pr : Profile) (m : BareBinaryMap L T) (hm : m.bin.InRange)
    (hv : ∀ v ∈ m.vertices, |v.x.toInt| ≤ 16000 ∧ |v.y.toInt| ≤ 16000)
    (ht : ∀ t ∈ m.things, |(BareBinaryThing.coords t).1.toInt| ≤ 16000 ∧ |(BareBinaryThing.coords t).2.toInt| ≤ 16000) :
    ∃ doc, ∀ fuel, 2 * m.lines.length + 1 ≤ fuel → bareMapAsSvg pr fuel m = .ok doc := by
  choose g hg using fun (n : Nat) (sec : BareSector) => bareSector_drawn hm (n := n) (sec := sec)
  have hs : ∀ fuel, 2 * m.lines.length + 1 ≤ fuel →
      Res.mapList (bareSectorShape m fuel) ((List.range m.sectors.length).zip m.sectors) =
        .ok (((List.range m.sectors.length).zip m.sectors).map fun p => g p.1 p.2) :=
    fun fuel hf => mapList_ok _ fun p _ => (hg p.1 p.2).2 fuel hf
  have hsq : ∀ {α : Type} (r : Res α), (OverflowOnly .release r) → ∃ a, r = .ok a := by
    rintro α r (h | ⟨h, _⟩)
    · exact h
    · cases h
  -- the coordinates of the extent
  have hbox : ∀ z, (z = (extentOf m).minx ∨ z = (extentOf m).maxx ∨ z = (extentOf m).miny ∨ z = (extentOf m).maxy) → |z.toInt| ≤ 16000 := by
    intro z hz
    by_cases hne : seenPoints m = []
    · unfold seenPoints at hne
      have e1 : m.vertices = [] := by simpa using (List.append_eq_nil_iff.1 hne).1
      have e2 : m.things = [] := by simpa using (List.append_eq_nil_iff.1 hne).2
      have : extentOf m = ⟨0, 0, 0, 0⟩ := by
        unfold extentOf firstPoint; simp [e1, e2]
      rw [this] at hz
      rcases hz with rfl | rfl | rfl | rfl <;> simp
    · have hp : ∀ p ∈ seenPoints m, |p.1| ≤ 16000 ∧ |p.2| ≤ 16000 := by
        intro p hp
        unfold seenPoints at hp
        rcases List.mem_append.1 hp with hp | hp
        · obtain ⟨v, hv', rfl⟩ := List.mem_map.1 hp
          have := hv v hv'
          dsimp only; rw [abs_neg]; exact this
        · obtain ⟨t, ht', rfl⟩ := List.mem_map.1 hp
          have := ht t ht'
          dsimp only; rw [abs_neg]; exact this
      obtain ⟨_, ⟨a, ha, ea⟩, ⟨b, hb, eb⟩, ⟨c, hc, ec⟩, ⟨d, hd, ed⟩⟩ := extentOf_box m hne
      have := hp a ha; have := hp b hb; have := hp c hc; have := hp d hd
      rcases hz with rfl | rfl | rfl | rfl
      · rw [← ea]; tauto
      · rw [← eb]; tauto
      · rw [← abs_neg, ← ed]; tauto
      · rw [← abs_neg, ← ec]; tauto
  have hl : ∃ lines, Res.mapList (bareLineShapes pr m) m.lines = .ok lines := by
    refine ⟨_, mapList_ok _ (g := fun l => match bareLineShapes pr m l with | .ok s => s | _ => []) ?_⟩
    intro l hl
    have hmem : (⟨(BareBinaryLine.vertexIndices l).1, (BareBinaryLine.vertexIndices l).2, (BareBinaryLine.sideIndices l).1, (BareBinaryLine.sideIndices l).2⟩ : BinLine) ∈ m.bin.lines :=
      List.mem_map.2 ⟨l, hl, rfl⟩
    have r1 : _ ∧ _ < m.vertices.length := hm.starts _ hmem
    have r2 : _ ∧ _ < m.vertices.length := hm.ends _ hmem
    dsimp only at r1 r2
    suffices ∃ s, bareLineShapes pr m l = .ok s by obtain ⟨s, hs⟩ := this; rw [hs]
    apply hsq
    unfold bareLineShapes
    rw [i16AsUsize_nonneg r1.1, i16AsUsize_nonneg r2.1, index_ok (List.getElem?_eq_getElem r1.2), Res.bind_ok,
      index_ok (List.getElem?_eq_getElem r2.2), Res.bind_ok]
    have b1 := hv _ (List.getElem_mem r1.2)
    have b2 := hv _ (List.getElem_mem r2.2)
    obtain ⟨d, hd⟩ := bareDilation_fits pr b1 b2
    rw [hd]
    exact .pure _
  have hth : ∃ things, Res.mapList (bareThingShape pr) m.things = .ok things := by
    refine ⟨_, mapList_ok _ (g := fun t => .thing (Int16.ofInt ((BareBinaryThing.coords t).1.toInt - (thingLook (i16AsU32 (BareBinaryThing.doomednum t))).2))
      (Int16.ofInt ((BareBinaryThing.coords t).2.toInt - (thingLook (i16AsU32 (BareBinaryThing.doomednum t))).2))
      ((thingLook (i16AsU32 (BareBinaryThing.doomednum t))).2 * 2) ((thingLook (i16AsU32 (BareBinaryThing.doomednum t))).2 * 2)
      (thingLook (i16AsU32 (BareBinaryThing.doomednum t))).1) ?_⟩
    intro t htm
    have hr : (thingLook (i16AsU32 (BareBinaryThing.doomednum t))).2 ≤ 1000 := by
      rcases thingLook_bare (BareBinaryThing.doomednum t) with ⟨a, ha, _, _, _, e, _⟩ | ⟨_, e, _⟩
      · rw [e]
        exact (by decide +kernel : ∀ a ∈ doom2Actors, a.radius ≤ 1000) a ha
      · rw [e]; omega
    obtain ⟨c1, c2⟩ := ht t htm
    rw [abs_le] at c1 c2
    unfold bareThingShape
    dsimp only
    rw [i16Arith_fits _ (by omega), Res.bind_ok, i16Arith_fits _ (by omega)]
    rfl
  obtain ⟨lines, e1⟩ := hl
  obtain ⟨things, e2⟩ := hth
  have b1 := hbox _ (.inl rfl)
  have b2 := hbox _ (.inr (.inl rfl))
  have b3 := hbox _ (.inr (.inr (.inl rfl)))
  have b4 := hbox _ (.inr (.inr (.inr rfl)))
  rw [abs_le] at b1 b2 b3 b4
  refine ⟨⟨((extentOf m).minx, Int16.ofInt (-(extentOf m).maxy.toInt), Int16.ofInt ((extentOf m).maxx.toInt - (extentOf m).minx.toInt),
    Int16.ofInt ((extentOf m).maxy.toInt - (extentOf m).miny.toInt)), lines.flatten ++ things ++ (((List.range m.sectors.length).zip m.sectors).map fun p => g p.1 p.2)⟩, fun fuel hf => ?_⟩
  unfold bareMapAsSvg
  rw [e1, Res.bind_ok, e2, Res.bind_ok, hs fuel hf, Res.bind_ok]
  show (i16Arith pr (-(extentOf m).maxy.toInt) >>= fun y => i16Arith pr ((extentOf m).maxx.toInt - (extentOf m).minx.toInt) >>= fun width =>
    i16Arith pr ((extentOf m).maxy.toInt - (extentOf m).miny.toInt) >>= fun height => Res.ok _) = _
  rw [i16Arith_fits _ (by omega), Res.bind_ok, i16Arith_fits _ (by omega), Res.bind_ok, i16Arith_fits _ (by omega)]
  rfl

/-! ### Maps that are too wide -/

/-- A map of two vertices and a thing. -/
def wideSample (x : Int16) : BareHexenMap :=
  { vertices := [⟨-x, 0⟩, ⟨x, 64⟩], sectors := [], sides := [], lines := [],
    things := [{ tid := 0, x := 0, y := 128, z := 0, angle := 0, doomednum := 1, flags := 0, special := 0, args := [0, 0, 0, 0, 0] }] }

/-- **C65 is false in general**: a map 40000 wide has a view box of negative width in a release build, and a debug
build panics. -/
theorem C65_too_wide : (bareMapAsSvg .release 9 (wideSample 20000)).map (fun d => (d.viewBox.1.toInt, d.viewBox.2.1.toInt, d.viewBox.2.2.1.toInt, d.viewBox.2.2.2.toInt)) =
      .ok (-20000, -128, -25536, 128) ∧
    bareMapAsSvg .debug 9 (wideSample 20000) = .panic .overflow ∧ (wideSample 20000).bin.InRange := by
  refine ⟨by decide +kernel, by decide +kernel, ⟨by simp [wideSample, BareHexenMap.bin], by simp [wideSample, BareHexenMap.bin], by simp [wideSample, BareHexenMap.bin], by simp [wideSample, BareHexenMap.bin], by simp [wideSample, BareHexenMap.bin]⟩⟩

/-- The hypotheses of C65 and C71 for bare maps are met. -/
theorem C65_hypotheses_met : (∃ doc, bareMapAsSvg .debug 9 wellFormedSample = .ok doc ∧ doc.shapes ≠ []) ∧ wellFormedSample.bin.InRange ∧
    wellFormedSample.vertices ≠ [] ∧ 2 * wellFormedSample.lines.length + 1 ≤ 9 := by
  refine ⟨?_, C43_hypotheses_met.1, by decide, by decide⟩
  have : (bareMapAsSvg .debug 9 wellFormedSample).map (fun d => d.shapes.length) = .ok 6 := by decide +kernel
  obtain ⟨d, h1, h2⟩ := Res.map_eq_ok this
  exact ⟨d, h1, by intro e; rw [e] at h2; cases h2⟩

end Idc
