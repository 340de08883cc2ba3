import Verif.Props.Svg
/-!
# C65, C71 for full maps
-/

namespace Idc

open FloatOps

variable {F : Type} [FloatOps F]

theorem isStep_iff (a b : Sector) : isStep a b = true ↔ CanStep a b := by
  unfold isStep CanStep
  rw [Bool.and_eq_true, decide_eq_true_eq, decide_eq_true_eq]
  constructor
  · rintro ⟨h1, h2⟩
    refine ⟨by rw [abs_le]; omega, ?_⟩
    rintro f c (rfl | rfl) (rfl | rfl) <;> omega
  · rintro ⟨h1, h2⟩
    rw [abs_le] at h1
    have a1 := h2 _ _ (.inl rfl) (.inl rfl)
    have a2 := h2 _ _ (.inl rfl) (.inr rfl)
    have a3 := h2 _ _ (.inr rfl) (.inl rfl)
    have a4 := h2 _ _ (.inr rfl) (.inr rfl)
    omega

/-- What the class "step" stands for. -/
def StepLine (m : FullMap F) (l : Line) : Prop :=
  ∃ f b front back, facing m l.front = some f ∧ facing m l.back = some b ∧
    m.sectors[f]? = some front ∧ m.sectors[b]? = some back ∧ CanStep front back

theorem stepClass_ok {m : FullMap F} (hr : RefsInRange m) (hs : ∀ sd ∈ m.sides, sd.sector < m.sectors.length) {l : Line} (hl : l ∈ m.lines) :
    ∃ cs, stepClass m l = .ok cs ∧ ∀ c, c ∈ cs ↔ c = "step" ∧ StepLine m l := by
  unfold stepClass
  by_cases h2 : l.isTwoSided = true
  · rw [if_pos h2]
    unfold Line.isTwoSided at h2
    rw [Bool.and_eq_true, Option.isSome_iff_exists, Option.isSome_iff_exists] at h2
    obtain ⟨⟨i, hi⟩, j, hj⟩ := h2
    have li := hr.fronts l hl i hi
    have lj := hr.backs l hl j hj
    have si := hs _ (List.getElem_mem li)
    have sj := hs _ (List.getElem_mem lj)
    have e1 : m.lineFront l = .ok (some m.sides[i]) := by
      unfold FullMap.lineFront FullMap.side
      rw [hi]; simp [Res.mapOption, index_ok (List.getElem?_eq_getElem li)]
    have e2 : m.lineBack l = .ok (some m.sides[j]) := by
      unfold FullMap.lineBack FullMap.side
      rw [hj]; simp [Res.mapOption, index_ok (List.getElem?_eq_getElem lj)]
    have e3 : m.sector m.sides[i].sector = .ok m.sectors[m.sides[i].sector] := index_ok (List.getElem?_eq_getElem si)
    have e4 : m.sector m.sides[j].sector = .ok m.sectors[m.sides[j].sector] := index_ok (List.getElem?_eq_getElem sj)
    have e5 : facing m l.front = some m.sides[i].sector := by simp [facing, hi, List.getElem?_eq_getElem li]
    have e6 : facing m l.back = some m.sides[j].sector := by simp [facing, hj, List.getElem?_eq_getElem lj]
    refine ⟨if isStep m.sectors[m.sides[i].sector] m.sectors[m.sides[j].sector] then ["step"] else [], ?_, ?_⟩
    · rw [e1, Res.bind_ok]
      show (Res.ok m.sides[i] >>= _) = _
      rw [Res.bind_ok, e3, Res.bind_ok, e2, Res.bind_ok]
      show (Res.ok m.sides[j] >>= _) = _
      rw [Res.bind_ok, e4, Res.bind_ok]
      rfl
    · intro c
      have : StepLine m l ↔ isStep m.sectors[m.sides[i].sector] m.sectors[m.sides[j].sector] = true := by
        rw [isStep_iff]
        constructor
        · rintro ⟨f, b, front, back, h1, h2, h3, h4, h5⟩
          rw [e5] at h1; rw [e6] at h2
          cases h1; cases h2
          rw [List.getElem?_eq_getElem si] at h3
          rw [List.getElem?_eq_getElem sj] at h4
          cases h3; cases h4
          exact h5
        · exact fun h => ⟨_, _, _, _, e5, e6, List.getElem?_eq_getElem si, List.getElem?_eq_getElem sj, h⟩
      rw [this]
      split_ifs with h <;> simp [h]
  · rw [if_neg h2]
    refine ⟨[], rfl, ?_⟩
    intro c
    simp only [List.not_mem_nil, false_iff, not_and]
    rintro rfl ⟨f, b, front, back, h3, h4, _⟩
    apply h2
    unfold Line.isTwoSided
    rcases hf : l.front with _ | i
    · simp [facing, hf] at h3
    · rcases hb : l.back with _ | j
      · simp [facing, hb] at h4
      · rfl

theorem flag_one (x : UInt32) : (x &&& 1 != 0) = true ↔ x.toNat % 2 = 1 := by
  rw [bne_iff_ne, ne_eq, ← UInt32.toNat_inj, UInt32.toNat_and]
  show ¬ (x.toNat &&& 1) = 0 ↔ _
  rw [Nat.and_one_is_mod]
  omega

theorem lineShape_ok {m : FullMap F} (hr : RefsInRange m) (hs : ∀ sd ∈ m.sides, sd.sector < m.sectors.length) {l : Line} (hl : l ∈ m.lines) :
    ∃ s, lineShape m l = .ok s ∧ LineDrawn m l s := by
  obtain ⟨cs, h1, h2⟩ := stepClass_ok hr hs hl
  have l0 := hr.starts l hl
  have l1 := hr.stops l hl
  unfold lineShape FullMap.lineStart FullMap.lineEnd FullMap.vertex
  rw [index_ok (List.getElem?_eq_getElem l0), Res.bind_ok, index_ok (List.getElem?_eq_getElem l1), Res.bind_ok, h1, Res.bind_ok]
  refine ⟨_, rfl, _, _, _, List.getElem?_eq_getElem l0, List.getElem?_eq_getElem l1, rfl, ?_⟩
  intro c
  have hb : l.blocksPlayer = true ↔ l.flags.toNat % 2 = 1 := flag_one l.flags
  have hsp : l.hasSpecial = true ↔ l.special ≠ 0 := by unfold Line.hasSpecial; simp
  have h2' : c ∈ cs ↔ c = "step" ∧ ∃ f b front back, facing m l.front = some f ∧ facing m l.back = some b ∧
      m.sectors[f]? = some front ∧ m.sectors[b]? = some back ∧ CanStep front back := h2 c
  simp only [List.mem_append]
  rw [h2', ← hb, ← hsp]
  have hside : c ∈ [if (l.front.isNone && l.back.isNone) = true then "zero-sided" else if (l.front.isNone || l.back.isNone) = true then "one-sided" else "two-sided"] ↔
      SidesClass (l.front ≠ none) (l.back ≠ none) c := by
    unfold SidesClass
    cases l.front <;> cases l.back <;> simp
  rw [hside]
  cases l.blocksPlayer <;> cases l.hasSpecial <;> simp [or_assoc]

theorem thing_drawn (t : Thing F) : ThingDrawn t (thingShape t) :=
  ⟨_, _, by unfold thingShape; rw [Nat.mul_comm], thingLook_spec t.doomednum⟩

theorem implicitTag_ok {m : FullMap F} (n : Nat) (ls : List Line) (hb : ∀ l ∈ ls, ∀ h, l.back = some h → h < m.sides.length) :
    ∃ b, implicitTag m n ls = .ok b ∧ (b = true ↔ ∃ l ∈ ls, facing m l.back = some n ∧ l.special ≠ 0 ∧ l.sector_tag.toNat = 0) := by
  induction ls with
  | nil => exact ⟨false, rfl, by simp⟩
  | cons l ls ih =>
    obtain ⟨b, h1, h2⟩ := ih fun x hx => hb x (by simp [hx])
    obtain ⟨back, e1, e2⟩ : ∃ back, m.lineBack l = .ok back ∧ back.map (fun side => side.sector) = facing m l.back := by
      unfold FullMap.lineBack FullMap.side
      rcases hbk : l.back with _ | j
      · exact ⟨none, rfl, rfl⟩
      · have lj := hb l (by simp) j hbk
        exact ⟨some m.sides[j], by simp [Res.mapOption, index_ok (List.getElem?_eq_getElem lj)], by simp [facing, List.getElem?_eq_getElem lj]⟩
    unfold implicitTag
    rw [e1, Res.bind_ok, e2]
    have hc : (facing m l.back == some n && l.hasSpecial && l.sector_tag == 0) = true ↔ facing m l.back = some n ∧ l.special ≠ 0 ∧ l.sector_tag.toNat = 0 := by
      unfold Line.hasSpecial
      have : l.sector_tag = 0 ↔ l.sector_tag.toNat = 0 := by rw [← UInt32.toNat_inj]; rfl
      simp [this, and_assoc]
    split_ifs with h
    · exact ⟨true, rfl, by simpa using Or.inl (hc.1 h)⟩
    · refine ⟨b, h1, ?_⟩
      rw [hc] at h
      rw [h2]
      simp [h]

theorem sectorShape_ok {m : FullMap F} (hr : RefsInRange m) (n : Nat) (sec : Sector) :
    ∃ s, SectorDrawn m n sec s ∧ ∀ fuel, m.lines.length ≤ fuel → sectorShape m fuel (n, sec) = .ok s := by
  obtain ⟨os, ts, h1, h2⟩ := C41_outlines m n hr
  have hlen : (boundary m n).length ≤ m.lines.length := by
    unfold boundary
    rw [List.length_map]
    exact List.length_filter_le _ _
  obtain ⟨b, hb1, hb2⟩ := implicitTag_ok (m := m) n m.lines hr.backs
  have hne : ∀ o ∈ os, o ≠ [] := by
    intro o ho e
    rw [h2.result] at ho
    have := (List.mem_filter.1 ho).2
    subst e
    simp at this
  refine ⟨.sector (os.flatMap fun o => closedPath (o.map fun p => (p.x, p.y))) (if sec.tag != 0 then some (sec.tag.toNat : Int) else none) (some sec.light.toNat)
    (["sector"] ++ (if sec.special == 9 then ["secret"] else []) ++ if b then ["implicit-tag"] else []), ⟨os, ts, _, _, rfl, h2, ?_, ?_⟩, ?_⟩
  · intro k
    have e0 : sec.tag = 0 ↔ sec.tag.toNat = 0 := by rw [← UInt32.toNat_inj]; rfl
    by_cases h0 : sec.tag = 0
    · simp only [h0, bne_self_eq_false, Bool.false_eq_true, if_false, reduceCtorEq, false_iff]
      rintro ⟨a, b⟩
      exact a b.symm
    · simp only [bne_iff_ne, ne_eq, h0, not_false_iff, if_true, Option.some.injEq]
      constructor
      · rintro rfl; exact ⟨by rw [e0] at h0; exact_mod_cast h0, rfl⟩
      · exact fun h => h.2
  · intro c
    have : (sec.special == 9) = true ↔ sec.special.toNat = 9 := by
      rw [beq_iff_eq, ← UInt32.toNat_inj]; rfl
    rw [← this, ← hb2]
    cases sec.special == 9 <;> cases b <;> simp
  · intro fuel hf
    unfold sectorShape
    dsimp only
    rw [h1 fuel (by omega), Res.bind_ok, outlinePath_ok _ (by
      intro o ho
      obtain ⟨o', ho', rfl⟩ := List.mem_map.1 ho
      simpa using hne o' ho'), Res.bind_ok, hb1, Res.bind_ok, List.flatMap_map]
    rfl

theorem matches_of_forall {α β : Type} {l : List α} {R : Nat → α → β → Prop} {g : Nat → α → β} (h : ∀ n a, a ∈ l → R n a (g n a)) :
    Matches l (((List.range l.length).zip l).map fun p => g p.1 p.2) R := by
  refine ⟨by simp, ?_⟩
  intro k x y hx hy
  have hk := (List.getElem?_eq_some_iff.1 hx).1
  have hz : ((List.range l.length).zip l)[k]? = some (k, x) := by
    rw [List.getElem?_zip_eq_some]
    exact ⟨by simp [hk], hx⟩
  rw [List.getElem?_map, hz] at hy
  simp only [Option.map_some, Option.some.injEq] at hy
  subst hy
  exact h k x (List.mem_of_getElem? hx)

/-- **C71**: the chart of a map with valid references is always drawn, whatever the floating-point results; it shows,
in this order, each line, each thing and each sector, as they should be; nothing else. -/
theorem C71_chart (m : FullMap F) (hr : RefsInRange m) (hs : ∀ sd ∈ m.sides, sd.sector < m.sectors.length) :
    ∃ doc, (∀ fuel, m.lines.length ≤ fuel → mapAsSvg fuel m = .ok doc) ∧
      ∃ lines things sectors, doc.shapes = lines ++ things ++ sectors ∧ Matches m.lines lines (fun _ => LineDrawn m) ∧
        Matches m.things things (fun _ => ThingDrawn) ∧ Matches m.sectors sectors (SectorDrawn m) := by
  choose g hg using fun (n : Nat) (sec : Sector) => sectorShape_ok hr n sec
  have hsec : ∀ fuel, m.lines.length ≤ fuel →
      Res.mapList (sectorShape m fuel) ((List.range m.sectors.length).zip m.sectors) =
        .ok (((List.range m.sectors.length).zip m.sectors).map fun p => g p.1 p.2) :=
    fun fuel hf => mapList_ok _ fun p _ => (hg p.1 p.2).2 fuel hf
  have hl : ∃ lines, Res.mapList (lineShape m) m.lines = .ok lines := by
    refine ⟨_, mapList_ok _ (g := fun l => match lineShape m l with | .ok s => s | _ => .dilation []) ?_⟩
    intro l hl
    obtain ⟨s, h, _⟩ := lineShape_ok hr hs hl
    rw [h]
  obtain ⟨lines, hl⟩ := hl
  refine ⟨⟨(m.bbox.x, sub (ofInt 0) m.bbox.maxY, m.bbox.width, m.bbox.height), lines ++ m.things.map thingShape ++ ((List.range m.sectors.length).zip m.sectors).map fun p => g p.1 p.2⟩, ?_,
    _, _, _, rfl, ?_, ?_, ?_⟩
  · intro fuel hf
    unfold mapAsSvg
    rw [hl, Res.bind_ok, hsec fuel hf]
    rfl
  · have := mapList_matches hl
    refine ⟨this.1, ?_⟩
    intro k l s h1 h2
    obtain ⟨s', e, hd⟩ := lineShape_ok hr hs (List.mem_of_getElem? h1)
    have h3 : lineShape m l = .ok s := this.2 k l s h1 h2
    rw [e] at h3; cases h3
    exact hd
  · refine ⟨by simp, ?_⟩
    intro k t s h1 h2
    rw [List.getElem?_map, h1] at h2
    cases h2
    exact thing_drawn t
  · exact matches_of_forall fun n sec _ => (hg n sec).1

theorem mapAsSvg_viewBox {fuel : Nat} {m : FullMap F} {doc : SvgDoc F} (h : mapAsSvg fuel m = .ok doc) :
    doc.viewBox = (m.bbox.x, sub (ofInt 0) m.bbox.maxY, m.bbox.width, m.bbox.height) := by
  unfold mapAsSvg at h
  obtain ⟨_, _, h⟩ := Res.bind_eq_ok h
  obtain ⟨_, _, h⟩ := Res.bind_eq_ok h
  cases h
  rfl

/-- **C65**: the view box of the chart of a full map is the smallest box around its vertices where they are seen. -/
theorem C65_view_box [IntExact F] (b : BareDoomMap) (m : FullMap F) (hm : FullMap.fromBare b = .ok m) (fuel : Nat) (doc : SvgDoc F)
    (h : mapAsSvg fuel m = .ok doc) (hne : b.vertices ≠ []) :
    ∃ x y w ht : Int, SmallestBox x y (x + w) (y + ht) (b.vertices.map fun v => (v.x.toInt, -v.y.toInt)) ∧
      doc.viewBox = (ofInt x, ofInt y, ofInt w, ofInt ht) := by
  obtain ⟨x0, y0, x1, y1, hb, hbb⟩ := C39_bbox b m hm hne
  refine ⟨x0, -y1, x1 - x0, y1 - y0, ?_, ?_⟩
  · have := SmallestBox.seen hb
    rw [List.map_map] at this
    rw [show x0 + (x1 - x0) = x1 by omega, show -y1 + (y1 - y0) = -y0 by omega]
    exact this
  · have hin : ∀ p ∈ (b.vertices.map fun v => (v.x.toInt, v.y.toInt)), -32768 ≤ p.2 ∧ p.2 < 32768 := by
      intro p hp
      obtain ⟨w, _, rfl⟩ := List.mem_map.mp hp
      exact ⟨Int16.le_toInt _, Int16.toInt_lt _⟩
    obtain ⟨p, hp, ep⟩ := hb.bottom
    obtain ⟨q, hq, eq⟩ := hb.top
    have := hin p hp
    have := hin q hq
    rw [mapAsSvg_viewBox h, hbb]
    unfold Rect.maxY
    dsimp only
    rw [IntExact.add_ofInt y0 (y1 - y0) (by rw [abs_le]; omega) (by rw [abs_le]; omega) (by rw [abs_le]; omega),
      IntExact.sub_ofInt 0 (y0 + (y1 - y0)) (by simp) (by rw [abs_le]; omega) (by rw [abs_le]; omega)]
    rw [show (0 : Int) - (y0 + (y1 - y0)) = -y1 by omega]

/-- Two vertices, and a thing far away. -/
def farThing : BareDoomMap where
  vertices := [⟨0, 0⟩, ⟨64, 64⟩]
  sectors := []
  sides := []
  lines := []
  things := [⟨1000, 0, 0, 1, 7⟩]

/-- **C65 is false of things in full maps**: the view box of this chart ends at x = 64, the thing is drawn from 992 on. -/
theorem C65_thing_outside [IntExact F] : ∃ m : FullMap F, FullMap.fromBare farThing = .ok m ∧
    ∃ doc : SvgDoc F, mapAsSvg 0 m = .ok doc ∧ doc.viewBox = (ofInt 0, ofInt (-64), ofInt 64, ofInt 64) ∧
      doc.shapes = [.thing (ofInt 992) (ofInt (-8)) 16 16 "gray"] := by
  refine ⟨_, fromBare_eq _, ?_⟩
  refine ⟨_, rfl, ?_, ?_⟩
  · obtain ⟨x, y, w, ht, hb, e⟩ := C65_view_box farThing _ (fromBare_eq (F := F) _) 0 _ rfl (by decide)
    obtain ⟨h1, h2, h3, h4, h5⟩ := hb
    have a1 := h1 (0, 0) (by decide)
    have a2 := h1 (64, -64) (by decide)
    simp only [farThing, List.map_cons, List.map_nil, List.mem_cons, List.not_mem_nil, or_false, exists_eq_or_imp, exists_eq_left] at h2 h3 h4 h5
    simp only [show (0 : Int16).toInt = 0 from rfl, show (64 : Int16).toInt = 64 from rfl] at h2 h3 h4 h5
    refine e.trans ?_
    have e1 : x = 0 := by omega
    have e2 : y = -64 := by omega
    have e3 : w = 64 := by omega
    have e4 : ht = 64 := by omega
    rw [e1, e2, e3, e4]
  · show [thingShape _] = _
    unfold thingShape
    have e : thingLook (i16AsU32 1) = ("gray", 8) := by decide +kernel
    dsimp only [convThing]
    rw [e]
    have e1 := IntExact.sub_ofInt (F := F) 1000 8 (by norm_num) (by norm_num) (by norm_num)
    have e2 := IntExact.sub_ofInt (F := F) 0 8 (by norm_num) (by norm_num) (by norm_num)
    exact congrArg₂ (fun a b => [SvgShape.thing a b 16 16 "gray"]) e1 e2

/-- **C71**: the colour for player starts is never used: no entry of the table of things is a player start, so they are
drawn like unknown things. -/
theorem C71_no_player_starts : (∀ n, (thingLook n).1 ≠ "green") ∧ ∀ n ∈ [1, 2, 3, 4, 11], thingLook n = ("gray", 8) := by
  refine ⟨fun n => ?_, by decide +kernel⟩
  rcases thingLook_spec n with ⟨a, ha, _, _, _, _, e⟩ | ⟨_, _, e⟩
  · have : a.category ≠ .PlayerStart := (by decide +kernel : ∀ a ∈ doom2Actors, a.category ≠ .PlayerStart) a ha
    rw [e, if_neg this]
    split_ifs <;> decide
  · rw [e]; decide

/-- **C71** for maps read from files: if all references in the records are valid, the chart is drawn. -/
theorem C71_chart_bare (b : BareDoomMap) (hw : WellFormed b) (m : FullMap F) (hm : FullMap.fromBare b = .ok m) :
    ∃ doc, (∀ fuel, b.lines.length ≤ fuel → mapAsSvg fuel m = .ok doc) ∧
      ∃ lines things sectors, doc.shapes = lines ++ things ++ sectors ∧ Matches m.lines lines (fun _ => LineDrawn m) ∧
        Matches m.things things (fun _ => ThingDrawn) ∧ Matches m.sectors sectors (SectorDrawn m) := by
  have hr := refsInRange_of_wellFormed b m hm hw
  have hs : ∀ sd ∈ m.sides, sd.sector < m.sectors.length := by
    rw [fromBare_eq] at hm
    cases hm
    intro sd hsd
    obtain ⟨c, hc, rfl⟩ := List.mem_map.1 hsd
    obtain ⟨h1, h2⟩ := hw.sectors c hc
    simp only [convSide, i16AsUsize_nonneg h1, List.length_map]
    exact h2
  have hl : m.lines.length = b.lines.length := by
    rw [fromBare_eq] at hm
    cases hm
    exact convLines_length 0 _
  rw [← hl]
  exact C71_chart m hr hs

/-- The classes of the lines of the chart of two rooms, and those of the sectors. -/
def exClasses (m : FullMap Rat) : Res (List (List String)) :=
  (mapAsSvg 9 m).map fun d => d.shapes.filterMap fun s => match s with
    | .line _ _ _ _ cs => some cs
    | .sector _ _ _ cs => some cs
    | _ => none

/-- The hypotheses of `C71_chart` are met; a step of 24 is a step, one of 25 is not. -/
theorem C71_hypotheses_met : RefsInRange (exRooms 0 24) ∧ (∀ sd ∈ (exRooms 0 24).sides, sd.sector < (exRooms 0 24).sectors.length) ∧
    exClasses (exRooms 0 24) = .ok (List.replicate 6 ["line", "one-sided"] ++ [["line", "two-sided", "step"], ["sector"], ["sector"]]) ∧
    exClasses (exRooms 1 25) = .ok (List.replicate 6 ["line", "one-sided"] ++ [["line", "two-sided", "blocking"], ["sector"], ["sector"]]) := by
  refine ⟨?_, by decide, by decide +kernel, by decide +kernel⟩
  constructor <;> (intro l hl; simp only [exRooms, exLine, List.mem_cons, List.not_mem_nil, or_false] at hl; rcases hl with rfl | rfl | rfl | rfl | rfl | rfl | rfl <;> simp [exRooms])

end Idc
