import Verif.Spec.Cli
import Verif.Props.WadBetween
import Verif.Props.Archive
import Verif.Props.Texturex
import Verif.Props.Flip
import Verif.Props.SvgFull
/-!
# C72, C74, C75: the commands chart, route and info
-/

namespace Idc

open FloatOps

variable {F : Type} [FloatOps F]

/-! ### chart -/

/-- **C72** `chart` looks at the first map of the WAD only. -/
theorem C72_first_map_only (pr : Profile) (fuel : Nat) (w w' : BareWAD) (h : (parsedMaps w).head?.map (·.2) = (parsedMaps w').head?.map (·.2)) :
    (doChart pr fuel w : Res (Option (Chart F))) = doChart pr fuel w' := by
  unfold parsedMaps at h
  unfold doChart
  rcases hw : w.iterMaps with _ | ⟨r, rs⟩ <;> rcases hw' : w'.iterMaps with _ | ⟨r', rs'⟩ <;> rw [hw, hw'] at h <;>
    simp only [List.map_cons, List.map_nil, List.head?_cons, List.head?_nil, Option.map_some, Option.map_none, Option.some.injEq, reduceCtorEq] at h
  · rfl
  · simp only [chartLoop, h]

/-- The first map decides what `chart` does. -/
theorem doChart_cons {pr : Profile} {fuel : Nat} {w : BareWAD} {name : Bytes} {r : Res BareMap} {rest : List (Bytes × Res BareMap)}
    (h : parsedMaps w = (name, r) :: rest) : ∃ range ranges, w.iterMaps = range :: ranges ∧ parseDoomMap w range = r := by
  unfold parsedMaps at h
  rcases hw : w.iterMaps with _ | ⟨a, as⟩ <;> rw [hw] at h
  · cases h
  · simp only [List.map_cons, List.cons.injEq, Prod.mk.injEq] at h
    exact ⟨a, as, rfl, h.1.2⟩

/-- **C72** If the first map is in Doom format and its references are valid, `chart` saves a drawing of exactly that
map. -/
theorem C72_chart_doom (pr : Profile) (w : BareWAD) (name : Bytes) (b : BareDoomMap) (rest : List (Bytes × Res BareMap))
    (h : parsedMaps w = (name, .ok (.doom b)) :: rest) (hw : WellFormed b) :
    ∃ (m : FullMap F) (doc : SvgDoc F), FullMap.fromBare b = .ok m ∧
      (∀ fuel, b.lines.length ≤ fuel → doChart pr fuel w = .ok (some (.full doc))) ∧
      ∃ lines things sectors, doc.shapes = lines ++ things ++ sectors ∧ Matches m.lines lines (fun _ => LineDrawn m) ∧
        Matches m.things things (fun _ => ThingDrawn) ∧ Matches m.sectors sectors (SectorDrawn m) := by
  obtain ⟨range, ranges, h1, h2⟩ := doChart_cons (pr := pr) (fuel := 0) h
  obtain ⟨doc, hd, hs⟩ := C71_chart_bare (F := F) b hw _ (fromBare_eq b)
  refine ⟨_, doc, fromBare_eq b, ?_, hs⟩
  intro fuel hf
  unfold doChart
  rw [h1, chartLoop, h2, Res.bind_ok]
  dsimp only
  rw [fromBare_eq, Res.bind_ok, hd fuel hf]
  rfl

/-- **C72** If the first map is in Hexen format, its references are valid and its coordinates small, `chart` saves a
drawing of exactly that map. -/
theorem C72_chart_hexen (w : BareWAD) (name : Bytes) (b : BareHexenMap) (rest : List (Bytes × Res BareMap))
    (h : parsedMaps w = (name, .ok (.hexen b)) :: rest) (hw : b.bin.InRange)
    (hv : ∀ v ∈ b.vertices, |v.x.toInt| ≤ 16000 ∧ |v.y.toInt| ≤ 16000)
    (ht : ∀ t ∈ b.things, |t.x.toInt| ≤ 16000 ∧ |t.y.toInt| ≤ 16000) :
    ∃ doc, (∀ pr fuel, 2 * b.lines.length + 1 ≤ fuel → (doChart pr fuel w : Res (Option (Chart F))) = .ok (some (.bare doc))) ∧
      ∃ lines zones things sectors, doc.shapes = (lines.zip zones).flatMap (fun p => [p.1, p.2]) ++ things ++ sectors ∧
        Matches b.lines lines (fun _ => BareLineDrawn b) ∧ Matches b.lines zones (fun _ => BareZoneDrawn b) ∧
        Matches b.things things (fun _ => BareThingDrawn) ∧ Matches b.sectors sectors (fun n => BareSectorDrawn b n) := by
  obtain ⟨range, ranges, h1, h2⟩ := doChart_cons (pr := .debug) (fuel := 0) h
  obtain ⟨doc, hd⟩ := C71_bare_succeeds .debug b hw hv ht
  refine ⟨doc, ?_, C71_bare_shapes _ b hw (le_refl _) doc (hd _ (le_refl _))⟩
  intro pr fuel hf
  have hd' : bareMapAsSvg pr fuel b = .ok doc := by
    cases pr
    · exact hd fuel hf
    · exact C71_bare_release _ _ _ (hd fuel hf)
  unfold doChart
  rw [h1, chartLoop, h2, Res.bind_ok]
  dsimp only
  rw [hd']
  rfl

/-- **C72** If the first map cannot be parsed, `chart` fails in the same way. -/
theorem C72_map_error (pr : Profile) (fuel : Nat) (w : BareWAD) (name : Bytes) (e : ErrorKind) (rest : List (Bytes × Res BareMap))
    (h : parsedMaps w = (name, .err e) :: rest) : (doChart pr fuel w : Res (Option (Chart F))) = .err e := by
  obtain ⟨range, ranges, h1, h2⟩ := doChart_cons (pr := .debug) (fuel := 0) h
  unfold doChart
  rw [h1, chartLoop, h2]
  rfl

/-- **C72** Without maps `chart` saves nothing, and does not fail. -/
theorem C72_no_maps (pr : Profile) (fuel : Nat) (w : BareWAD) (h : parsedMaps w = []) :
    (doChart pr fuel w : Res (Option (Chart F))) = .ok none := by
  unfold parsedMaps at h
  unfold doChart
  rw [List.map_eq_nil_iff.1 h]
  rfl

/-- **C72**, end to end: the chart of a file that stores some maps as a WAD usually does is the drawing of the first. -/
theorem C72_chart_file (pr : Profile) (name : Bytes) (b : BareDoomMap) (rest : List (Bytes × BareDoomMap))
    (hg : ∀ p ∈ (name, b) :: rest, GoodNames p.2) (hn : ∀ p ∈ (name, b) :: rest, (mapNameOf p.1).isSome)
    (hf : FitsWad ((name, b) :: rest)) (hw : WellFormed b) :
    ∃ (w : BareWAD) (m : FullMap F) (doc : SvgDoc F), parseWad (encodeWad .PWAD (allLumps ((name, b) :: rest))) = .ok w ∧
      FullMap.fromBare b = .ok m ∧ (∀ fuel, b.lines.length ≤ fuel → doChart pr fuel w = .ok (some (.full doc))) ∧
      ∃ lines things sectors, doc.shapes = lines ++ things ++ sectors ∧ Matches m.lines lines (fun _ => LineDrawn m) ∧
        Matches m.things things (fun _ => ThingDrawn) ∧ Matches m.sectors sectors (SectorDrawn m) := by
  obtain ⟨w, h1, _, h3, _⟩ := parsedMaps_encode _ hg hn hf
  obtain ⟨m, doc, h4, h5, h6⟩ := C72_chart_doom (F := F) pr w name b _ h3 hw
  exact ⟨w, m, doc, h1, h4, h5, h6⟩

/-- Nothing is found in a directory whose first map is in UDMF format. -/
theorem wadItems_udmf (pre post : List DirEntry) (marker textmap : DirEntry) (hpre : ∀ e ∈ pre, mapNameOf e.name = none)
    (hm : (mapNameOf marker.name).isSome) (ht : textmap.name = str "TEXTMAP") (n : Nat) :
    ∀ b, .map b ∉ wadItems (enumFrom n (pre ++ marker :: textmap :: post)) := by
  induction pre generalizing n with
  | nil =>
    intro b
    rw [wadItems_unfold]
    obtain ⟨name, hname⟩ := Option.isSome_iff_exists.1 hm
    have hloop : ∀ b j rest, (mapLoop mapLumpOrder b j textmap rest).1 = none := by
      intro b j rest
      rw [mapLumpOrder, mapLoop, if_neg (by rw [ht]; decide), if_pos rfl]
    have : (wadNext (enumFrom n (marker :: textmap :: post))).1 = none := by
      simp only [enumFrom, wadNext, hname]
      split
      · rename_i heq
        have := hloop (if textmap.name = str "TEXTMAP" then
          { ({ format := .Doom, name := name, marker_index := n, last_index := n } : MapEntryBlock) with format := .UDMF }
          else { format := .Doom, name := name, marker_index := n, last_index := n }) (n + 1) (enumFrom (n + 1 + 1) post)
        rw [heq] at this
        cases this
      · rfl
    rcases hx : wadNext (enumFrom n (marker :: textmap :: post)) with ⟨a, t⟩
    rw [hx] at this
    cases this
    rw [List.nil_append, hx]
    simp
  | cons e es ih =>
    intro b
    rw [wadItems_unfold]
    have hn := hpre e (by simp)
    have ih := ih (fun e he => hpre e (by simp [he])) (n + 1) b
    simp only [List.cons_append, enumFrom, wadNext, hn]
    split
    · rename_i heq
      split at heq
      · cases heq; simpa using ih
      · split at heq <;> (cases heq; simpa using ih)
    · simp

/-- **C72** If the first map is in UDMF format, `chart` saves nothing, and does not fail, whatever else is in the WAD. -/
theorem C72_udmf_ignored (pr : Profile) (fuel : Nat) (w : BareWAD) (pre post : List DirEntry) (marker textmap : DirEntry)
    (hw : w.directory = pre ++ marker :: textmap :: post) (hpre : ∀ e ∈ pre, mapNameOf e.name = none)
    (hm : (mapNameOf marker.name).isSome) (ht : textmap.name = str "TEXTMAP") :
    (doChart pr fuel w : Res (Option (Chart F))) = .ok none := by
  apply C72_no_maps
  have : w.iterMaps = [] := by
    rw [List.eq_nil_iff_forall_not_mem]
    intro b hb
    rw [mem_iterMaps, BareWAD.items, hw] at hb
    exact wadItems_udmf pre post marker textmap hpre hm ht 0 b hb
  unfold parsedMaps
  rw [this]
  rfl

/-! ### route -/

theorem routeSkips_iff (n : MapName) : routeSkips n = true ↔ LowMap n := by
  unfold routeSkips LowMap
  rcases n with ⟨e, m⟩ | k
  · simp
  · simp only [decide_eq_true_eq, MapName.MAPxx.injEq]
    constructor
    · intro h
      exact ⟨k.toNat, UInt8.lt_iff_toNat_lt.1 h, by simp⟩
    · rintro ⟨j, hj, rfl⟩
      rw [UInt8.lt_iff_toNat_lt]
      simp only [UInt8.toNat_ofNat', UInt8.toNat_ofNat]
      omega

theorem routeLoop_low (lib : Lib) (fuel : Nat) (w : BareWAD) (low rest : List MapEntryBlock) (h : ∀ r ∈ low, LowMap r.name) :
    (routeLoop lib fuel w (low ++ rest) : Res (Option (RouteDoc F))) = routeLoop lib fuel w rest := by
  induction low with
  | nil => rfl
  | cons r rs ih =>
    rw [List.cons_append, routeLoop, if_pos ((routeSkips_iff _).2 (h r (by simp)))]
    exact ih fun r hr => h r (by simp [hr])

/-- **C74** `route` works on the first map that is not one of MAP00 to MAP14, if that is a Doom map. -/
theorem C74_route_doom (lib : Lib) (fuel : Nat) (w : BareWAD) (low : List MapEntryBlock) (r : MapEntryBlock) (rest : List MapEntryBlock)
    (hw : w.iterMaps = low ++ r :: rest) (hlow : ∀ r ∈ low, LowMap r.name) (hr : ¬ LowMap r.name) (b : BareDoomMap)
    (hb : parseDoomMap w r = .ok (.doom b)) (m : FullMap F) (hm : FullMap.fromBare b = .ok m) :
    doRoute lib fuel w = (routeMapAsSvg lib fuel m).map some := by
  unfold doRoute
  rw [hw, routeLoop_low _ _ _ _ _ hlow, routeLoop, if_neg (by rw [routeSkips_iff]; exact hr), hb, Res.bind_ok]
  dsimp only
  rw [hm, Res.bind_ok]
  cases routeMapAsSvg lib fuel m <;> rfl

theorem marker_mapName (w : BareWAD) (r : MapEntryBlock) (h : r ∈ w.iterMaps) : mapNameOf (markerName w r) = some r.name := by
  obtain ⟨e, he, hn⟩ := (C12_block_contiguous w r h).1
  unfold markerName
  rw [he]
  exact hn

/-- **C74**, end to end: what `route` does with a file that stores some maps as a WAD usually does is decided by the first
that is not one of MAP00 to MAP14. -/
theorem C74_route_file (lib : Lib) (fuel : Nat) (low : List (Bytes × BareDoomMap)) (name : Bytes) (b : BareDoomMap)
    (rest : List (Bytes × BareDoomMap)) (hg : ∀ p ∈ low ++ (name, b) :: rest, GoodNames p.2)
    (hn : ∀ p ∈ low ++ (name, b) :: rest, (mapNameOf p.1).isSome) (hf : FitsWad (low ++ (name, b) :: rest))
    (hlow : ∀ p ∈ low, ∃ n, mapNameOf p.1 = some n ∧ LowMap n) (hhigh : ∀ n, mapNameOf name = some n → ¬ LowMap n) :
    ∃ (w : BareWAD) (m : FullMap F), parseWad (encodeWad .PWAD (allLumps (low ++ (name, b) :: rest))) = .ok w ∧
      FullMap.fromBare b = .ok m ∧ doRoute lib fuel w = (routeMapAsSvg lib fuel m).map some := by
  obtain ⟨w, h1, _, h3, _⟩ := parsedMaps_encode _ hg hn hf
  refine ⟨w, _, h1, fromBare_eq b, ?_⟩
  unfold parsedMaps at h3
  rw [List.map_append, List.map_cons] at h3
  obtain ⟨rs, rs', hrs, h4, h5⟩ := List.map_eq_append_iff.1 h3
  obtain ⟨r, rs'', rfl, h6, _⟩ := List.map_eq_cons_iff.1 h5
  simp only [Prod.mk.injEq] at h6
  refine C74_route_doom lib fuel w rs r rs'' hrs ?_ ?_ b h6.2 _ (fromBare_eq b)
  · intro x hx
    have hmem : (markerName w x, parseDoomMap w x) ∈ low.map fun p => (p.1, (.ok (.doom p.2) : Res BareMap)) := by
      rw [← h4]; exact List.mem_map_of_mem hx
    obtain ⟨p, hp, e⟩ := List.mem_map.1 hmem
    obtain ⟨n, hn1, hn2⟩ := hlow p hp
    have := marker_mapName w x (by rw [hrs]; simp [hx])
    rw [← (Prod.mk.inj e).1, hn1] at this
    cases this
    exact hn2
  · refine hhigh _ ?_
    rw [← h6.1]
    exact marker_mapName w r (by rw [hrs]; simp)

/-- **C74** If that map is in Hexen format nothing is saved, even if there are Doom maps further on. -/
theorem C74_route_hexen (lib : Lib) (fuel : Nat) (w : BareWAD) (low : List MapEntryBlock) (r : MapEntryBlock) (rest : List MapEntryBlock)
    (hw : w.iterMaps = low ++ r :: rest) (hlow : ∀ r ∈ low, LowMap r.name) (hr : ¬ LowMap r.name) (b : BareHexenMap)
    (hb : parseDoomMap w r = .ok (.hexen b)) : (doRoute lib fuel w : Res (Option (RouteDoc F))) = .ok none := by
  unfold doRoute
  rw [hw, routeLoop_low _ _ _ _ _ hlow, routeLoop, if_neg (by rw [routeSkips_iff]; exact hr), hb, Res.bind_ok]
  rfl

/-- **C74** If that map cannot be parsed, `route` fails in the same way. -/
theorem C74_map_error (lib : Lib) (fuel : Nat) (w : BareWAD) (low : List MapEntryBlock) (r : MapEntryBlock) (rest : List MapEntryBlock)
    (hw : w.iterMaps = low ++ r :: rest) (hlow : ∀ r ∈ low, LowMap r.name) (hr : ¬ LowMap r.name) (e : ErrorKind)
    (hb : parseDoomMap w r = .err e) : (doRoute lib fuel w : Res (Option (RouteDoc F))) = .err e := by
  unfold doRoute
  rw [hw, routeLoop_low _ _ _ _ _ hlow, routeLoop, if_neg (by rw [routeSkips_iff]; exact hr), hb]
  rfl

/-- **C74** If all maps are among MAP00 to MAP14, `route` saves nothing, and does not fail: not even if they cannot be
parsed. -/
theorem C74_low_maps_ignored (lib : Lib) (fuel : Nat) (w : BareWAD) (h : ∀ r ∈ w.iterMaps, LowMap r.name) :
    (doRoute lib fuel w : Res (Option (RouteDoc F))) = .ok none := by
  unfold doRoute
  rw [← List.append_nil w.iterMaps, routeLoop_low _ _ _ _ _ h]
  rfl

/-! ### info -/

/-- The lines printed for an item that can be parsed. -/
theorem infoItems_cons {w : BareWAD} {x : WADItem} {item : Item} (h : ItemCopy w x item) (items : List Item) (k : Printed) :
    (∃ ls, ItemPrinted w x ls ∧ infoItems F (item :: items) k = .after ls (infoItems F items k)) ∨
    (∃ r, x = .map r ∧ (∀ m, parseDoomMap w r ≠ .ok m) ∧ infoItems F (item :: items) k = ⟨[], (parseDoomMap w r).map fun _ => ()⟩) := by
  rcases x with r | ⟨_, _⟩ | ⟨_, _⟩ | ⟨i, e0⟩ <;> rcases item with b | e <;> simp only [ItemCopy] at h
  · have hp := routes_agree h
    simp only [infoItems, ← hp]
    rcases hq : parseDoomMap w r with (m | m) | _ | _ | _
    · refine .inl ⟨_, .inl ⟨m, hq, rfl⟩, ?_⟩
      simp only [Printed.bind, fromBare_eq, h.name]
    · refine .inl ⟨_, .inr ⟨m, hq, rfl⟩, ?_⟩
      simp only [Printed.bind, h.name]
    all_goals exact .inr ⟨r, rfl, by simp [hq], by rw [hq]; rfl⟩
  · obtain ⟨⟨d, h1, h2⟩, _⟩ := h
    exact .inl ⟨_, ⟨d, h1, rfl⟩, by rw [infoItems, h2]⟩

theorem Printed.after_append (a b : List InfoLine) (k : Printed) : Printed.after a (.after b k) = .after (a ++ b) k := by
  simp [Printed.after]

/-- All items: either all are printed, or it ends at the first map that cannot be parsed. -/
theorem infoItems_spec {w : BareWAD} (xs : List WADItem) (items : List Item) (h : Pairs (ItemCopy w) xs items) (k : Printed) :
    (∃ lss, Pairs (ItemPrinted w) xs lss ∧ infoItems F items k = .after lss.flatten k) ∨
    (∃ pre r post lss, xs = pre ++ .map r :: post ∧ Pairs (ItemPrinted w) pre lss ∧ (∀ m, parseDoomMap w r ≠ .ok m) ∧
      infoItems F items k = ⟨lss.flatten, (parseDoomMap w r).map fun _ => ()⟩) := by
  induction xs generalizing items with
  | nil =>
    rcases items with _ | ⟨_, _⟩
    · exact .inl ⟨[], trivial, by simp [infoItems, Printed.after]⟩
    · cases h
  | cons x xs ih =>
    rcases items with _ | ⟨item, items⟩
    · cases h
    obtain ⟨h1, h2⟩ := h
    rcases infoItems_cons (F := F) h1 items k with ⟨ls, h3, h4⟩ | ⟨r, rfl, h3, h4⟩
    · rcases ih items h2 with ⟨lss, h5, h6⟩ | ⟨pre, r, post, lss, rfl, h5, h6, h7⟩
      · exact .inl ⟨ls :: lss, ⟨h3, h5⟩, by rw [h4, h6, Printed.after_append, List.flatten_cons]⟩
      · exact .inr ⟨x :: pre, r, post, ls :: lss, rfl, ⟨h3, h5⟩, h6, by rw [h4, h7]; rfl⟩
    · exact .inr ⟨[], r, xs, [], rfl, trivial, h3, h4⟩

theorem firstEntry_ok {w : BareWAD} {name : Bytes} {o : Option Bytes} (h : w.firstEntry name = .ok o) :
    (o = none ∧ ∀ e ∈ w.directory, e.name ≠ name) ∨ ∃ b i, o = some b ∧ FirstNamed w name i ∧ LumpIs w i b := by
  by_cases hn : ∀ e ∈ w.directory, e.name ≠ name
  · rw [(C07_firstEntry_none w name).2 hn] at h
    cases h
    exact .inl ⟨rfl, hn⟩
  · rcases hf : w.directory.find? (fun entry => entry.name == name) with _ | e
    · exact absurd (fun e he => by simpa using List.find?_eq_none.mp hf e he) hn
    · obtain ⟨h1, i, hi, h2, h3⟩ := List.find?_eq_some_iff_getElem.1 hf
      have hfirst : FirstNamed w name i := by
        refine ⟨⟨e, by rw [List.getElem?_eq_getElem hi, h2], by simpa using h1⟩, ?_⟩
        intro j hj e' he'
        obtain ⟨hj', rfl⟩ := List.getElem?_eq_some_iff.1 he'
        simpa using h3 j hj
      obtain ⟨e', he', hname⟩ := hfirst.1
      rw [C07_firstEntry_some w name i e' he' hname (fun j e'' hj hje => hfirst.2 j hj e'' hje)] at h
      by_cases hl : ∃ d, LumpIs w i d
      · obtain ⟨d, hd⟩ := hl
        rw [entrySlice_ok hd] at h
        cases h
        exact .inr ⟨d, i, rfl, hfirst, hd⟩
      · rw [entrySlice_panic hl] at h
        cases h

theorem FirstNamed.unique {w : BareWAD} {name : Bytes} {i j : Nat} (hi : FirstNamed w name i) (hj : FirstNamed w name j) : i = j := by
  obtain ⟨⟨e, h1, h2⟩, h3⟩ := hi
  obtain ⟨⟨e', h1', h2'⟩, h3'⟩ := hj
  rcases Nat.lt_trichotomy i j with h | h | h
  · exact absurd h2 (h3' i h e h1)
  · exact h
  · exact absurd h2' (h3 j h e' h1')

theorem FirstNamed.mem {w : BareWAD} {name : Bytes} {i : Nat} (hi : FirstNamed w name i) : ∃ e ∈ w.directory, e.name = name := by
  obtain ⟨⟨e, h1, h2⟩, _⟩ := hi
  exact ⟨e, List.mem_of_getElem? h1, h2⟩

theorem TextureLump.unique {w : BareWAD} {b b' : Bytes} (h : TextureLump w b) (h' : TextureLump w b') : b = b' := by
  rcases h with ⟨i, h1, h2⟩ | ⟨h0, i, h1, h2⟩ <;> rcases h' with ⟨j, h3, h4⟩ | ⟨h0', j, h3, h4⟩
  · rw [h1.unique h3] at h2
    exact lumpIs_unique h2 h4
  · obtain ⟨e, he, hn⟩ := h1.mem
    exact absurd hn (h0' e he)
  · obtain ⟨e, he, hn⟩ := h3.mem
    exact absurd hn (h0 e he)
  · rw [h1.unique h3] at h2
    exact lumpIs_unique h2 h4

theorem lumpIs_length {w : BareWAD} {i : Nat} {d : Bytes} (h : LumpIs w i d) : d.length < 2 ^ 63 := by
  obtain ⟨e, _, _, h⟩ := h
  have := h.1
  have := e.size.toNat_lt
  omega

/-- The textures found. -/
theorem infoTextures_ok {w : BareWAD} {es : List TEXTURExEntry} (h : infoTextures w = .ok es) (n : Bytes) :
    n ∈ es.map (fun e => e.name) ↔ ∃ b, TextureLump w b ∧ ∃ k, k < texCount b ∧ (texAt b k).name = n := by
  unfold infoTextures at h
  obtain ⟨one, h1, h⟩ := Res.bind_eq_ok h
  obtain ⟨two, h2, h⟩ := Res.bind_eq_ok h
  have key : ∀ b, TextureLump w b → b.length < 2 ^ 63 → parseTexturexNames b = .ok es →
      (n ∈ es.map (fun e => e.name) ↔ ∃ b, TextureLump w b ∧ ∃ k, k < texCount b ∧ (texAt b k).name = n) := by
    intro b hb hlen hp
    obtain ⟨_, _, rfl⟩ := (C29_ok_iff hlen es).1 hp
    constructor
    · intro hn
      simp only [List.map_map, List.mem_map, List.mem_range, Function.comp] at hn
      exact ⟨b, hb, hn⟩
    · rintro ⟨b', hb', k, hk, hn⟩
      rw [← hb.unique hb'] at hk hn
      simp only [List.map_map, List.mem_map, List.mem_range, Function.comp]
      exact ⟨k, hk, hn⟩
  rcases firstEntry_ok h1 with ⟨rfl, hno⟩ | ⟨b, i, rfl, hi, hb⟩
  · rcases firstEntry_ok h2 with ⟨rfl, hno2⟩ | ⟨b, i, rfl, hi, hb⟩
    · cases h
      simp only [List.map_nil, List.not_mem_nil, false_iff]
      rintro ⟨b, ⟨i, h1, _⟩ | ⟨_, i, h1, _⟩, _⟩
      · obtain ⟨e, he, hn⟩ := h1.mem
        exact hno e he hn
      · obtain ⟨e, he, hn⟩ := h1.mem
        exact hno2 e he hn
    · exact key b (.inr ⟨hno, i, hi, hb⟩) (lumpIs_length hb) h
  · exact key b (.inl ⟨i, hi, hb⟩) (lumpIs_length hb) h

/-- The flats found. -/
theorem flats_ok {w : BareWAD} {es : List WADEntry} (h : w.iterEntriesBetween (str "F_START") (str "F_END") = .ok es) :
    FlatsListed w (es.map fun e => e.name) := by
  obtain ⟨is, h1, h2, h3⟩ := C08_iterEntriesBetween w (str "F_START") (str "F_END") (by decide)
  refine ⟨is, h1, h2, ?_⟩
  rw [h3] at h
  clear h1 h2 h3
  induction is generalizing es with
  | nil => cases h; rfl
  | cons i is ih =>
    simp only [Res.mapList] at h
    split at h <;> try cases h
    rename_i e he
    split at h <;> try cases h
    rename_i es' hes
    simp only [List.map_cons, List.cons.injEq]
    refine ⟨?_, ih hes⟩
    unfold lumpOf at he
    obtain ⟨d, hd, he⟩ := Res.bind_eq_ok he
    obtain ⟨x, _, he⟩ := Res.bind_eq_ok he
    cases he
    rw [index_eq_ok hd]
    rfl

theorem infoRest_ok {order : List Bytes → List Bytes} (horder : ∀ l, (order l).Perm l) {w : BareWAD} {lines : List InfoLine}
    (h : infoRest order w = ⟨lines, .ok ()⟩) :
    ∃ (flats textures : List Bytes), lines = flats.map .flat ++ [.rule] ++ textures.map .texture ∧ FlatsListed w flats ∧
      TexturesListed w textures := by
  unfold infoRest at h
  rcases hfl : w.iterEntriesBetween (str "F_START") (str "F_END") with flats | _ | _ | _ <;> rw [hfl] at h <;>
    simp only [Printed.after, Printed.bind, Printed.mk.injEq, reduceCtorEq, and_false] at h
  rcases htex : infoTextures w with es | _ | _ | _ <;> rw [htex] at h <;>
    simp only [reduceCtorEq, and_false, and_true, List.append_nil] at h
  refine ⟨_, order ((es.map fun entry => entry.name).dedup.filter fun name => decide (name ∉ doom2Textures.map str)), ?_, flats_ok hfl, ?_⟩
  · rw [← h]
    simp
  · have hperm := horder ((es.map fun entry => entry.name).dedup.filter fun name => decide (name ∉ doom2Textures.map str))
    refine ⟨hperm.nodup_iff.2 ((List.nodup_dedup _).filter _), ?_⟩
    intro n
    rw [hperm.mem_iff, List.mem_filter, List.mem_dedup, infoTextures_ok htex]
    simp only [decide_eq_true_eq, List.mem_map, not_exists, not_and]
    constructor
    · rintro ⟨h1, h2⟩
      exact ⟨h1, fun s hs e => h2 s hs e.symm⟩
    · rintro ⟨h1, h2⟩
      exact ⟨h1, fun s hs e => h2 s hs e.symm⟩

/-- **C75** What `info` prints when it succeeds: about the WAD; about every map and lump except markers, in order; the
names of the flats; and the names of the textures that are not stock. -/
theorem C75_prints (order : List Bytes → List Bytes) (horder : ∀ l, (order l).Perm l) (w : BareWAD) (lines : List InfoLine)
    (h : doInfo F order w = ⟨lines, .ok ()⟩) :
    ∃ (items : List (List InfoLine)) (flats textures : List Bytes),
      lines = [.identification w.header.identification, .found w.header.identification w.header.numlumps w.header.infotableofs] ++
        items.flatten ++ (flats.map .flat ++ [.rule] ++ textures.map .texture) ∧
      Pairs (ItemPrinted w) w.copiedItems items ∧ FlatsListed w flats ∧ TexturesListed w textures := by
  unfold doInfo at h
  rcases ha : WADArchive.fromBare w with a | _ | _ | _ <;> rw [ha] at h <;>
    simp only [Printed.after, Printed.bind, Printed.mk.injEq, reduceCtorEq, and_false] at h
  obtain ⟨h0, h⟩ := h
  rcases infoItems_spec (F := F) _ _ (archive_copies ha).2 (infoRest order w) with ⟨items, h1, h2⟩ | ⟨pre, r, post, items, h1, h2, h3, h4⟩
  · rw [h2] at h h0
    obtain ⟨flats, textures, e, h5, h6⟩ := infoRest_ok (lines := (infoRest order w).lines) horder (by
      rw [← show (infoRest order w).outcome = .ok () from h])
    refine ⟨items, flats, textures, ?_, h1, h5, h6⟩
    rw [← h0, ← e]
    simp [Printed.after]
  · rw [h4] at h
    dsimp only at h
    rcases hq : parseDoomMap w r with m | _ | _ | _ <;> rw [hq] at h
    · exact absurd hq (h3 m)
    all_goals cases h

/-- **C75** If a map cannot be parsed, `info` fails in the same way, after having printed about the maps and lumps before
the first such map. -/
theorem C75_map_error (order : List Bytes → List Bytes) (w : BareWAD) (a : WADArchive) (ha : WADArchive.fromBare w = .ok a)
    (pre : List WADItem) (r : MapEntryBlock) (post : List WADItem) (hw : w.copiedItems = pre ++ .map r :: post)
    (hpre : ∀ q, .map q ∈ pre → ∃ m, parseDoomMap w q = .ok m) (e : ErrorKind) (he : parseDoomMap w r = .err e) :
    ∃ items, Pairs (ItemPrinted w) pre items ∧ doInfo F order w = ⟨[.identification w.header.identification,
      .found w.header.identification w.header.numlumps w.header.infotableofs] ++ items.flatten, .err e⟩ := by
  have hsplit : ∀ (post pre : List WADItem) (items : List (List InfoLine)), Pairs (ItemPrinted w) (pre ++ .map r :: post) items → False := by
    intro post pre
    induction pre with
    | nil =>
      rintro (_ | ⟨l, ls⟩) h
      · cases h
      · obtain ⟨⟨m, h, _⟩ | ⟨m, h, _⟩, _⟩ := h <;> (rw [he] at h; cases h)
    | cons x xs ih =>
      rintro (_ | ⟨l, ls⟩) h
      · cases h
      · exact ih ls h.2
  unfold doInfo
  rw [ha]
  rcases infoItems_spec (F := F) _ _ (archive_copies ha).2 (infoRest order w) with ⟨items, h1, h2⟩ | ⟨pre', r', post', items, h1, h2, h3, h4⟩
  · rw [hw] at h1
    exact (hsplit _ _ _ h1).elim
  · have hp : pre' = pre ∧ r' = r := by
      rw [hw] at h1
      rcases List.append_eq_append_iff.1 h1 with ⟨l, e1, e2⟩ | ⟨l, e1, e2⟩
      · rcases l with _ | ⟨x, l⟩
        · simp only [List.nil_append, List.cons.injEq, WADItem.map.injEq] at e2
          exact ⟨by simpa using e1, e2.1.symm⟩
        · simp only [List.cons_append, List.cons.injEq] at e2
          rw [e1, ← e2.1] at h2
          exact (hsplit _ _ _ h2).elim
      · rcases l with _ | ⟨x, l⟩
        · simp only [List.nil_append, List.cons.injEq, WADItem.map.injEq] at e2
          exact ⟨by simpa using e1.symm, e2.1⟩
        · simp only [List.cons_append, List.cons.injEq] at e2
          obtain ⟨m, hm⟩ := hpre r' (by rw [e1, ← e2.1]; simp)
          exact absurd hm (h3 m)
    obtain ⟨rfl, rfl⟩ := hp
    refine ⟨items, h2, ?_⟩
    rw [show Printed.bind (.ok a) (fun archive => infoItems F archive.contents (infoRest order w)) = infoItems F a.contents (infoRest order w) from rfl, h4, he]
    rfl

/-- **C75** `info` succeeds if every lump is inside the file, every map can be parsed and the lump that tells the textures
is valid. -/
theorem C75_succeeds (order : List Bytes → List Bytes) (w : BareWAD)
    (hin : ∀ e ∈ w.directory, e.filepos.toNat + e.size.toNat ≤ w.buffer.length)
    (hmaps : ∀ p ∈ parsedMaps w, ∃ m, p.2 = .ok m)
    (htex : ∀ b, TextureLump w b → TexHeaderFits b ∧ ∀ k, k < texCount b → TexOk b k) :
    (doInfo F order w).outcome = .ok () := by
  have hlump : ∀ i, i < w.directory.length → ∃ d, LumpIs w i d := by
    intro i hi
    obtain ⟨d, _, hd⟩ := (C06_entrySlice w i).1 _ (List.getElem?_eq_getElem hi) (hin _ (List.getElem_mem hi))
    exact ⟨d, _, List.getElem?_eq_getElem hi, hin _ (List.getElem_mem hi), hd⟩
  have hspan : ∀ x ∈ w.copiedItems, ∀ i ∈ x.span, ∃ d, LumpIs w i d := by
    intro x hx i hi
    apply hlump
    obtain ⟨c, hc, h2, _⟩ := items_spec w
    have : i ∈ w.items.flatMap WADItem.span := List.mem_flatMap.2 ⟨x, (List.mem_filter.1 hx).1, hi⟩
    rw [h2, List.mem_range] at this
    omega
  obtain ⟨a, ha, _, hcopy⟩ := C19_archive_ok w hspan
  have hfirst : ∀ name, ∃ o, w.firstEntry name = .ok o := by
    intro name
    unfold BareWAD.firstEntry
    rcases hf : w.directory.find? (fun entry => entry.name == name) with _ | e <;> rw [hf]
    · exact ⟨_, rfl⟩
    · have he := List.mem_of_find?_eq_some hf
      obtain ⟨d, hd, _⟩ := (C06_extractSlice e w.buffer).1 (hin e he)
      simp only [Res.mapOption]
      unfold DirEntry.extractSlice at hd
      rw [hd]
      exact ⟨_, rfl⟩
  have htext : ∃ es, infoTextures w = .ok es := by
    unfold infoTextures
    obtain ⟨one, h1⟩ := hfirst (str "TEXTURE1")
    obtain ⟨two, h2⟩ := hfirst (str "TEXTURE2")
    rw [h1, h2]
    simp only [Res.bind_ok]
    rcases firstEntry_ok h1 with ⟨rfl, hno⟩ | ⟨b, i, rfl, hi, hb⟩
    · rcases firstEntry_ok h2 with ⟨rfl, hno2⟩ | ⟨b, i, rfl, hi, hb⟩
      · exact ⟨_, rfl⟩
      · have := htex b (.inr ⟨hno, i, hi, hb⟩)
        exact ⟨_, C29_ok this.1 this.2⟩
    · have := htex b (.inl ⟨i, hi, hb⟩)
      exact ⟨_, C29_ok this.1 this.2⟩
  obtain ⟨es, hes⟩ := htext
  have hflats : ∃ fs, w.iterEntriesBetween (str "F_START") (str "F_END") = .ok fs := by
    obtain ⟨is, _, h2, h3⟩ := C08_iterEntriesBetween w (str "F_START") (str "F_END") (by decide)
    rw [h3]
    have : ∀ i ∈ is, ∃ e, lumpOf w i = .ok e := by
      intro i hi
      obtain ⟨_, e, he, _⟩ := (h2 i).1 hi
      obtain ⟨d, hd, _⟩ := (C06_extractSlice e w.buffer).1 (hin e (List.mem_of_getElem? he))
      unfold DirEntry.extractSlice at hd
      unfold lumpOf index
      rw [he]
      simp only [Res.bind_ok]
      rw [hd]
      exact ⟨_, rfl⟩
    have : Nonempty WADEntry := ⟨⟨[], []⟩⟩
    choose! g hg using ‹∀ i ∈ is, ∃ e, lumpOf w i = .ok e›
    exact ⟨_, mapList_ok _ (g := g) hg⟩
  obtain ⟨fs, hfs⟩ := hflats
  unfold doInfo
  rw [ha]
  show (infoItems F a.contents (infoRest order w)).outcome = .ok ()
  rcases infoItems_spec (F := F) _ _ hcopy (infoRest order w) with ⟨items, h1, h2⟩ | ⟨pre, r, post, items, h1, h2, h3, h4⟩
  · rw [h2]
    show (infoRest order w).outcome = .ok ()
    unfold infoRest
    rw [hfs, hes]
    rfl
  · exfalso
    have hr : r ∈ w.iterMaps := by
      rw [mem_iterMaps]
      have : WADItem.map r ∈ w.copiedItems := by rw [h1]; simp
      exact (List.mem_filter.1 this).1
    obtain ⟨m, hm⟩ := hmaps (markerName w r, parseDoomMap w r) (List.mem_map.2 ⟨r, hr, rfl⟩)
    exact h3 m hm

/-- **C75** `info` panics on a WAD with a lump that is not inside the file, having printed only the header. -/
theorem C75_panics (order : List Bytes → List Bytes) (w : BareWAD) (x : WADItem) (hx : x ∈ w.copiedItems) (i : Nat) (hi : i ∈ x.span)
    (hn : ¬ ∃ d, LumpIs w i d) : doInfo F order w = ⟨[.identification w.header.identification,
      .found w.header.identification w.header.numlumps w.header.infotableofs], .panic .bounds⟩ := by
  unfold doInfo
  rw [C19_archive_panic w x hx i hi hn]
  rfl

/-- **C75** TEXTURE2 is ignored if there is a TEXTURE1: its textures are listed only if TEXTURE1 has them too. -/
theorem C75_texture2_ignored (order : List Bytes → List Bytes) (horder : ∀ l, (order l).Perm l) (w : BareWAD) (lines : List InfoLine)
    (h : doInfo F order w = ⟨lines, .ok ()⟩) (i : Nat) (hi : FirstNamed w (str "TEXTURE1") i) (b : Bytes) (hb : LumpIs w i b)
    (n : Bytes) (hn : ∀ k, k < texCount b → (texAt b k).name ≠ n) : .texture n ∉ lines := by
  obtain ⟨items, flats, textures, rfl, h1, h2, h3⟩ := C75_prints order horder w lines h
  intro hmem
  have htex : n ∉ textures := by
    intro hmem
    obtain ⟨⟨b', hb', k, hk, e⟩, _⟩ := (h3.2 n).1 hmem
    rw [hb'.unique (.inl ⟨i, hi, hb⟩)] at hk e
    exact hn k hk e
  have hitems : ∀ (xs : List WADItem) (items : List (List InfoLine)), Pairs (ItemPrinted w) xs items → .texture n ∉ items.flatten := by
    intro xs
    induction xs with
    | nil =>
      rintro (_ | ⟨l, ls⟩) h
      · simp
      · cases h
    | cons x xs ih =>
      rintro (_ | ⟨l, ls⟩) h
      · cases h
      · rw [List.flatten_cons, List.mem_append, not_or]
        refine ⟨?_, ih ls h.2⟩
        have := h.1
        rcases x with r | ⟨_, _⟩ | ⟨_, _⟩ | ⟨j, e0⟩ <;> simp only [ItemPrinted] at this
        · rcases this with ⟨_, _, rfl⟩ | ⟨_, _, rfl⟩ <;> simp
        · obtain ⟨_, _, rfl⟩ := this; simp
  have := hitems _ _ h1
  simp only [List.mem_append, List.mem_cons, List.mem_map, reduceCtorEq, List.not_mem_nil, or_false, false_or, and_false, exists_false,
    InfoLine.texture.injEq, exists_eq_right, or_self] at hmem
  rcases hmem with h | h
  · exact this h
  · exact htex h

/-! ### The hypotheses are met -/

/-- A file with the map of `C37_hypotheses_met`, and one more. -/
theorem C72_hypotheses_met : (∀ p ∈ [(str "MAP15", wellFormedSample), (str "E1M1", wellFormedSample)], GoodNames p.2) ∧
    (∀ p ∈ [(str "MAP15", wellFormedSample), (str "E1M1", wellFormedSample)], (mapNameOf p.1).isSome) ∧
    FitsWad [(str "MAP15", wellFormedSample), (str "E1M1", wellFormedSample)] ∧ WellFormed wellFormedSample := by
  refine ⟨?_, by decide +kernel, by constructor <;> simp [wellFormedSample, mapBytes], C37_hypotheses_met⟩
  intro p hp
  have : p.2 = wellFormedSample := by
    simp only [List.mem_cons, List.not_mem_nil, or_false] at hp
    rcases hp with rfl | rfl <;> rfl
  rw [this]
  constructor
  · unfold GoodName; decide
  · unfold GoodName; decide

/-- The hypotheses of C74 are met: a file with MAP01 and MAP15, where `route` works on the second. -/
theorem C74_hypotheses_met : let ms := [(str "MAP01", wellFormedSample)] ++ (str "MAP15", wellFormedSample) :: []
    (∀ p ∈ ms, GoodNames p.2) ∧ (∀ p ∈ ms, (mapNameOf p.1).isSome) ∧ FitsWad ms ∧
    (∀ p ∈ [(str "MAP01", wellFormedSample)], ∃ n, mapNameOf p.1 = some n ∧ LowMap n) ∧
    (∀ n, mapNameOf (str "MAP15") = some n → ¬ LowMap n) := by
  refine ⟨?_, by decide +kernel, by constructor <;> simp [wellFormedSample, mapBytes], ?_, ?_⟩
  · intro p hp
    have : p.2 = wellFormedSample := by
      simp only [List.mem_cons, List.not_mem_nil, or_false, List.singleton_append] at hp
      rcases hp with rfl | rfl <;> rfl
    rw [this]
    exact C72_hypotheses_met.1 (str "MAP15", wellFormedSample) (by simp)
  · intro p hp
    rw [List.mem_singleton.1 hp]
    exact ⟨.MAPxx 1, by decide +kernel, 1, by decide, rfl⟩
  · intro n hn
    have : mapNameOf (str "MAP15") = some (.MAPxx 15) := by decide +kernel
    rw [this] at hn
    cases hn
    rw [← routeSkips_iff]
    decide

/-- A lump that tells one texture. -/
def texLump (name : String) : Bytes := le32 1 ++ le32 8 ++ pad8 (str name) ++ [0, 0, 0, 0, 64, 0, 64, 0, 0, 0, 0, 0, 1, 0]

/-- A WAD with TEXTURE1, TEXTURE2 and a flat. -/
def texWad : BareWAD where
  buffer := texLump "NEWTEX" ++ texLump "OTHER"
  header := ⟨.PWAD, 5, 60⟩
  directory := [⟨0, 30, str "TEXTURE1"⟩, ⟨30, 30, str "TEXTURE2"⟩, ⟨0, 0, str "F_START"⟩, ⟨0, 2, str "FLAT"⟩, ⟨0, 0, str "F_END"⟩]

theorem texWad_items : texWad.items = [.entry 0 ⟨0, 30, str "TEXTURE1"⟩, .entry 1 ⟨30, 30, str "TEXTURE2"⟩,
    .startMarker 2 ⟨0, 0, str "F_START"⟩, .entry 3 ⟨0, 2, str "FLAT"⟩, .endMarker 4 ⟨0, 0, str "F_END"⟩] := by
  have h : ∀ (i : Nat) (e : DirEntry) (rest : List (Nat × DirEntry)) (x : WADItem), wadNext ((i, e) :: rest) = (some x, rest) →
      wadItems ((i, e) :: rest) = x :: wadItems rest := by
    intro i e rest x hx
    rw [wadItems_unfold, hx]
  unfold BareWAD.items texWad enumFrom enumFrom enumFrom enumFrom enumFrom enumFrom
  rw [h _ _ _ (.entry 0 ⟨0, 30, str "TEXTURE1"⟩) (by decide +kernel), h _ _ _ (.entry 1 ⟨30, 30, str "TEXTURE2"⟩) (by decide +kernel),
    h _ _ _ (.startMarker 2 ⟨0, 0, str "F_START"⟩) (by decide +kernel), h _ _ _ (.entry 3 ⟨0, 2, str "FLAT"⟩) (by decide +kernel),
    h _ _ _ (.endMarker 4 ⟨0, 0, str "F_END"⟩) (by decide +kernel), wadItems_unfold]
  rfl

/-- `info` lists the flat and the texture of TEXTURE1, but not that of TEXTURE2. -/
theorem C75_example : doInfo Rat id texWad = ⟨[.identification .PWAD, .found .PWAD 5 60, .lump (str "TEXTURE1"), .lump (str "TEXTURE2"),
    .lump (str "FLAT"), .flat (str "FLAT"), .rule, .texture (str "NEWTEX")], .ok ()⟩ := by
  unfold doInfo WADArchive.fromBare
  rw [texWad_items]
  have : infoRest id texWad = ⟨[.flat (str "FLAT"), .rule, .texture (str "NEWTEX")], .ok ()⟩ := by
    unfold infoRest
    have e1 : infoTextures texWad = .ok [⟨str "NEWTEX", 64, 64⟩] := by decide +kernel
    have e2 : texWad.iterEntriesBetween (str "F_START") (str "F_END") = .ok [⟨str "FLAT", [1, 0]⟩] := by
      simp only [BareWAD.iterEntriesBetween, texWad, betweenAll_cons, betweenAll_nil]
      decide +kernel
    rw [e1, e2]
    decide +kernel
  rw [this]
  decide +kernel

end Idc
