import Verif.Model.Flip
import Verif.Spec.Flip
import Verif.Props.Archive
import Verif.Props.MapNames
import Verif.Props.WadRoundTrip
/-!
# C31–C34: flip
-/

namespace Idc

/-! ### Arithmetic -/

theorem negI16_ok (pr : Profile) {x : Int16} (h : x.toInt ≠ -32768) : negI16 pr x = .ok (neg16 x) := by
  have h1 := Int16.le_toInt x
  have h2 := Int16.toInt_lt x
  unfold negI16 i16Arith neg16
  rw [if_pos (by omega)]

theorem negI16_min {x : Int16} (h : x.toInt = -32768) : negI16 .debug x = .panic .overflow ∧ negI16 .release x = .ok x := by
  have hx : x = -32768 := Int16.toInt_inj.mp h
  subst hx
  exact ⟨rfl, rfl⟩

theorem neg16_neg16 {x : Int16} (h : x.toInt ≠ -32768) : neg16 (neg16 x) = x := by
  have h1 := Int16.le_toInt x
  have h2 := Int16.toInt_lt x
  unfold neg16
  apply Int16.toInt_inj.mp
  rw [Int16.toInt_ofInt_of_le (n := -x.toInt) (by omega) (by omega)]
  rw [Int16.toInt_ofInt_of_le (by omega) (by omega)]
  omega

theorem neg16_ne {x : Int16} (h : x.toInt ≠ -32768) : (neg16 x).toInt ≠ -32768 := by
  have h1 := Int16.le_toInt x
  have h2 := Int16.toInt_lt x
  unfold neg16
  rw [Int16.toInt_ofInt_of_le (by omega) (by omega)]
  omega

theorem mapList_ok {α β : Type} {f : α → Res β} {g : α → β} (l : List α) (h : ∀ x ∈ l, f x = .ok (g x)) :
    Res.mapList f l = .ok (l.map g) := by
  induction l with
  | nil => rfl
  | cons x l ih =>
    unfold Res.mapList
    rw [h x (by simp), ih fun y hy => h y (List.mem_cons_of_mem _ hy)]
    rfl

theorem flipThings_ok (pr : Profile) {m : BareDoomMap} (h : Negatable m) :
    Res.mapList (flipThing pr) m.things = .ok (m.things.map mirrorThing) := by
  apply mapList_ok
  intro t ht
  obtain ⟨h1, h2⟩ := h.1 t ht
  unfold flipThing
  rw [negI16_ok pr h1, negI16_ok pr h2]
  rfl

theorem flipVertices_ok (pr : Profile) {m : BareDoomMap} (h : Negatable m) :
    Res.mapList (flipVertex pr) m.vertices = .ok (m.vertices.map mirrorVertex) := by
  apply mapList_ok
  intro t ht
  unfold flipVertex
  rw [negI16_ok pr (h.2 t ht)]
  rfl

theorem mirror_mirror {m : BareDoomMap} (h : Negatable m) : mirror (mirror m) = m := by
  obtain ⟨ht, hv⟩ := h
  have e1 : m.vertices.map (fun v => mirrorVertex (mirrorVertex v)) = m.vertices := by
    conv => rhs; rw [← List.map_id m.vertices]
    apply List.map_congr_left
    intro v hv'
    simp only [mirrorVertex, neg16_neg16 (hv v hv')]; rfl
  have e2 : m.things.map (fun v => mirrorThing (mirrorThing v)) = m.things := by
    conv => rhs; rw [← List.map_id m.things]
    apply List.map_congr_left
    intro v hv'
    simp only [mirrorThing, neg16_neg16 (ht v hv').1, neg16_neg16 (ht v hv').2]; rfl
  have e3 : m.lines.map (fun v => mirrorLine (mirrorLine v)) = m.lines := by
    conv => rhs; rw [← List.map_id m.lines]
    apply List.map_congr_left
    intro v _; rfl
  simp only [mirror, List.map_map, Function.comp_def, e1, e2, e3]

theorem negatable_mirror {m : BareDoomMap} (h : Negatable m) : Negatable (mirror m) := by
  obtain ⟨ht, hv⟩ := h
  constructor
  · intro t ht'
    simp only [mirror, List.mem_map] at ht'
    obtain ⟨t, ht', rfl⟩ := ht'
    exact ⟨neg16_ne (ht t ht').1, neg16_ne (ht t ht').2⟩
  · intro t ht'
    simp only [mirror, List.mem_map] at ht'
    obtain ⟨t, ht', rfl⟩ := ht'
    exact neg16_ne (hv t ht')

theorem mapBytes_mirror (m : BareDoomMap) : mapBytes (mirror m) = mapBytes m := by
  simp [mapBytes, mirror]

/-! ### The layout of the output -/

/-- The lumps a map is written as. -/
def mapLumps (p : Bytes × BareDoomMap) : List Lump :=
  [⟨p.1, []⟩,
   ⟨str "THINGS", p.2.things.flatMap BareDoomThing.writeTo⟩,
   ⟨str "LINEDEFS", p.2.lines.flatMap BareDoomLine.writeTo⟩,
   ⟨str "SIDEDEFS", p.2.sides.flatMap BareSide.writeTo⟩,
   ⟨str "VERTEXES", p.2.vertices.flatMap BareVertex.writeTo⟩,
   ⟨str "SECTORS", p.2.sectors.flatMap BareSector.writeTo⟩]

def allLumps (ms : List (Bytes × BareDoomMap)) : List Lump := ms.flatMap mapLumps

theorem dirOf_append (pos : Nat) (l1 l2 : List Lump) :
    dirOf pos (l1 ++ l2) = dirOf pos l1 ++ dirOf (pos + (lumpData l1).length) l2 := by
  induction l1 generalizing pos with
  | nil => simp [dirOf, lumpData]
  | cons l l1 ih =>
    simp only [List.cons_append, dirOf, ih, lumpData_cons, List.length_append]
    congr 3; omega

theorem lumpData_append (l1 l2 : List Lump) : lumpData (l1 ++ l2) = lumpData l1 ++ lumpData l2 := by
  simp [lumpData]

/-- State after writing the lumps `ls`. -/
def stateOf (ls : List Lump) : FlipState :=
  { buffer := lumpData ls, directory := dirOf 12 ls, filepos := (lumpData ls).length }

theorem pushLump_state (ls : List Lump) (name data : Bytes) :
    (stateOf ls).pushLump name data = stateOf (ls ++ [⟨name, data⟩]) := by
  simp only [FlipState.pushLump, stateOf, lumpData_append, dirOf_append]
  congr 1
  · simp [lumpData]
  · simp only [dirOf, List.length_append, Nat.add_sub_cancel_left]
    rw [Nat.add_comm]
  · simp [lumpData]

theorem pushMarker_state (ls : List Lump) (name : Bytes) :
    (stateOf ls).pushMarker name = stateOf (ls ++ [⟨name, []⟩]) := by
  simp only [FlipState.pushMarker, stateOf, lumpData_append, dirOf_append]
  congr 1
  · simp [lumpData]
  · simp [dirOf, Nat.add_comm]
  · simp [lumpData]

theorem flipMap_state (pr : Profile) (w : BareWAD) (r : MapEntryBlock) (e : DirEntry) (m : BareDoomMap) (ls : List Lump)
    (he : w.directory[r.marker_index]? = some e) (hp : parseDoomMap w r = .ok (.doom m)) (hn : Negatable m) :
    flipMap pr w (stateOf ls) r = .ok (stateOf (ls ++ mapLumps (e.name, mirror m))) := by
  unfold flipMap
  rw [hp, Res.bind_ok]
  simp only [index, he, Res.bind_ok, flipThings_ok pr hn, flipVertices_ok pr hn, pushMarker_state, pushLump_state, Res.pure_eq]
  simp [mapLumps, mirror]
  rfl

/-- The maps the loop writes. -/
def doomMapsOf (w : BareWAD) (rs : List MapEntryBlock) : List (Bytes × BareDoomMap) :=
  (rs.map fun r => (markerName w r, parseDoomMap w r)).filterMap fun p =>
    match p.2 with
    | .ok (.doom m) => some (p.1, m)
    | _ => none

theorem flipLoop_state (pr : Profile) (w : BareWAD) (rs : List MapEntryBlock) (ls : List Lump)
    (hm : ∀ r ∈ rs, ∃ e, w.directory[r.marker_index]? = some e)
    (hp : ∀ r ∈ rs, ∃ m, parseDoomMap w r = .ok m)
    (hn : ∀ p ∈ doomMapsOf w rs, Negatable p.2) :
    flipLoop pr w rs (stateOf ls) =
      .ok (stateOf (ls ++ allLumps ((doomMapsOf w rs).map fun p => (p.1, mirror p.2)))) := by
  induction rs generalizing ls with
  | nil => simp [flipLoop, allLumps, doomMapsOf]
  | cons r rs ih =>
    obtain ⟨e, he⟩ := hm r (by simp)
    obtain ⟨m, hp1⟩ := hp r (by simp)
    have ih := fun ls h => ih ls (fun r h => hm r (List.mem_cons_of_mem _ h)) (fun r h => hp r (List.mem_cons_of_mem _ h)) h
    unfold flipLoop
    rcases m with m | m
    · have hd : doomMapsOf w (r :: rs) = (e.name, m) :: doomMapsOf w rs := by
        simp [doomMapsOf, hp1, markerName, he]
      rw [hd] at hn ⊢
      rw [flipMap_state pr w r e m ls he hp1 (hn (e.name, m) (by simp)), Res.bind_ok,
        ih _ (fun p h => hn p (List.mem_cons_of_mem _ h))]
      simp [allLumps]
    · have hd : doomMapsOf w (r :: rs) = doomMapsOf w rs := by
        simp [doomMapsOf, hp1]
      rw [hd] at hn ⊢
      have : flipMap pr w (stateOf ls) r = .ok (stateOf ls) := by
        unfold flipMap; rw [hp1]; rfl
      rw [this, Res.bind_ok, ih _ hn]

theorem wU32_le32 {n : Nat} (h : n < 2 ^ 32) : wU32 (UInt32.ofNat n) = le32 n := by
  have e : (UInt32.ofNat n).toNat = n := UInt32.toNat_ofNat_of_lt h
  unfold wU32 le32
  have e2 : n / 16777216 % 256 = n / 16777216 := by omega
  rw [e]
  simp only [e2]

theorem rows_eq (pos : Nat) (ls : List Lump) (h : pos + (lumpData ls).length < 2 ^ 32) :
    ((dirOf pos ls).flatMap fun e => wU32 e.filepos ++ wU32 e.size ++ e.name ++ List.replicate (8 - e.name.length) 0) =
      lumpRows pos ls := by
  induction ls generalizing pos with
  | nil => rfl
  | cons l ls ih =>
    simp only [lumpData_cons, List.length_append] at h
    simp only [dirOf, List.flatMap_cons, lumpRows, ih _ (show pos + l.data.length + (lumpData ls).length < 2 ^ 32 by omega)]
    rw [wU32_le32 (by omega), wU32_le32 (by omega), pad8]
    simp

theorem file_eq (ls : List Lump) (h : Storable ls) : (stateOf ls).file = encodeWad .PWAD ls := by
  unfold FlipState.file encodeWad stateOf
  simp only [dirOf_length]
  rw [wU32_le32 h.count, wU32_le32 h.size, rows_eq _ _ h.size]
  rfl

theorem iterMaps_marker (w : BareWAD) (r : MapEntryBlock) (h : r ∈ w.iterMaps) :
    ∃ e, w.directory[r.marker_index]? = some e ∧ mapNameOf e.name = some r.name := by
  obtain ⟨e, k, h1, _, h3⟩ := itemFacts w _ ((mem_iterMaps w r).mp h)
  exact ⟨e, h1, h3.name⟩

theorem mapName_good {s : Bytes} {n : MapName} (h : mapNameOf s = some n) : GoodName s := by
  rw [mapNameOf_eq_some] at h
  rcases h with ⟨e, m, he, hm, rfl, _⟩ | ⟨x, h1, h2, rfl, _⟩ | ⟨d, h1, h2, rfl, _⟩
  · constructor
    · simp [exmyText]
    · intro c hc
      simp only [exmyText, digit, List.mem_cons, List.not_mem_nil, or_false] at hc
      rcases hc with rfl | rfl | rfl | rfl <;> simp <;> omega
  · constructor
    · simp [mapText]
    · intro c hc
      simp only [mapText, digit, List.mem_cons, List.not_mem_nil, or_false] at hc
      rcases hc with rfl | rfl | rfl | rfl | rfl <;> simp <;> omega
  · constructor
    · simp [mapPlusText]
    · intro c hc
      simp only [mapPlusText, digit, List.mem_cons, List.not_mem_nil, or_false] at hc
      rcases hc with rfl | rfl | rfl | rfl | rfl <;> simp <;> omega

/-- The names in a map are good. -/
def GoodNames (m : BareDoomMap) : Prop :=
  (∀ s ∈ m.sides, GoodName s.upper_texture ∧ GoodName s.lower_texture ∧ GoodName s.middle_texture) ∧
  ∀ c ∈ m.sectors, GoodName c.floor_texture ∧ GoodName c.ceiling_texture

theorem nameAt_good {b : Bytes} {o : Nat} (h : Printable (nameAt b o 8)) : GoodName (nameAt b o 8) := by
  refine ⟨?_, h⟩
  unfold nameAt
  refine Nat.le_trans (List.takeWhile_sublist _).length_le ?_
  simp [bytesAt]; omega

theorem parsed_goodNames {w : BareWAD} {r : MapEntryBlock} {m : BareDoomMap} (h : parseDoomMap w r = .ok (.doom m)) :
    GoodNames m := by
  rcases C27_cases w r with ⟨j, n, h1, h2⟩ | ⟨j, n, i, h1, h2, h3⟩ |
    ⟨iv, ic, is, il, it, v, c, s, l, t, hv, hc, hs, hl, ht, dv, dc, ds, dl, dt⟩
  · rw [C27_missing w r j n h1 h2] at h; simp at h
  · rw [C27_panic w r j n i h1 h2 h3] at h; simp at h
  · obtain ⟨hd, hh⟩ := C27_ok w r hv hc hs hl ht dv dc ds dl dt
    by_cases hf : r.format = .Doom
    · obtain ⟨m', hm', dm⟩ := hd hf
      rw [hm'] at h
      injection h with h; injection h with h; subst h
      obtain ⟨k1, hk1, e1⟩ := dm.sectors
      obtain ⟨k2, hk2, e2⟩ := dm.sides
      constructor
      · intro x hx
        rw [e2] at hx
        simp only [records, List.mem_map, List.mem_range] at hx
        obtain ⟨j, hj, rfl⟩ := hx
        have := hk2.valid j hj
        exact ⟨nameAt_good this.1, nameAt_good this.2.1, nameAt_good this.2.2⟩
      · intro x hx
        rw [e1] at hx
        simp only [records, List.mem_map, List.mem_range] at hx
        obtain ⟨j, hj, rfl⟩ := hx
        have := hk1.valid j hj
        exact ⟨nameAt_good this.1, nameAt_good this.2⟩
    · obtain ⟨m', hm', dm⟩ := hh hf
      rw [hm'] at h; simp at h

theorem mapLumps_bytes (p : Bytes × BareDoomMap) (h : GoodNames p.2) : (lumpData (mapLumps p)).length = mapBytes p.2 := by
  obtain ⟨h1, h2, h3, h4, h5⟩ := C28_lump_sizes p.2.things p.2.lines p.2.vertices p.2.sides p.2.sectors
    (fun s hs => ⟨(h.1 s hs).1.1, (h.1 s hs).2.1.1, (h.1 s hs).2.2.1⟩) (fun c hc => ⟨(h.2 c hc).1.1, (h.2 c hc).2.1⟩)
  simp only [mapLumps, lumpData, List.map_cons, List.map_nil, List.flatten_cons, List.flatten_nil, List.length_append,
    h1, h2, h3, h4, h5, List.length_nil, mapBytes]
  omega

theorem allLumps_bytes (ms : List (Bytes × BareDoomMap)) (h : ∀ p ∈ ms, GoodNames p.2) :
    (lumpData (allLumps ms)).length = (ms.map fun p => mapBytes p.2).sum := by
  induction ms with
  | nil => rfl
  | cons p ms ih =>
    have : allLumps (p :: ms) = mapLumps p ++ allLumps ms := rfl
    rw [this, lumpData_append, List.length_append, mapLumps_bytes p (h p (by simp)),
      ih fun q hq => h q (List.mem_cons_of_mem _ hq)]
    simp

theorem allLumps_length (ms : List (Bytes × BareDoomMap)) : (allLumps ms).length = 6 * ms.length := by
  induction ms with
  | nil => rfl
  | cons p ms ih =>
    have : allLumps (p :: ms) = mapLumps p ++ allLumps ms := rfl
    rw [this, List.length_append, ih]
    simp [mapLumps]; omega

theorem str_good : Printable (str "THINGS") ∧ Printable (str "LINEDEFS") ∧ Printable (str "SIDEDEFS") ∧
    Printable (str "VERTEXES") ∧ Printable (str "SECTORS") := by decide

theorem allLumps_storable (ms : List (Bytes × BareDoomMap)) (hg : ∀ p ∈ ms, GoodNames p.2)
    (hn : ∀ p ∈ ms, GoodName p.1) (hf : FitsWad ms) : Storable (allLumps ms) := by
  refine ⟨?_, by rw [allLumps_length]; exact hf.1, by rw [allLumps_bytes ms hg]; exact hf.2⟩
  intro l hl
  obtain ⟨p, hp, hlp⟩ := List.mem_flatMap.mp hl
  have := hn p hp
  obtain ⟨s1, s2, s3, s4, s5⟩ := str_good
  simp only [mapLumps, List.mem_cons, List.not_mem_nil, or_false] at hlp
  rcases hlp with rfl | rfl | rfl | rfl | rfl | rfl
  · exact ⟨this.2, this.1⟩
  · exact ⟨s1, show (str "THINGS").length ≤ 8 by decide⟩
  · exact ⟨s2, show (str "LINEDEFS").length ≤ 8 by decide⟩
  · exact ⟨s3, show (str "SIDEDEFS").length ≤ 8 by decide⟩
  · exact ⟨s4, show (str "VERTEXES").length ≤ 8 by decide⟩
  · exact ⟨s5, show (str "SECTORS").length ≤ 8 by decide⟩

/-! ### Reading the output back -/

/-- The block the iterator yields for a map written by flip at directory index `i`. -/
def blockAt (nm : MapName) (i last : Nat) : MapEntryBlock :=
  { format := .Doom, name := nm, marker_index := i, last_index := last, things_index := some (i + 1),
    linedefs_index := some (i + 2), sidedefs_index := some (i + 3), vertexes_index := some (i + 4),
    sectors_index := some (i + 5) }

theorem wadNext_block {nm : MapName} (i : Nat) (e0 e1 e2 e3 e4 e5 : DirEntry) (rest : List (Nat × DirEntry))
    (h0 : mapNameOf e0.name = some nm) (h1 : e1.name = str "THINGS") (h2 : e2.name = str "LINEDEFS")
    (h3 : e3.name = str "SIDEDEFS") (h4 : e4.name = str "VERTEXES") (h5 : e5.name = str "SECTORS")
    (hr : ∀ p, rest.head? = some p → (mapNameOf p.2.name).isSome) :
    ∃ last, wadNext ((i, e0) :: (i + 1, e1) :: (i + 2, e2) :: (i + 3, e3) :: (i + 4, e4) :: (i + 5, e5) :: rest) =
      (some (.map (blockAt nm i last)), rest) := by
  have d1 : str "THINGS" ≠ str "TEXTMAP" := by decide
  have d2 : str "VERTEXES" ≠ str "SEGS" := by decide
  have d3 : str "SECTORS" ≠ str "SEGS" := by decide
  have d4 : str "SECTORS" ≠ str "SSECTORS" := by decide
  have d5 : str "SECTORS" ≠ str "NODES" := by decide
  have s1 : ∀ b : MapEntryBlock, ∀ i, b.setLump (str "THINGS") i = { b with things_index := some i } := fun _ _ => rfl
  have s2 : ∀ b : MapEntryBlock, ∀ i, b.setLump (str "LINEDEFS") i = { b with linedefs_index := some i } := fun _ _ => rfl
  have s3 : ∀ b : MapEntryBlock, ∀ i, b.setLump (str "SIDEDEFS") i = { b with sidedefs_index := some i } := fun _ _ => rfl
  have s4 : ∀ b : MapEntryBlock, ∀ i, b.setLump (str "VERTEXES") i = { b with vertexes_index := some i } := fun _ _ => rfl
  have s5 : ∀ b : MapEntryBlock, ∀ i, b.setLump (str "SECTORS") i = { b with sectors_index := some i } := fun _ _ => rfl
  simp only [wadNext, h0, h1, if_neg d1]
  rcases rest with _ | ⟨⟨j, e⟩, rest⟩
  · simp [mapLumpOrder, mapLoop, h1, h2, h3, h4, h5, d3, d4, d5, s1, s2, s3, s4, s5, blockAt]
  · have hs := hr (j, e) rfl
    have n1 : e.name ≠ str "REJECT" := by intro h; simp only [h] at hs; revert hs; decide
    have n2 : e.name ≠ str "BLOCKMAP" := by intro h; simp only [h] at hs; revert hs; decide
    have n3 : e.name ≠ str "BEHAVIOR" := by intro h; simp only [h] at hs; revert hs; decide
    simp [mapLumpOrder, mapLoop, h1, h2, h3, h4, h5, d3, d4, d5, n1, n2, n3, s1, s2, s3, s4, s5, blockAt]

/-- The directory of `w` from index `i` on holds the lumps `ls`. -/
def Holds (w : BareWAD) (i : Nat) (ls : List Lump) : Prop :=
  w.directory.length = i + ls.length ∧
  ∀ k l, ls[k]? = some l → (∃ e, w.directory[i + k]? = some e ∧ e.name = l.name) ∧ w.entrySlice (i + k) = .ok l.data

theorem parse_block (w : BareWAD) (i last : Nat) (nm : MapName) (p : Bytes × BareDoomMap)
    (hg : GoodNames p.2) (h : ∀ k l, (mapLumps p)[k]? = some l → w.entrySlice (i + k) = .ok l.data) :
    parseDoomMap w (blockAt nm i last) = .ok (.doom p.2) := by
  have e1 := h 1 _ rfl
  have e2 := h 2 _ rfl
  have e3 := h 3 _ rfl
  have e4 := h 4 _ rfl
  have e5 := h 5 _ rfl
  obtain ⟨w1, w2, w3, w4, w5⟩ := C25_write_parse
  unfold parseDoomMap
  simp only [blockAt, requireLump, Res.bind_ok, e1, e2, e3, e4, e5, w1, w2, w3, w4 _ hg.1, w5 _ hg.2, nomToResult, if_true,
    Res.pure_eq]

theorem readBack (w : BareWAD) (ms : List (Bytes × BareDoomMap)) (i : Nat)
    (hg : ∀ p ∈ ms, GoodNames p.2) (hn : ∀ p ∈ ms, (mapNameOf p.1).isSome) (h : Holds w i (allLumps ms)) :
    ((wadItems (enumFrom i (w.directory.drop i))).filterMap fun item =>
        match item with
        | .map b => some b
        | _ => none).map (fun r => (markerName w r, parseDoomMap w r)) =
      ms.map fun p => (p.1, .ok (.doom p.2)) := by
  induction ms generalizing i with
  | nil =>
    have : w.directory.drop i = [] := by
      apply List.drop_eq_nil_of_le
      have := h.1; simp [allLumps] at this; omega
    rw [this]
    simp [enumFrom, wadItems_unfold, wadNext]
  | cons p ms ih =>
    obtain ⟨hlen, hk⟩ := h
    have hal : allLumps (p :: ms) = mapLumps p ++ allLumps ms := rfl
    rw [hal] at hlen hk
    have hl6 : (mapLumps p).length = 6 := rfl
    have hfront : ∀ k l, (mapLumps p)[k]? = some l →
        (∃ e, w.directory[i + k]? = some e ∧ e.name = l.name) ∧ w.entrySlice (i + k) = .ok l.data := by
      intro k l hl
      apply hk k l
      have : k < (mapLumps p).length := (List.getElem?_eq_some_iff.mp hl).1
      rw [List.getElem?_append_left this, hl]
    have hback : Holds w (i + 6) (allLumps ms) := by
      refine ⟨by rw [hlen, List.length_append, hl6]; omega, ?_⟩
      intro k l hl
      have := hk (6 + k) l (by rw [List.getElem?_append_right (by omega), hl6]; simpa using hl)
      rw [show i + (6 + k) = i + 6 + k by omega] at this
      exact this
    obtain ⟨⟨e0, d0, n0⟩, _⟩ := hfront 0 _ rfl
    obtain ⟨⟨e1, d1, n1⟩, _⟩ := hfront 1 _ rfl
    obtain ⟨⟨e2, d2, n2⟩, _⟩ := hfront 2 _ rfl
    obtain ⟨⟨e3, d3, n3⟩, _⟩ := hfront 3 _ rfl
    obtain ⟨⟨e4, d4, n4⟩, _⟩ := hfront 4 _ rfl
    obtain ⟨⟨e5, d5, n5⟩, _⟩ := hfront 5 _ rfl
    have dropE : ∀ {j : Nat} {e : DirEntry}, w.directory[j]? = some e → w.directory.drop j = e :: w.directory.drop (j + 1) := by
      intro j e hj
      obtain ⟨hlt, rfl⟩ := List.getElem?_eq_some_iff.mp hj
      exact List.drop_eq_getElem_cons hlt
    have hD : w.directory.drop i = e0 :: e1 :: e2 :: e3 :: e4 :: e5 :: w.directory.drop (i + 6) := by
      rw [dropE (show w.directory[i]? = some e0 from d0), dropE d1, dropE d2, dropE d3, dropE d4, dropE d5]
    obtain ⟨nm, hnm⟩ := Option.isSome_iff_exists.mp (hn p (by simp))
    have hrest : ∀ q, (enumFrom (i + 6) (w.directory.drop (i + 6))).head? = some q → (mapNameOf q.2.name).isSome := by
      intro q hq
      rcases ms with _ | ⟨p', ms⟩
      · have : w.directory.drop (i + 6) = [] := by
          apply List.drop_eq_nil_of_le
          have := hback.1; simp [allLumps] at this; omega
        rw [this] at hq; simp [enumFrom] at hq
      · obtain ⟨⟨e, he, hne⟩, _⟩ := hback.2 0 ⟨p'.1, []⟩ rfl
        rw [dropE (show w.directory[i + 6]? = some e from he)] at hq
        simp only [enumFrom, List.head?_cons, Option.some.injEq] at hq
        subst hq
        simp only [hne]
        exact hn p' (by simp)
    obtain ⟨last, hnext⟩ := wadNext_block i e0 e1 e2 e3 e4 e5 (enumFrom (i + 6) (w.directory.drop (i + 6)))
      (by rw [n0]; exact hnm) n1 n2 n3 n4 n5 hrest
    rw [hD, wadItems_unfold]
    simp only [enumFrom]
    rw [show i + 1 + 1 + 1 + 1 + 1 + 1 = i + 6 by omega, show i + 1 + 1 + 1 + 1 + 1 = i + 5 by omega,
      show i + 1 + 1 + 1 + 1 = i + 4 by omega, show i + 1 + 1 + 1 = i + 3 by omega, show i + 1 + 1 = i + 2 by omega, hnext]
    simp only [List.filterMap_cons, List.map_cons]
    rw [ih (i + 6) (fun q hq => hg q (List.mem_cons_of_mem _ hq)) (fun q hq => hn q (List.mem_cons_of_mem _ hq)) hback]
    congr 1
    rw [parse_block w i last nm p (hg p (by simp)) fun k l hl => (hfront k l hl).2]
    have : markerName w (blockAt nm i last) = p.1 := by
      simp only [markerName, blockAt]
      rw [show w.directory[i]? = some e0 from d0]
      exact n0
    rw [this]

theorem parsedMaps_encode (ms : List (Bytes × BareDoomMap)) (hg : ∀ p ∈ ms, GoodNames p.2)
    (hn : ∀ p ∈ ms, (mapNameOf p.1).isSome) (hf : FitsWad ms) :
    ∃ w, parseWad (encodeWad .PWAD (allLumps ms)) = .ok w ∧ w.header.identification = .PWAD ∧
      parsedMaps w = ms.map (fun p => (p.1, .ok (.doom p.2))) ∧
      w.directory.map (·.name) = (allLumps ms).map (·.name) := by
  have hst := allLumps_storable ms hg (fun p hp => by
    obtain ⟨n, h⟩ := Option.isSome_iff_exists.mp (hn p hp)
    exact mapName_good h) hf
  obtain ⟨w, h1, h2, h3, h4⟩ := C04_wad_roundtrip .PWAD (allLumps ms) hst
  refine ⟨w, h1, h2, ?_, ?_⟩
  · have := readBack w ms 0 hg hn ⟨by omega, fun k l hl => by simpa using h4 k l hl⟩
    rw [List.drop_zero] at this
    exact this
  · apply List.ext_getElem?
    intro k
    rw [List.getElem?_map, List.getElem?_map]
    rcases hk : (allLumps ms)[k]? with _ | l
    · rw [List.getElem?_eq_none (by rw [h3]; exact List.getElem?_eq_none_iff.mp hk)]; rfl
    · obtain ⟨⟨e, he, hne⟩, _⟩ := h4 k l hk
      rw [he]; simp [hne]

theorem doomMaps_facts (w : BareWAD) (p : Bytes × BareDoomMap) (hp : p ∈ doomMaps w) :
    GoodNames p.2 ∧ (mapNameOf p.1).isSome := by
  simp only [doomMaps, parsedMaps, List.mem_filterMap, List.mem_map] at hp
  obtain ⟨q, ⟨r, hr, rfl⟩, hq⟩ := hp
  obtain ⟨e, he, hne⟩ := iterMaps_marker w r hr
  rcases hpr : parseDoomMap w r with m | x | x | _ <;> simp only [hpr] at hq
  · rcases m with m | m
    · simp only [Option.some.injEq] at hq
      subst hq
      refine ⟨parsed_goodNames hpr, ?_⟩
      simp only [markerName, he, hne]; rfl
    · simp at hq
  · simp at hq
  · simp at hq
  · simp at hq

theorem goodNames_mirror {m : BareDoomMap} (h : GoodNames m) : GoodNames (mirror m) := h

theorem fits_mirror {ms : List (Bytes × BareDoomMap)} (h : FitsWad ms) :
    FitsWad (ms.map fun p => (p.1, mirror p.2)) := by
  unfold FitsWad at h ⊢
  rw [List.map_map, List.length_map]
  have : ((fun p : Bytes × BareDoomMap => mapBytes p.2) ∘ fun p : Bytes × BareDoomMap => (p.1, mirror p.2)) = fun p => mapBytes p.2 := by
    funext p; simp [mapBytes_mirror]
  rw [this]; exact h

theorem doFlip_eq (pr : Profile) (w : BareWAD) (hp : AllParse w) (hn : ∀ p ∈ doomMaps w, Negatable p.2)
    (hf : FitsWad (doomMaps w)) :
    doFlip pr w = .ok (encodeWad .PWAD (allLumps ((doomMaps w).map fun p => (p.1, mirror p.2)))) := by
  have hloop := flipLoop_state pr w w.iterMaps []
    (fun r hr => by obtain ⟨e, he, _⟩ := iterMaps_marker w r hr; exact ⟨e, he⟩)
    (fun r hr => hp (markerName w r, parseDoomMap w r) (List.mem_map.mpr ⟨r, hr, rfl⟩)) hn
  unfold doFlip
  have h0 : ({ buffer := [], directory := [], filepos := 0 } : FlipState) = stateOf [] := rfl
  rw [h0, hloop]
  simp only [Res.bind_ok, List.nil_append, Res.pure_eq]
  have he : doomMapsOf w w.iterMaps = doomMaps w := rfl
  rw [he]
  congr 1
  apply file_eq
  apply allLumps_storable
  · intro p hp'
    obtain ⟨q, hq, rfl⟩ := List.mem_map.mp hp'
    exact goodNames_mirror (doomMaps_facts w q hq).1
  · intro p hp'
    obtain ⟨q, hq, rfl⟩ := List.mem_map.mp hp'
    obtain ⟨n, h⟩ := Option.isSome_iff_exists.mp (doomMaps_facts w q hq).2
    exact mapName_good h
  · exact fits_mirror hf

/-- **C31** If every map of the WAD parses, nothing to be negated is -32768, and the maps fit a WAD,
then flip writes a file that `parse_wad` accepts as a PWAD whose maps, with the same names and in the
same order, are exactly the mirrored Doom-format maps of the input. -/
theorem C31_flip (pr : Profile) (w : BareWAD) (hp : AllParse w) (hn : ∀ p ∈ doomMaps w, Negatable p.2)
    (hf : FitsWad (doomMaps w)) :
    ∃ out w', doFlip pr w = .ok out ∧ parseWad out = .ok w' ∧ w'.header.identification = .PWAD ∧
      parsedMaps w' = (doomMaps w).map fun p => (p.1, .ok (.doom (mirror p.2))) := by
  refine ⟨encodeWad .PWAD (allLumps ((doomMaps w).map fun p => (p.1, mirror p.2))), ?_⟩
  obtain ⟨w', h1, h2, h3, _⟩ := parsedMaps_encode ((doomMaps w).map fun p => (p.1, mirror p.2))
    (fun p hp' => by
      obtain ⟨q, hq, rfl⟩ := List.mem_map.mp hp'
      exact goodNames_mirror (doomMaps_facts w q hq).1)
    (fun p hp' => by
      obtain ⟨q, hq, rfl⟩ := List.mem_map.mp hp'
      exact (doomMaps_facts w q hq).2) (fits_mirror hf)
  refine ⟨w', doFlip_eq pr w hp hn hf, h1, h2, ?_⟩
  rw [h3, List.map_map]; rfl

/-- **C31** The output directory holds nothing but those maps: a marker and five lumps each. -/
theorem C31_flip_directory (pr : Profile) (w : BareWAD) (hp : AllParse w) (hn : ∀ p ∈ doomMaps w, Negatable p.2)
    (hf : FitsWad (doomMaps w)) :
    ∃ out w', doFlip pr w = .ok out ∧ parseWad out = .ok w' ∧
      w'.directory.map (·.name) = (doomMaps w).flatMap fun p =>
        [p.1, str "THINGS", str "LINEDEFS", str "SIDEDEFS", str "VERTEXES", str "SECTORS"] := by
  refine ⟨encodeWad .PWAD (allLumps ((doomMaps w).map fun p => (p.1, mirror p.2))), ?_⟩
  obtain ⟨w', h1, _, _, h4⟩ := parsedMaps_encode ((doomMaps w).map fun p => (p.1, mirror p.2))
    (fun p hp' => by
      obtain ⟨q, hq, rfl⟩ := List.mem_map.mp hp'
      exact goodNames_mirror (doomMaps_facts w q hq).1)
    (fun p hp' => by
      obtain ⟨q, hq, rfl⟩ := List.mem_map.mp hp'
      exact (doomMaps_facts w q hq).2) (fits_mirror hf)
  refine ⟨w', doFlip_eq pr w hp hn hf, h1, ?_⟩
  rw [h4, allLumps, List.map_flatMap, List.flatMap_map]; rfl

theorem parsed_all {w' : BareWAD} {ms : List (Bytes × BareDoomMap)} (h : parsedMaps w' = ms.map fun p => (p.1, .ok (.doom p.2))) :
    AllParse w' ∧ doomMaps w' = ms := by
  constructor
  · intro p hp
    rw [h] at hp
    obtain ⟨q, _, rfl⟩ := List.mem_map.mp hp
    exact ⟨_, rfl⟩
  · unfold doomMaps
    rw [h]
    clear h
    induction ms with
    | nil => rfl
    | cons p ms ih =>
      simp only [List.map_cons, List.filterMap_cons]
      congr 1

/-- **C32** Flipping twice gives the maps of the original back: the flipped file parses, flips, and
parses again to exactly the original Doom-format maps; and flipping a third time gives the bytes of
the first flip. -/
theorem C32_flip_twice (pr : Profile) (w : BareWAD) (hp : AllParse w) (hn : ∀ p ∈ doomMaps w, Negatable p.2)
    (hf : FitsWad (doomMaps w)) :
    ∃ out w' out' w'', doFlip pr w = .ok out ∧ parseWad out = .ok w' ∧ doFlip pr w' = .ok out' ∧
      parseWad out' = .ok w'' ∧ parsedMaps w'' = (doomMaps w).map (fun p => (p.1, .ok (.doom p.2))) ∧
      doFlip pr w'' = .ok out := by
  obtain ⟨out, w', h1, h2, _, h4⟩ := C31_flip pr w hp hn hf
  have h4' : parsedMaps w' = ((doomMaps w).map fun p => (p.1, mirror p.2)).map fun p => (p.1, .ok (.doom p.2)) := by
    rw [h4, List.map_map]; rfl
  obtain ⟨hp', hd'⟩ := parsed_all h4'
  have hn' : ∀ p ∈ doomMaps w', Negatable p.2 := by
    rw [hd']
    intro p hp
    obtain ⟨q, hq, rfl⟩ := List.mem_map.mp hp
    exact negatable_mirror (hn q hq)
  have hf' : FitsWad (doomMaps w') := by rw [hd']; exact fits_mirror hf
  obtain ⟨out', w'', g1, g2, _, g4⟩ := C31_flip pr w' hp' hn' hf'
  have hmm : (doomMaps w').map (fun p => (p.1, mirror p.2)) = doomMaps w := by
    rw [hd', List.map_map]
    conv => rhs; rw [← List.map_id (doomMaps w)]
    apply List.map_congr_left
    intro p hp
    simp [mirror_mirror (hn p hp)]
  have g4' : parsedMaps w'' = (doomMaps w).map fun p => (p.1, .ok (.doom p.2)) := by
    rw [g4, ← hmm, List.map_map]; rfl
  obtain ⟨hp'', hd''⟩ := parsed_all g4'
  refine ⟨out, w', out', w'', h1, h2, g1, g2, g4', ?_⟩
  rw [doFlip_eq pr w'' hp'' (by rw [hd'']; exact hn) (by rw [hd'']; exact hf), hd'']
  rw [doFlip_eq pr w hp hn hf] at h1
  exact h1

/-- A map with one record of each kind (and two vertices). -/
def sampleMap : BareDoomMap where
  vertices := [⟨0, 7⟩, ⟨64, -32767⟩]
  sectors := [⟨0, 128, str "FLOOR4_8", str "CEIL3_5", 160, 0, 0⟩]
  sides := [⟨0, 0, str "-", str "-", str "STARTAN3", 0⟩]
  lines := [⟨0, 1, 1, 0, 0, 0, -1⟩]
  things := [⟨32, -32, 90, 1, 7⟩]

/-- Two maps. -/
def sampleMaps : List (Bytes × BareDoomMap) :=
  [(str "MAP01", sampleMap), (str "E1M1", { vertices := [], sectors := [], sides := [], lines := [], things := [] })]

/-- The hypotheses of C31–C33 are met by a parsed file with two maps. -/
theorem C31_hypotheses_met : ∃ w, parseWad (encodeWad .PWAD (allLumps sampleMaps)) = .ok w ∧ doomMaps w = sampleMaps ∧
    AllParse w ∧ (∀ p ∈ doomMaps w, Negatable p.2) ∧ FitsWad (doomMaps w) := by
  have hf : FitsWad sampleMaps := by
    constructor <;> simp [sampleMaps, sampleMap, mapBytes]
  obtain ⟨w, h1, _, h2, _⟩ := parsedMaps_encode sampleMaps (by
    intro p hp
    simp only [sampleMaps, List.mem_cons, List.not_mem_nil, or_false] at hp
    rcases hp with rfl | rfl
    · constructor
      · intro s hs
        simp only [sampleMap, List.mem_cons, List.not_mem_nil, or_false] at hs
        subst hs; unfold GoodName; decide
      · intro s hs
        simp only [sampleMap, List.mem_cons, List.not_mem_nil, or_false] at hs
        subst hs; unfold GoodName; decide
    · constructor <;> simp) (by
    intro p hp
    simp only [sampleMaps, List.mem_cons, List.not_mem_nil, or_false] at hp
    rcases hp with rfl | rfl
    · show (mapNameOf (str "MAP01")).isSome = true; decide
    · show (mapNameOf (str "E1M1")).isSome = true; decide) hf
  obtain ⟨h3, h4⟩ := parsed_all h2
  refine ⟨w, h1, h4, h3, ?_, by rw [h4]; exact hf⟩
  rw [h4]
  intro p hp
  simp only [sampleMaps, List.mem_cons, List.not_mem_nil, or_false] at hp
  rcases hp with rfl | rfl
  · constructor
    · intro s hs
      simp only [sampleMap, List.mem_cons, List.not_mem_nil, or_false] at hs
      subst hs; decide
    · intro s hs
      simp only [sampleMap, List.mem_cons, List.not_mem_nil, or_false] at hs
      rcases hs with rfl | rfl <;> decide
  · constructor <;> simp

/-! ### C33: layout -/

theorem dirOf_step (pos : Nat) (ls : List Lump) (h : pos + (lumpData ls).length < 2 ^ 32) :
    (∀ e, (dirOf pos ls)[0]? = some e → e.filepos.toNat = pos) ∧
    (∀ k e e', (dirOf pos ls)[k]? = some e → (dirOf pos ls)[k + 1]? = some e' →
      e'.filepos.toNat = e.filepos.toNat + e.size.toNat) ∧
    (∀ e, (dirOf pos ls).getLast? = some e → e.filepos.toNat + e.size.toNat = pos + (lumpData ls).length) := by
  induction ls generalizing pos with
  | nil => simp [dirOf]
  | cons l ls ih =>
    simp only [lumpData_cons, List.length_append] at h ⊢
    obtain ⟨i1, i2, i3⟩ := ih (pos + l.data.length) (by omega)
    have e1 : (UInt32.ofNat pos).toNat = pos := UInt32.toNat_ofNat_of_lt (show pos < 2 ^ 32 by omega)
    have e2 : (UInt32.ofNat l.data.length).toNat = l.data.length :=
      UInt32.toNat_ofNat_of_lt (show l.data.length < 2 ^ 32 by omega)
    refine ⟨?_, ?_, ?_⟩
    · intro e he
      simp only [dirOf, List.getElem?_cons_zero, Option.some.injEq] at he
      subst he; exact e1
    · intro k e e' he he'
      rcases k with _ | k
      · simp only [dirOf, List.getElem?_cons_zero, Option.some.injEq, List.getElem?_cons_succ, Nat.zero_add] at he he'
        subst he
        dsimp only
        rw [e1, e2]
        exact i1 e' he'
      · simp only [dirOf, List.getElem?_cons_succ] at he he'
        exact i2 k e e' he he'
    · intro e he
      rcases ls with _ | ⟨l', ls⟩
      · simp only [dirOf, List.getLast?_singleton, Option.some.injEq] at he
        subst he
        simp [e1, e2, lumpData]
      · have : (dirOf pos (l :: l' :: ls)).getLast? = (dirOf (pos + l.data.length) (l' :: ls)).getLast? := by
          simp [dirOf]
        rw [this] at he
        rw [i3 e he]; omega

/-- **C33** In flip's output the first lump starts at byte 12, every lump starts where the one before
ends, the last ends where the directory starts, and the directory ends the file. -/
theorem C33_flip_layout (pr : Profile) (w : BareWAD) (hp : AllParse w) (hn : ∀ p ∈ doomMaps w, Negatable p.2)
    (hf : FitsWad (doomMaps w)) :
    ∃ out w', doFlip pr w = .ok out ∧ parseWad out = .ok w' ∧
      (∀ e, w'.directory[0]? = some e → e.filepos.toNat = 12) ∧
      (∀ k e e', w'.directory[k]? = some e → w'.directory[k + 1]? = some e' →
        e'.filepos.toNat = e.filepos.toNat + e.size.toNat) ∧
      (∀ e, w'.directory.getLast? = some e → e.filepos.toNat + e.size.toNat = w'.header.infotableofs.toNat) ∧
      out.length = w'.header.infotableofs.toNat + 16 * w'.directory.length := by
  have hst : Storable (allLumps ((doomMaps w).map fun p => (p.1, mirror p.2))) := by
    apply allLumps_storable
    · intro p hp'
      obtain ⟨q, hq, rfl⟩ := List.mem_map.mp hp'
      exact goodNames_mirror (doomMaps_facts w q hq).1
    · intro p hp'
      obtain ⟨q, hq, rfl⟩ := List.mem_map.mp hp'
      obtain ⟨n, h⟩ := Option.isSome_iff_exists.mp (doomMaps_facts w q hq).2
      exact mapName_good h
    · exact fits_mirror hf
  obtain ⟨h1, h2, h3⟩ := dirOf_step 12 _ hst.size
  have hofs : (UInt32.ofNat _).toNat = _ := UInt32.toNat_ofNat_of_lt hst.size
  refine ⟨_, _, doFlip_eq pr w hp hn hf, parseWad_encode .PWAD _ hst, h1, h2, ?_, ?_⟩
  · intro e he
    dsimp only
    rw [hofs]
    exact h3 e he
  · dsimp only
    rw [hofs, dirOf_length]
    simp only [encodeWad, List.length_append, magicOf_length, le32_length,
      lumpRows_length 12 _ (fun l hl => (hst.names l hl).2)]

/-! ### C34 -/

/-- **C34 is false**: in a debug build flip panics when it meets a vertex with y = -32768 (in the first
map; all of whose things are fine). -/
theorem C34_flip_panics (w : BareWAD) (r : MapEntryBlock) (rs : List MapEntryBlock) (m : BareDoomMap) (v : BareVertex)
    (hr : w.iterMaps = r :: rs) (hp : parseDoomMap w r = .ok (.doom m))
    (ht : ∀ t ∈ m.things, t.y.toInt ≠ -32768 ∧ t.angle.toInt ≠ -32768)
    (hv : v ∈ m.vertices) (hmin : v.y.toInt = -32768) : doFlip .debug w = .panic .overflow := by
  obtain ⟨e, he, _⟩ := iterMaps_marker w r (by rw [hr]; simp)
  have hvs : Res.mapList (flipVertex .debug) m.vertices = .panic .overflow := by
    clear hp ht
    revert hv
    generalize m.vertices = vs
    intro hv
    induction vs with
    | nil => simp at hv
    | cons x l ih =>
      unfold Res.mapList
      by_cases hx : x.y.toInt = -32768
      · have : flipVertex .debug x = .panic .overflow := by unfold flipVertex; rw [(negI16_min hx).1]; rfl
        rw [this]
      · have : flipVertex .debug x = .ok (mirrorVertex x) := by unfold flipVertex; rw [negI16_ok _ hx]; rfl
        rw [this]
        have hv' : v ∈ l := by
          rcases List.mem_cons.mp hv with rfl | h
          · exact absurd hmin hx
          · exact h
        simp only [ih hv']
  have hts : Res.mapList (flipThing .debug) m.things = .ok (m.things.map mirrorThing) := by
    apply mapList_ok
    intro t ht'
    obtain ⟨h1, h2⟩ := ht t ht'
    unfold flipThing
    rw [negI16_ok _ h1, negI16_ok _ h2]
    rfl
  unfold doFlip
  rw [hr]
  unfold flipLoop flipMap
  rw [hp]
  simp only [Res.bind_ok, index, he, hts, hvs, Res.bind_panic]

/-- A WAD with one map having a vertex at y = -32768, given directly by its lumps. -/
def minWad : BareWAD :=
  { buffer := [5, 0, 0, 128], header := ⟨.PWAD, 6, 4⟩,
    directory := [⟨0, 0, str "MAP01"⟩, ⟨0, 0, str "THINGS"⟩, ⟨0, 0, str "LINEDEFS"⟩, ⟨0, 0, str "SIDEDEFS"⟩,
      ⟨0, 4, str "VERTEXES"⟩, ⟨0, 0, str "SECTORS"⟩] }

theorem minWad_maps : minWad.iterMaps = [blockAt (.MAPxx 1) 0 5] := by
  unfold BareWAD.iterMaps BareWAD.items
  simp only [minWad, enumFrom, Nat.zero_add, Nat.reduceAdd]
  rw [wadItems_unfold]
  have h : wadNext [(0, (⟨0, 0, str "MAP01"⟩ : DirEntry)), (1, ⟨0, 0, str "THINGS"⟩), (2, ⟨0, 0, str "LINEDEFS"⟩),
      (3, ⟨0, 0, str "SIDEDEFS"⟩), (4, ⟨0, 4, str "VERTEXES"⟩), (5, ⟨0, 0, str "SECTORS"⟩)] =
      (some (.map (blockAt (.MAPxx 1) 0 5)), []) := by decide
  rw [h]
  simp [wadItems_unfold, wadNext]

theorem minWad_parse : parseDoomMap minWad (blockAt (.MAPxx 1) 0 5) =
    .ok (.doom { vertices := [⟨5, -32768⟩], sectors := [], sides := [], lines := [], things := [] }) :=
  parse_block minWad 0 5 (.MAPxx 1)
    (str "MAP01", { vertices := [⟨5, -32768⟩], sectors := [], sides := [], lines := [], things := [] })
    ⟨by simp, by simp⟩ (by
      intro k l hl
      rcases k with _ | _ | _ | _ | _ | _ | k
      · simp [mapLumps] at hl; subst hl; decide
      · simp [mapLumps] at hl; subst hl; decide
      · simp [mapLumps] at hl; subst hl; decide
      · simp [mapLumps] at hl; subst hl; decide
      · simp [mapLumps] at hl; subst hl; decide
      · simp [mapLumps] at hl; subst hl; decide
      · simp [mapLumps] at hl)

/-- **C34, counterexample**: the hypotheses of `C34_flip_panics` are met. -/
theorem C34_flip_panics_example : doFlip .debug minWad = .panic .overflow :=
  C34_flip_panics minWad _ [] _ ⟨5, -32768⟩ minWad_maps minWad_parse (by simp) (by simp) (by decide)

/-- **C34, what does hold** (missing: the overflow at -32768, shown above): if every map parses and
nothing to be negated is -32768, flip succeeds in both build profiles. -/
theorem C34_flip_no_panic_partial (pr : Profile) (w : BareWAD) (hp : AllParse w)
    (hn : ∀ p ∈ doomMaps w, Negatable p.2) : ∃ out, doFlip pr w = .ok out := by
  have hloop := flipLoop_state pr w w.iterMaps []
    (fun r hr => by obtain ⟨e, he, _⟩ := iterMaps_marker w r hr; exact ⟨e, he⟩)
    (fun r hr => hp (markerName w r, parseDoomMap w r) (List.mem_map.mpr ⟨r, hr, rfl⟩)) hn
  unfold doFlip
  have h0 : ({ buffer := [], directory := [], filepos := 0 } : FlipState) = stateOf [] := rfl
  rw [h0, hloop]
  exact ⟨_, rfl⟩

end Idc
