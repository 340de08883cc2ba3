import Verif.Lemmas.BinMap
import Verif.Props.WadParse
/-!
# C22–C28: the binary map lumps
-/

namespace Idc

theorem dropOk_true : DropOk (fun _ _ => True) := fun _ _ _ => rfl
theorem dropOk_doomThing : DropOk doomThingAt := fun b n o => by simp [doomThingAt, Nat.add_assoc]
theorem dropOk_hexenThing : DropOk hexenThingAt := fun b n o => by simp [hexenThingAt, Nat.add_assoc]
theorem dropOk_doomLine : DropOk doomLineAt := fun b n o => by simp [doomLineAt, Nat.add_assoc]
theorem dropOk_hexenLine : DropOk hexenLineAt := fun b n o => by simp [hexenLineAt, Nat.add_assoc]
theorem dropOk_side : DropOk sideAt := fun b n o => by simp [sideAt, Nat.add_assoc]
theorem dropOk_vertex : DropOk vertexAt := fun b n o => by simp [vertexAt, Nat.add_assoc]
theorem dropOk_sector : DropOk sectorAt := fun b n o => by simp [sectorAt, Nat.add_assoc]
theorem dropOk_SideOk : DropOk SideOk := fun b n o => by simp [SideOk, Nat.add_assoc]
theorem dropOk_SectorOk : DropOk SectorOk := fun b n o => by simp [SectorOk, Nat.add_assoc]

theorem many0_total {α : Type} {p : Parser α} {n : Nat} {f : Bytes → Nat → α} (hn : 0 < n)
    (hp : Rec p n (fun _ => True) (f · 0)) (hf : DropOk f) (b : Bytes) :
    many0 (complete p) b = .ok (b.drop (b.length / n * n)) (records n f b (b.length / n)) := by
  obtain ⟨k, hk, hm⟩ := many0_rec (okp := fun _ _ => True) hn hp dropOk_true hf b
  rw [hm, longestRun_true hn hk]

/-- **C22** Every THINGS lump decodes to `⌊L/10⌋` (Hexen: `⌊L/20⌋`) things, the `k`-th read at offset
`10 k` (`20 k`); nothing is an error. -/
theorem C22_things (b : Bytes) :
    (∃ rest, doomThingsLump b = .ok rest (records 10 doomThingAt b (b.length / 10))) ∧
    (∃ rest, hexenThingsLump b = .ok rest (records 20 hexenThingAt b (b.length / 20))) :=
  ⟨⟨_, many0_total (by omega) rec_doomThing dropOk_doomThing b⟩,
   ⟨_, many0_total (by omega) rec_hexenThing dropOk_hexenThing b⟩⟩

/-- **C22** Likewise for LINEDEFS, 14 bytes (Hexen: 16). -/
theorem C22_linedefs (b : Bytes) :
    (∃ rest, doomLinedefsLump b = .ok rest (records 14 doomLineAt b (b.length / 14))) ∧
    (∃ rest, hexenLinedefsLump b = .ok rest (records 16 hexenLineAt b (b.length / 16))) :=
  ⟨⟨_, many0_total (by omega) rec_doomLine dropOk_doomLine b⟩,
   ⟨_, many0_total (by omega) rec_hexenLine dropOk_hexenLine b⟩⟩

/-- **C22** Likewise for VERTEXES, 4 bytes. -/
theorem C22_vertexes (b : Bytes) :
    ∃ rest, vertexesLump b = .ok rest (records 4 vertexAt b (b.length / 4)) :=
  ⟨_, many0_total (by omega) rec_vertex dropOk_vertex b⟩

/-- Non-vacuity: 9 bytes hold two vertices and a stray byte. -/
example : vertexesLump [1, 0, 255, 255, 0, 128, 7, 0, 99] = .ok [99] [⟨1, -1⟩, ⟨-32768, 7⟩] := by
  simp [vertexesLump, many0, complete, vertex, Parser.bind_def, Parser.pure_def, leI16]

/-- **C23** A SIDEDEFS lump decodes to the longest run of complete 30-byte records with valid names. -/
theorem C23_sidedefs (b : Bytes) :
    ∃ k rest, LongestRun 30 SideOk b k ∧ sidedefsLump b = .ok rest (records 30 sideAt b k) := by
  obtain ⟨k, hk, hm⟩ := many0_rec (by omega) rec_side dropOk_SideOk dropOk_side b
  exact ⟨k, _, hk, hm⟩

/-- **C23** A SECTORS lump decodes to the longest run of complete 26-byte records with valid names. -/
theorem C23_sectors (b : Bytes) :
    ∃ k rest, LongestRun 26 SectorOk b k ∧ sectorsLump b = .ok rest (records 26 sectorAt b k) := by
  obtain ⟨k, hk, hm⟩ := many0_rec (by omega) rec_sector dropOk_SectorOk dropOk_sector b
  exact ⟨k, _, hk, hm⟩

/-- The longest run is unique, so C23 determines the decoded list. -/
theorem C23_run_unique {size : Nat} {good : Bytes → Nat → Prop} {b : Bytes} {k k' : Nat}
    (h : LongestRun size good b k) (h' : LongestRun size good b k') : k = k' :=
  longestRun_unique h h'

/-! ### C24 -/

/-- **C24 is false.** Whatever follows the valid records, the lump parsers succeed: a bad or partial
record silently ends the list.  Here `b` is any lump whose record `k` is bad or incomplete while
bytes remain: everything from there on is dropped without an error. -/
theorem C24_bad_side_dropped (b : Bytes) (k : Nat) (hrun : LongestRun 30 SideOk b k) (_hmore : k * 30 < b.length) :
    ∃ rest, sidedefsLump b = .ok rest (records 30 sideAt b k) ∧ rest ≠ [] := by
  obtain ⟨k', hk', hm⟩ := many0_rec (by omega) rec_side dropOk_SideOk dropOk_side b
  obtain rfl := longestRun_unique hrun hk'
  refine ⟨_, hm, ?_⟩
  intro h
  have := congrArg List.length h
  simp at this
  omega

theorem C24_bad_sector_dropped (b : Bytes) (k : Nat) (hrun : LongestRun 26 SectorOk b k) (_hmore : k * 26 < b.length) :
    ∃ rest, sectorsLump b = .ok rest (records 26 sectorAt b k) ∧ rest ≠ [] := by
  obtain ⟨k', hk', hm⟩ := many0_rec (by omega) rec_sector dropOk_SectorOk dropOk_sector b
  obtain rfl := longestRun_unique hrun hk'
  refine ⟨_, hm, ?_⟩
  intro h
  have := congrArg List.length h
  simp at this
  omega

/-- Non-vacuity of the two above: a 30-byte side record and a 26-byte sector record whose first name
byte is 0x01. -/
example : LongestRun 30 SideOk ([0, 0, 0, 0, 1] ++ List.replicate 25 0) 0 ∧
    LongestRun 26 SectorOk ([0, 0, 0, 0, 1] ++ List.replicate 21 0) 0 := by
  refine ⟨⟨by intro j h; omega, by intro j h; omega, ?_⟩, ⟨by intro j h; omega, by intro j h; omega, ?_⟩⟩
  · rintro ⟨_, h⟩
    exact absurd h.1 (by decide)
  · rintro ⟨_, h⟩
    exact absurd h.1 (by decide)

/-- **C24, what does hold**: nothing is dropped from a lump that consists of complete valid records.
(Missing: bad lumps are not reported, see above.) -/
theorem C24_nothing_dropped_partial (b : Bytes) :
    (∀ k, b.length = k * 30 → (∀ j < k, SideOk b (j * 30)) →
      sidedefsLump b = .ok [] (records 30 sideAt b k)) ∧
    (∀ k, b.length = k * 26 → (∀ j < k, SectorOk b (j * 26)) →
      sectorsLump b = .ok [] (records 26 sectorAt b k)) := by
  constructor
  · intro k hk hv
    obtain ⟨k', hk', hm⟩ := many0_rec (by omega) rec_side dropOk_SideOk dropOk_side b
    have : LongestRun 30 SideOk b k := ⟨fun j hj => by omega, hv, fun h => by omega⟩
    obtain rfl := longestRun_unique this hk'
    rw [sidedefsLump, hm, ← hk, List.drop_length]
  · intro k hk hv
    obtain ⟨k', hk', hm⟩ := many0_rec (by omega) rec_sector dropOk_SectorOk dropOk_sector b
    have : LongestRun 26 SectorOk b k := ⟨fun j hj => by omega, hv, fun h => by omega⟩
    obtain rfl := longestRun_unique this hk'
    rw [sectorsLump, hm, ← hk, List.drop_length]

/-! ### C25, C28: writing -/

@[simp] theorem wU16_length (x : UInt16) : (wU16 x).length = 2 := rfl
@[simp] theorem wI16_length (x : Int16) : (wI16 x).length = 2 := rfl

theorem leU16_wU16 (x : UInt16) (r : Bytes) : leU16 (wU16 x ++ r) = .ok r x := by
  have h := x.toNat_lt
  simp only [wU16, List.cons_append, List.nil_append, leU16]
  congr 1
  apply UInt16.toNat_inj.mp
  simp
  omega

theorem leI16_wI16 (x : Int16) (r : Bytes) : leI16 (wI16 x ++ r) = .ok r x := by
  have h := leU16_wU16 x.toUInt16 r
  simp only [wI16, wU16, List.cons_append, List.nil_append, leU16, leI16, IResult.ok.injEq, true_and] at h ⊢
  rw [h]
  rfl

theorem nameAt_writeName (s : Bytes) (r : Bytes) (hl : s.length ≤ 8) (hp : Printable s) :
    nameAt (writeName s ++ r) 0 8 = s := by
  have hw : (writeName s).length = 8 := by simp [writeName]; omega
  unfold nameAt bytesAt
  rw [List.drop_zero, List.take_append_of_le_length (by omega), List.take_of_length_le (by omega)]
  unfold writeName
  rw [List.takeWhile_append_of_pos]
  · have : (List.replicate (8 - s.length) (0 : UInt8)).takeWhile (fun c => c != 0) = [] := by
      rcases 8 - s.length with _ | m <;> simp [List.replicate_succ]
    rw [this, List.append_nil]
  · intro c hc
    have := hp c hc
    simp only [bne_iff_ne, ne_eq]
    rintro rfl
    simp at this

theorem ascii_writeName (s : Bytes) (r : Bytes) (hl : s.length ≤ 8) (hp : Printable s) :
    fixedLengthAscii 8 (writeName s ++ r) = .ok r s := by
  have hw : (writeName s).length = 8 := by simp [writeName]; omega
  have hn := nameAt_writeName s r hl hp
  rw [fixedLengthAscii_ok (by simp; omega) (by rw [hn]; exact hp), hn, ← hw, List.drop_left]

theorem many0_concat {α : Type} {p : Parser α} {W : α → Bytes} (h0 : ∃ k, p [] = .err (.incomplete k))
    (xs : List α) (h : ∀ x ∈ xs, W x ≠ [] ∧ ∀ r, p (W x ++ r) = .ok r x) :
    many0 (complete p) (xs.flatMap W) = .ok [] xs := by
  induction xs with
  | nil =>
    obtain ⟨k, hk⟩ := h0
    unfold many0
    simp [complete, hk]
  | cons x xs ih =>
    obtain ⟨hne, hp⟩ := h x (by simp)
    unfold many0
    have : complete p ((x :: xs).flatMap W) = .ok (xs.flatMap W) x := by
      simp [complete, List.flatMap_cons, hp]
    rw [this]
    simp only
    have hlen : 0 < (W x).length := List.length_pos_iff.mpr hne
    rw [dif_pos (by simp [List.flatMap_cons]; omega), ih (fun y hy => h y (List.mem_cons_of_mem _ hy))]

/-- **C28** The sizes `write_to` emits. -/
theorem C28_sizes :
    (∀ t : BareDoomThing, t.writeTo.length = 10) ∧
    (∀ l : BareDoomLine, l.writeTo.length = 14) ∧
    (∀ s : BareSide, s.upper_texture.length ≤ 8 → s.lower_texture.length ≤ 8 → s.middle_texture.length ≤ 8 →
      s.writeTo.length = 30) ∧
    (∀ v : BareVertex, v.writeTo.length = 4) ∧
    (∀ s : BareSector, s.floor_texture.length ≤ 8 → s.ceiling_texture.length ≤ 8 → s.writeTo.length = 26) := by
  refine ⟨fun t => by simp [BareDoomThing.writeTo], fun l => by simp [BareDoomLine.writeTo], ?_,
    fun v => by simp [BareVertex.writeTo], ?_⟩
  · intro s h1 h2 h3
    simp [BareSide.writeTo, writeName]; omega
  · intro s h1 h2
    simp [BareSector.writeTo, writeName]; omega

/-- **C28** The size of a written lump is a multiple of the record size. -/
theorem C28_lump_sizes (ts : List BareDoomThing) (ls : List BareDoomLine) (vs : List BareVertex)
    (ss : List BareSide) (cs : List BareSector)
    (hs : ∀ s ∈ ss, s.upper_texture.length ≤ 8 ∧ s.lower_texture.length ≤ 8 ∧ s.middle_texture.length ≤ 8)
    (hc : ∀ c ∈ cs, c.floor_texture.length ≤ 8 ∧ c.ceiling_texture.length ≤ 8) :
    (ts.flatMap BareDoomThing.writeTo).length = 10 * ts.length ∧
    (ls.flatMap BareDoomLine.writeTo).length = 14 * ls.length ∧
    (vs.flatMap BareVertex.writeTo).length = 4 * vs.length ∧
    (ss.flatMap BareSide.writeTo).length = 30 * ss.length ∧
    (cs.flatMap BareSector.writeTo).length = 26 * cs.length := by
  have gen : ∀ {α : Type} (W : α → Bytes) (n : Nat) (xs : List α), (∀ x ∈ xs, (W x).length = n) →
      (xs.flatMap W).length = n * xs.length := by
    intro α W n xs h
    induction xs with
    | nil => simp
    | cons x xs ih =>
      rw [List.flatMap_cons, List.length_append, h x (by simp), ih (fun y hy => h y (List.mem_cons_of_mem _ hy)),
        List.length_cons, Nat.mul_succ]
      omega
  obtain ⟨h1, h2, h3, h4, h5⟩ := C28_sizes
  exact ⟨gen _ _ _ fun x _ => h1 x, gen _ _ _ fun x _ => h2 x, gen _ _ _ fun x _ => h4 x,
    gen _ _ _ fun x hx => h3 x (hs x hx).1 (hs x hx).2.1 (hs x hx).2.2,
    gen _ _ _ fun x hx => h5 x (hc x hx).1 (hc x hx).2⟩

theorem doomThing_write (t : BareDoomThing) (r : Bytes) : doomThing (t.writeTo ++ r) = .ok r t := by
  simp only [BareDoomThing.writeTo, List.append_assoc, doomThing, Parser.bind_def, leI16_wI16, leU16_wU16]
  rfl

theorem doomLine_write (t : BareDoomLine) (r : Bytes) : doomLine (t.writeTo ++ r) = .ok r t := by
  simp only [BareDoomLine.writeTo, List.append_assoc, doomLine, Parser.bind_def, leI16_wI16]
  rfl

theorem vertex_write (t : BareVertex) (r : Bytes) : vertex (t.writeTo ++ r) = .ok r t := by
  simp only [BareVertex.writeTo, List.append_assoc, vertex, Parser.bind_def, leI16_wI16]
  rfl

theorem side_write (t : BareSide) (r : Bytes) (h1 : GoodName t.upper_texture) (h2 : GoodName t.lower_texture)
    (h3 : GoodName t.middle_texture) : side (t.writeTo ++ r) = .ok r t := by
  simp only [BareSide.writeTo, List.append_assoc, side, Parser.bind_def, leI16_wI16,
    ascii_writeName _ _ h1.1 h1.2, ascii_writeName _ _ h2.1 h2.2, ascii_writeName _ _ h3.1 h3.2]
  rfl

theorem sector_write (t : BareSector) (r : Bytes) (h1 : GoodName t.floor_texture)
    (h2 : GoodName t.ceiling_texture) : sector (t.writeTo ++ r) = .ok r t := by
  simp only [BareSector.writeTo, List.append_assoc, sector, Parser.bind_def, leI16_wI16,
    ascii_writeName _ _ h1.1 h1.2, ascii_writeName _ _ h2.1 h2.2]
  rfl

theorem writeTo_ne {α : Type} {W : α → Bytes} {n : Nat} {x : α} (h : (W x).length = n) (hn : 0 < n) : W x ≠ [] := by
  intro h'; rw [h'] at h; simp at h; omega

/-- **C25** Parsing what was written gives the records back, for any list of records and any field
values; names must be at most 8 printable bytes. -/
theorem C25_write_parse :
    (∀ ts : List BareDoomThing, doomThingsLump (ts.flatMap BareDoomThing.writeTo) = .ok [] ts) ∧
    (∀ ls : List BareDoomLine, doomLinedefsLump (ls.flatMap BareDoomLine.writeTo) = .ok [] ls) ∧
    (∀ vs : List BareVertex, vertexesLump (vs.flatMap BareVertex.writeTo) = .ok [] vs) ∧
    (∀ ss : List BareSide,
      (∀ s ∈ ss, GoodName s.upper_texture ∧ GoodName s.lower_texture ∧ GoodName s.middle_texture) →
      sidedefsLump (ss.flatMap BareSide.writeTo) = .ok [] ss) ∧
    (∀ cs : List BareSector, (∀ c ∈ cs, GoodName c.floor_texture ∧ GoodName c.ceiling_texture) →
      sectorsLump (cs.flatMap BareSector.writeTo) = .ok [] cs) := by
  obtain ⟨h1, h2, h3, h4, h5⟩ := C28_sizes
  refine ⟨fun ts => ?_, fun ls => ?_, fun vs => ?_, fun ss hs => ?_, fun cs hc => ?_⟩
  · exact many0_concat ⟨2, rfl⟩ ts fun t _ => ⟨writeTo_ne (h1 t) (by omega), doomThing_write t⟩
  · exact many0_concat ⟨2, rfl⟩ ls fun t _ => ⟨writeTo_ne (h2 t) (by omega), doomLine_write t⟩
  · exact many0_concat ⟨2, rfl⟩ vs fun t _ => ⟨writeTo_ne (h4 t) (by omega), vertex_write t⟩
  · exact many0_concat ⟨2, rfl⟩ ss fun t ht =>
      ⟨writeTo_ne (h3 t (hs t ht).1.1 (hs t ht).2.1.1 (hs t ht).2.2.1) (by omega),
       fun r => side_write t r (hs t ht).1 (hs t ht).2.1 (hs t ht).2.2⟩
  · exact many0_concat ⟨2, rfl⟩ cs fun t ht =>
      ⟨writeTo_ne (h5 t (hc t ht).1.1 (hc t ht).2.1) (by omega),
       fun r => sector_write t r (hc t ht).1 (hc t ht).2⟩

/-- Non-vacuity: names of 0, 1 and 8 bytes are all good. -/
example : GoodName (str "") ∧ GoodName (str "-") ∧ GoodName (str "STARTAN3") := by
  refine ⟨⟨?_, ?_⟩, ⟨?_, ?_⟩, ⟨?_, ?_⟩⟩ <;> decide

/-! ### C26: parse then write -/

theorem bytesAt_length {b : Bytes} {o n : Nat} (h : o + n ≤ b.length) : (bytesAt b o n).length = n := by
  simp [bytesAt]; omega

theorem bytesAt_append (b : Bytes) (o n m : Nat) : bytesAt b o n ++ bytesAt b (o + n) m = bytesAt b o (n + m) := by
  unfold bytesAt
  rw [List.take_add, List.drop_drop]

theorem bytesAt_two {b : Bytes} {o : Nat} (h : o + 2 ≤ b.length) :
    bytesAt b o 2 = [UInt8.ofNat (byteAt b o), UInt8.ofNat (byteAt b (o + 1))] := by
  unfold bytesAt byteAt
  apply List.ext_getElem?
  intro k
  rcases k with _ | _ | k
  · simp [List.getElem?_eq_getElem (show o < b.length by omega)]
  · simp [List.getElem?_eq_getElem (show o + 1 < b.length by omega)]
  · simp [List.getElem?_take]; omega

theorem wU16_u16At {b : Bytes} {o : Nat} (h : o + 2 ≤ b.length) :
    wU16 (UInt16.ofNat (u16At b o)) = bytesAt b o 2 := by
  rw [bytesAt_two h]
  unfold wU16
  rw [toNat_ofNat_u16At]
  have h1 := byteAt_lt b o
  have h2 := byteAt_lt b (o + 1)
  have e1 : u16At b o % 256 = byteAt b o := by unfold u16At; omega
  have e2 : u16At b o / 256 = byteAt b (o + 1) := by unfold u16At; omega
  rw [e1, e2]

theorem wI16_i16At {b : Bytes} {o : Nat} (h : o + 2 ≤ b.length) :
    wI16 (Int16.ofInt (i16At b o)) = bytesAt b o 2 := by
  rw [← toInt_u16At]
  exact wU16_u16At h

theorem records_write {α : Type} {n : Nat} {dec : Bytes → Nat → α} {W : α → Bytes} {img : Bytes → Nat → Bytes}
    (b : Bytes) (k : Nat) (hk : k * n ≤ b.length)
    (h : ∀ o, o + n ≤ b.length → W (dec b o) = img b o) :
    (records n dec b k).flatMap W = (List.range k).flatMap fun j => img b (j * n) := by
  unfold records
  rw [List.flatMap_map]
  have : ∀ (l : List Nat), (∀ j ∈ l, j < k) →
      (l.flatMap fun j => W (dec b (j * n))) = l.flatMap fun j => img b (j * n) := by
    intro l hl
    induction l with
    | nil => rfl
    | cons j l ih =>
      rw [List.flatMap_cons, List.flatMap_cons, ih (fun x hx => hl x (List.mem_cons_of_mem _ hx)), h]
      have := hl j (by simp)
      have : (j + 1) * n ≤ k * n := Nat.mul_le_mul_right _ this
      rw [Nat.succ_mul] at this
      omega
  exact this _ fun j hj => List.mem_range.mp hj

theorem range_bytesAt (b : Bytes) (n k : Nat) :
    ((List.range k).flatMap fun j => bytesAt b (j * n) n) = b.take (k * n) := by
  induction k with
  | zero => simp
  | succ k ih =>
    rw [List.range_succ, List.flatMap_append, ih, List.flatMap_cons, List.flatMap_nil, List.append_nil, Nat.succ_mul,
      List.take_add]
    rfl

theorem doomThing_rewrite {b : Bytes} {o : Nat} (h : o + 10 ≤ b.length) :
    (doomThingAt b o).writeTo = bytesAt b o 10 := by
  simp only [doomThingAt, BareDoomThing.writeTo]
  rw [wI16_i16At (by omega), wI16_i16At (by omega), wI16_i16At (by omega), wI16_i16At (by omega), wU16_u16At (by omega)]
  simp only [bytesAt_append]

theorem doomLine_rewrite {b : Bytes} {o : Nat} (h : o + 14 ≤ b.length) :
    (doomLineAt b o).writeTo = bytesAt b o 14 := by
  simp only [doomLineAt, BareDoomLine.writeTo]
  rw [wI16_i16At (by omega), wI16_i16At (by omega), wI16_i16At (by omega), wI16_i16At (by omega), wI16_i16At (by omega),
    wI16_i16At (by omega), wI16_i16At (by omega)]
  simp only [bytesAt_append]

theorem vertex_rewrite {b : Bytes} {o : Nat} (h : o + 4 ≤ b.length) :
    (vertexAt b o).writeTo = bytesAt b o 4 := by
  simp only [vertexAt, BareVertex.writeTo]
  rw [wI16_i16At (by omega), wI16_i16At (by omega)]
  simp only [bytesAt_append]

/-- **C26** Writing the things, lines or vertices parsed from a lump gives the lump's complete
records, byte for byte. -/
theorem C26_parse_write (b : Bytes) :
    (∀ rest ts, doomThingsLump b = .ok rest ts → ts.flatMap BareDoomThing.writeTo = b.take (b.length / 10 * 10)) ∧
    (∀ rest ls, doomLinedefsLump b = .ok rest ls → ls.flatMap BareDoomLine.writeTo = b.take (b.length / 14 * 14)) ∧
    (∀ rest vs, vertexesLump b = .ok rest vs → vs.flatMap BareVertex.writeTo = b.take (b.length / 4 * 4)) := by
  refine ⟨fun rest ts h => ?_, fun rest ts h => ?_, fun rest ts h => ?_⟩
  · obtain ⟨r, h'⟩ := (C22_things b).1
    rw [h'] at h; injection h with _ h; subst h
    rw [records_write (img := fun b o => bytesAt b o 10) b _ (Nat.div_mul_le_self _ _) fun o ho => doomThing_rewrite ho, range_bytesAt]
  · obtain ⟨r, h'⟩ := (C22_linedefs b).1
    rw [h'] at h; injection h with _ h; subst h
    rw [records_write (img := fun b o => bytesAt b o 14) b _ (Nat.div_mul_le_self _ _) fun o ho => doomLine_rewrite ho, range_bytesAt]
  · obtain ⟨r, h'⟩ := C22_vertexes b
    rw [h'] at h; injection h with _ h; subst h
    rw [records_write (img := fun b o => bytesAt b o 4) b _ (Nat.div_mul_le_self _ _) fun o ho => vertex_rewrite ho, range_bytesAt]

theorem side_rewrite {b : Bytes} {o : Nat} (h : o + 30 ≤ b.length) : (sideAt b o).writeTo = cleanSide b o := by
  simp only [sideAt, BareSide.writeTo, writeName, cleanSide, cleanName]
  rw [wI16_i16At (by omega), wI16_i16At (by omega), wI16_i16At (by omega)]
  simp only [bytesAt_append]

theorem sector_rewrite {b : Bytes} {o : Nat} (h : o + 26 ≤ b.length) : (sectorAt b o).writeTo = cleanSector b o := by
  simp only [sectorAt, BareSector.writeTo, writeName, cleanSector, cleanName]
  rw [wI16_i16At (by omega), wI16_i16At (by omega), wI16_i16At (by omega), wI16_i16At (by omega), wI16_i16At (by omega)]
  have h1 := bytesAt_append b o 2 2
  have h2 := bytesAt_append b (o + 20) 2 2
  have h3 := bytesAt_append b (o + 20) 4 2
  simp only [Nat.add_assoc, Nat.reduceAdd] at h1 h2 h3
  rw [h1, ← h3, ← h2]
  simp only [List.append_assoc]

theorem run_fits {b : Bytes} {n k : Nat} {good : Bytes → Nat → Prop} (h : LongestRun n good b k) : k * n ≤ b.length := by
  rcases k with _ | k
  · simp
  · exact h.fits k (by omega)

/-- **C26** For sides and sectors the records come back with their name fields NUL-filled. -/
theorem C26_parse_write_names (b : Bytes) :
    (∀ rest ss, sidedefsLump b = .ok rest ss →
      ss.flatMap BareSide.writeTo = (List.range ss.length).flatMap fun j => cleanSide b (j * 30)) ∧
    (∀ rest cs, sectorsLump b = .ok rest cs →
      cs.flatMap BareSector.writeTo = (List.range cs.length).flatMap fun j => cleanSector b (j * 26)) := by
  refine ⟨fun rest ts h => ?_, fun rest ts h => ?_⟩
  · obtain ⟨k, r, hk, h'⟩ := C23_sidedefs b
    rw [h'] at h; injection h with _ h; subst h
    rw [records_write b _ (run_fits hk) fun o ho => side_rewrite ho]
    simp [records]
  · obtain ⟨k, r, hk, h'⟩ := C23_sectors b
    rw [h'] at h; injection h with _ h; subst h
    rw [records_write b _ (run_fits hk) fun o ho => sector_rewrite ho]
    simp [records]

/-- A name field that has only NULs after its first NUL is already clean. -/
theorem cleanName_eq (b : Bytes) (o : Nat) (h : o + 8 ≤ b.length)
    (hz : ∀ i j, i ≤ j → j < 8 → b[o + i]? = some 0 → b[o + j]? = some 0) : cleanName b o = bytesAt b o 8 := by
  have key : ∀ l : Bytes, (∀ i j : Nat, i ≤ j → j < l.length → l[i]? = some 0 → l[j]? = some 0) →
      (l.takeWhile fun c => c != 0) ++ List.replicate (l.length - (l.takeWhile fun c => c != 0).length) 0 = l := by
    intro l
    induction l with
    | nil => intro _; rfl
    | cons a l ih =>
      intro hl
      by_cases ha : a = 0
      · subst ha
        simp only [List.takeWhile_cons, bne_self_eq_false, Bool.false_eq_true, if_false, List.nil_append,
          List.length_nil, Nat.sub_zero]
        apply List.ext_getElem?
        intro j
        rw [List.getElem?_replicate]
        by_cases hj : j < (0 :: l).length
        · rw [if_pos hj, hl 0 j (by omega) hj (by simp)]
        · rw [if_neg hj, List.getElem?_eq_none (by omega)]
      · have ha' : (a != 0) = true := by simp [ha]
        simp only [List.takeWhile_cons, ha', if_true, List.length_cons, List.cons_append, Nat.add_sub_add_right]
        rw [ih]
        intro i j hij hj h0
        have := hl (i + 1) (j + 1) (by omega) (by simpa using hj) (by simpa using h0)
        simpa using this
  have := key (bytesAt b o 8) ?_
  · rw [bytesAt_length h] at this
    exact this
  · rw [bytesAt_length h]
    intro i j hij hj h0
    simp only [bytesAt] at h0 ⊢
    rw [List.getElem?_take_of_lt (by omega), List.getElem?_drop] at h0 ⊢
    exact hz i j hij hj h0

/-- Non-vacuity: a side record with garbage after a NUL is cleaned. -/
example : cleanName [65, 0, 7, 7, 7, 7, 7, 7] 0 = [65, 0, 0, 0, 0, 0, 0, 0] := by decide

end Idc
