import Verif.Model.FullMap
import Verif.Spec.FullMap
import Verif.Spec.Float
/-!
# C35–C40: the full map
-/

set_option linter.unusedSectionVars false

namespace Idc

open FloatOps

variable {F : Type} [FloatOps F]

/-! ### The conversion as five maps -/

def convSector (b : BareSector) : Sector :=
  { tag := i16AsU32 b.sector_tag, special := i16AsU32 b.sector_type, floor_height := b.floor_height.toInt32,
    ceiling_height := b.ceiling_height.toInt32, light := i16AsU8 b.light }
def convVertex (b : BareVertex) : Pt F := ⟨ofInt b.x.toInt, ofInt b.y.toInt⟩
def convSide (b : BareSide) : Side :=
  { id := 0, upper_texture := b.upper_texture, lower_texture := b.lower_texture, middle_texture := b.middle_texture,
    sector := i16AsUsize b.sector }
def convLine (i : Nat) (b : BareDoomLine) : Line :=
  { index := i, start := i16AsUsize b.v0, stop := i16AsUsize b.v1, flags := i16AsU32 b.flags,
    special := i16AsUsize b.special, sector_tag := i16AsU32 b.sector_tag,
    front := if b.front_sidedef != -1 then some (i16AsUsize b.front_sidedef) else none,
    back := if b.back_sidedef != -1 then some (i16AsUsize b.back_sidedef) else none }
def convThing (b : BareDoomThing) : Thing F :=
  { point := ⟨ofInt b.x.toInt, ofInt b.y.toInt⟩, doomednum := i16AsU32 b.doomednum }

/-- Convert lines, numbering from `n`. -/
def convLines (n : Nat) : List BareDoomLine → List Line
  | [] => []
  | b :: bs => convLine n b :: convLines (n + 1) bs

theorem convLines_length (n : Nat) (l : List BareDoomLine) : (convLines n l).length = l.length := by
  induction l generalizing n with
  | nil => rfl
  | cons b l ih => simp [convLines, ih]

theorem convLines_get (n : Nat) (l : List BareDoomLine) (k : Nat) :
    (convLines n l)[k]? = l[k]?.map (convLine (n + k)) := by
  induction l generalizing n k with
  | nil => rfl
  | cons b l ih =>
    rcases k with _ | k
    · rfl
    · simp only [convLines, List.getElem?_cons_succ, ih]
      rw [show n + 1 + k = n + (k + 1) by omega]

theorem indexMut_last {α : Type} (l : List α) (a : α) (f : α → α) :
    indexMut (l ++ [a]) ((l ++ [a]).length - 1) f = .ok (l ++ [f a]) := by
  unfold indexMut
  simp

theorem sectors_loop (bs : List BareSector) (m : FullMap F) :
    forEach FullMap.pushBareSector bs m = .ok { m with sectors := m.sectors ++ bs.map convSector } := by
  induction bs generalizing m with
  | nil => simp [forEach]
  | cons b bs ih =>
    have : FullMap.pushBareSector m b = .ok { m with sectors := m.sectors ++ [convSector b] } := by
      unfold FullMap.pushBareSector FullMap.addSector
      simp only [indexMut_last, Res.bind_ok, Res.pure_eq]
      rfl
    rw [forEach, this, Res.bind_ok, ih]
    simp

theorem vertices_loop (bs : List BareVertex) (m : FullMap F) :
    forEach FullMap.pushBareVertex bs m = .ok { m with vertices := m.vertices ++ bs.map convVertex } := by
  induction bs generalizing m with
  | nil => simp [forEach]
  | cons b bs ih =>
    have : FullMap.pushBareVertex m b = .ok { m with vertices := m.vertices ++ [convVertex b] } := rfl
    rw [forEach, this, Res.bind_ok, ih]
    simp

theorem sides_loop (bs : List BareSide) (m : FullMap F) :
    forEach FullMap.pushBareSide bs m = .ok { m with sides := m.sides ++ bs.map convSide } := by
  induction bs generalizing m with
  | nil => simp [forEach]
  | cons b bs ih =>
    have : FullMap.pushBareSide m b = .ok { m with sides := m.sides ++ [convSide b] } := by
      unfold FullMap.pushBareSide FullMap.addSide
      simp only [indexMut_last, Res.bind_ok, Res.pure_eq]
      rfl
    rw [forEach, this, Res.bind_ok, ih]
    simp

theorem lines_loop (bs : List BareDoomLine) (m : FullMap F) :
    forEach FullMap.pushBareLine bs m = .ok { m with lines := m.lines ++ convLines m.lines.length bs } := by
  induction bs generalizing m with
  | nil => simp [forEach, convLines]
  | cons b bs ih =>
    have : FullMap.pushBareLine m b = .ok { m with lines := m.lines ++ [convLine m.lines.length b] } := by
      unfold FullMap.pushBareLine FullMap.addLine
      simp only [indexMut]
      rw [List.getElem?_append_right (Nat.le_refl _)]
      simp only [Nat.sub_self, List.getElem?_cons_zero, Res.bind_ok, Res.pure_eq]
      rw [List.set_append_right _ _ (Nat.le_refl _)]
      simp only [Nat.sub_self, List.set_cons_zero, convLine]
      split <;> split <;> rfl
    rw [forEach, this, Res.bind_ok, ih]
    simp [convLines]

theorem things_loop (bs : List BareDoomThing) (m : FullMap F) :
    forEach FullMap.pushBareThing bs m = .ok { m with things := m.things ++ bs.map convThing } := by
  induction bs generalizing m with
  | nil => simp [forEach]
  | cons b bs ih =>
    have : FullMap.pushBareThing m b = .ok { m with things := m.things ++ [convThing b] } := rfl
    rw [forEach, this, Res.bind_ok, ih]
    simp

theorem fromBare_eq (b : BareDoomMap) :
    (FullMap.fromBare b : Res (FullMap F)) =
      .ok { lines := convLines 0 b.lines, sides := b.sides.map convSide, sectors := b.sectors.map convSector,
            things := b.things.map convThing, vertices := b.vertices.map convVertex } := by
  unfold FullMap.fromBare
  simp only [sectors_loop, vertices_loop, sides_loop, lines_loop, things_loop, Res.bind_ok]
  simp [FullMap.new]

theorem matches_map {α β : Type} (l : List α) (f : α → β) (R : Nat → α → β → Prop) (h : ∀ k x, R k x (f x)) :
    Matches l (l.map f) R := by
  refine ⟨by simp, ?_⟩
  intro k x y hx hy
  rw [List.getElem?_map, hx] at hy
  simp at hy
  subst hy; exact h k x

theorem i16AsUsize_nonneg {x : Int16} (h : 0 ≤ x.toInt) : i16AsUsize x = x.toInt.toNat := if_pos h

theorem i16AsUsize_neg {x : Int16} (h : x.toInt < 0) : 2 ^ 64 - 32768 ≤ i16AsUsize x := by
  have := Int16.le_toInt x
  unfold i16AsUsize
  rw [if_neg (by omega)]
  omega

theorem toInt32_toInt (x : Int16) : x.toInt32.toInt = x.toInt := by
  simp

theorem ne_neg_one {x : Int16} : (x != -1) = true ↔ x.toInt ≠ -1 := by
  rw [bne_iff_ne]
  constructor
  · intro h h'
    apply h
    apply Int16.toInt_inj.mp
    rw [h']; rfl
  · intro h h'
    apply h; rw [h']; rfl

/-- **C35** `from_bare` succeeds on every map and keeps every record, in order: sector heights, vertex
and thing positions, textures, and the vertex and sector numbers (where they are not negative); each
line's `index()` is its position. -/
theorem C35_from_bare (b : BareDoomMap) : ∃ m : FullMap F, FullMap.fromBare b = .ok m ∧
    Matches b.sectors m.sectors (fun _ c s =>
      s.floor_height.toInt = c.floor_height.toInt ∧ s.ceiling_height.toInt = c.ceiling_height.toInt) ∧
    Matches b.vertices m.vertices (fun _ v p => p.x = ofInt v.x.toInt ∧ p.y = ofInt v.y.toInt) ∧
    Matches b.sides m.sides (fun _ c s =>
      s.upper_texture = c.upper_texture ∧ s.lower_texture = c.lower_texture ∧ s.middle_texture = c.middle_texture ∧
      (0 ≤ c.sector.toInt → (s.sector : Int) = c.sector.toInt)) ∧
    Matches b.lines m.lines (fun k c l =>
      l.index = k ∧ (0 ≤ c.v0.toInt → (l.start : Int) = c.v0.toInt) ∧ (0 ≤ c.v1.toInt → (l.stop : Int) = c.v1.toInt)) ∧
    Matches b.things m.things (fun _ t u => u.point.x = ofInt t.x.toInt ∧ u.point.y = ofInt t.y.toInt) := by
  refine ⟨_, fromBare_eq b, ?_, ?_, ?_, ?_, ?_⟩
  · exact matches_map _ _ _ fun _ x => ⟨toInt32_toInt _, toInt32_toInt _⟩
  · exact matches_map _ _ _ fun _ x => ⟨rfl, rfl⟩
  · refine matches_map _ _ _ fun _ x => ⟨rfl, rfl, rfl, fun h => ?_⟩
    simp only [convSide, i16AsUsize_nonneg h]; omega
  · refine ⟨convLines_length _ _, ?_⟩
    intro k x y hx hy
    rw [convLines_get, hx] at hy
    simp only [Option.map_some, Option.some.injEq, Nat.zero_add] at hy
    subst hy
    refine ⟨rfl, fun h => ?_, fun h => ?_⟩ <;> simp only [convLine, i16AsUsize_nonneg h] <;> omega
  · exact matches_map _ _ _ fun _ x => ⟨rfl, rfl⟩

theorem getElem?_map_some {α β : Type} {l : List α} {f : α → β} {k : Nat} {x : α} (h : l[k]? = some x) :
    (l.map f)[k]? = some (f x) := by simp [h]

theorem mem_convLines {n : Nat} {bs : List BareDoomLine} {l : Line} (h : l ∈ convLines n bs) :
    ∃ k b, bs[k]? = some b ∧ l = convLine (n + k) b := by
  obtain ⟨k, hk⟩ := List.getElem?_of_mem h
  rw [convLines_get] at hk
  rcases hb : bs[k]? with _ | b
  · simp [hb] at hk
  · simp only [hb, Option.map_some, Option.some.injEq] at hk
    exact ⟨k, b, hb, hk.symm⟩

/-- **C36** A line of the converted map has a front (back) side iff the bare line's number for it is not
-1; it is two-sided iff it has both, one-sided iff it has exactly one. -/
theorem C36_missing_sides (b : BareDoomMap) (m : FullMap F) (hm : FullMap.fromBare b = .ok m) (k : Nat)
    (c : BareDoomLine) (hc : b.lines[k]? = some c) :
    ∃ l, m.lines[k]? = some l ∧
      (l.front.isSome ↔ c.front_sidedef.toInt ≠ -1) ∧ (l.back.isSome ↔ c.back_sidedef.toInt ≠ -1) ∧
      (l.isTwoSided = true ↔ c.front_sidedef.toInt ≠ -1 ∧ c.back_sidedef.toInt ≠ -1) ∧
      (l.isOneSided = true ↔ (c.front_sidedef.toInt ≠ -1 ↔ c.back_sidedef.toInt = -1)) := by
  rw [fromBare_eq] at hm
  injection hm with hm; subst hm
  refine ⟨convLine k c, by rw [convLines_get, hc]; simp, ?_⟩
  rw [← ne_neg_one, ← ne_neg_one]
  have : c.back_sidedef.toInt = -1 ↔ ¬ (c.back_sidedef != -1) = true := by rw [ne_neg_one]; simp
  rw [this]
  simp only [convLine, Line.isTwoSided, Line.isOneSided]
  cases c.front_sidedef != -1 <;> cases c.back_sidedef != -1 <;> simp

theorem index_ok {α : Type} {l : List α} {k : Nat} {x : α} (h : l[k]? = some x) : index l k = .ok x := by
  unfold index; rw [h]

theorem index_panic {α : Type} {l : List α} {k : Nat} (h : l.length ≤ k) : index l k = .panic .bounds := by
  unfold index; rw [List.getElem?_eq_none h]

theorem inRange_get {α : Type} {i : Int16} {l : List α} (h : InRange i l) :
    ∃ x, l[i.toInt.toNat]? = some x := ⟨_, List.getElem?_eq_getElem h.2⟩

/-- **C37** If every reference of the bare map is in range, then every accessor of every line of the
converted map returns the record referred to: its start and end vertex, its sides (`None` exactly for
-1), and the sector of every side. -/
theorem C37_accessors_safe (b : BareDoomMap) (m : FullMap F) (hm : FullMap.fromBare b = .ok m) (hw : WellFormed b) :
    (∀ (k : Nat) (c : BareDoomLine) (l : Line), b.lines[k]? = some c → m.lines[k]? = some l →
      (∃ p, m.vertices[c.v0.toInt.toNat]? = some p ∧ m.lineStart l = .ok p) ∧
      (∃ p, m.vertices[c.v1.toInt.toNat]? = some p ∧ m.lineEnd l = .ok p) ∧
      (c.front_sidedef.toInt = -1 → m.lineFront l = .ok none) ∧
      (c.front_sidedef.toInt ≠ -1 → ∃ s, m.sides[c.front_sidedef.toInt.toNat]? = some s ∧ m.lineFront l = .ok (some s)) ∧
      (c.back_sidedef.toInt = -1 → m.lineBack l = .ok none) ∧
      (c.back_sidedef.toInt ≠ -1 → ∃ s, m.sides[c.back_sidedef.toInt.toNat]? = some s ∧ m.lineBack l = .ok (some s))) ∧
    (∀ (k : Nat) (c : BareSide) (s : Side), b.sides[k]? = some c → m.sides[k]? = some s →
      ∃ x, m.sectors[c.sector.toInt.toNat]? = some x ∧ m.sector s.sector = .ok x) := by
  rw [fromBare_eq] at hm
  injection hm with hm; subst hm
  constructor
  · intro k c l hc hl
    dsimp only at hl ⊢
    rw [convLines_get, hc] at hl
    simp only [Option.map_some, Option.some.injEq, Nat.zero_add] at hl
    subst hl
    have hmem := List.mem_of_getElem? hc
    refine ⟨?_, ?_, ?_, ?_, ?_, ?_⟩
    · have hr := hw.starts c hmem
      obtain ⟨v, hv⟩ := inRange_get hr
      refine ⟨_, getElem?_map_some hv, ?_⟩
      unfold FullMap.lineStart FullMap.vertex
      simp only [convLine, i16AsUsize_nonneg hr.1]
      exact index_ok (getElem?_map_some hv)
    · have hr := hw.ends c hmem
      obtain ⟨v, hv⟩ := inRange_get hr
      refine ⟨_, getElem?_map_some hv, ?_⟩
      unfold FullMap.lineEnd FullMap.vertex
      simp only [convLine, i16AsUsize_nonneg hr.1]
      exact index_ok (getElem?_map_some hv)
    · intro h
      have : ¬ (c.front_sidedef != -1) = true := by rw [ne_neg_one]; simpa using h
      simp only [FullMap.lineFront, convLine, if_neg this, Res.mapOption]
    · intro h
      have hr := hw.fronts c hmem h
      obtain ⟨v, hv⟩ := inRange_get hr
      refine ⟨_, getElem?_map_some hv, ?_⟩
      simp only [FullMap.lineFront, convLine, if_pos (ne_neg_one.mpr h), Res.mapOption, FullMap.side,
        i16AsUsize_nonneg hr.1]
      rw [index_ok (getElem?_map_some hv)]
    · intro h
      have : ¬ (c.back_sidedef != -1) = true := by rw [ne_neg_one]; simpa using h
      simp only [FullMap.lineBack, convLine, if_neg this, Res.mapOption]
    · intro h
      have hr := hw.backs c hmem h
      obtain ⟨v, hv⟩ := inRange_get hr
      refine ⟨_, getElem?_map_some hv, ?_⟩
      simp only [FullMap.lineBack, convLine, if_pos (ne_neg_one.mpr h), Res.mapOption, FullMap.side,
        i16AsUsize_nonneg hr.1]
      rw [index_ok (getElem?_map_some hv)]
  · intro k c s hc hs
    dsimp only at hs ⊢
    rw [List.getElem?_map, hc] at hs
    simp only [Option.map_some, Option.some.injEq] at hs
    subst hs
    have hr := hw.sectors c (List.mem_of_getElem? hc)
    obtain ⟨v, hv⟩ := inRange_get hr
    refine ⟨_, getElem?_map_some hv, ?_⟩
    unfold FullMap.sector
    simp only [convSide, i16AsUsize_nonneg hr.1]
    exact index_ok (getElem?_map_some hv)

/-- **C37** A side number other than -1 that is negative (or too large) makes `front()` panic, and
likewise `back()`, `start()`, `end()`. -/
theorem C37_accessors_panic (b : BareDoomMap) (m : FullMap F) (hm : FullMap.fromBare b = .ok m)
    (hsz : b.sides.length < 2 ^ 63 ∧ b.vertices.length < 2 ^ 63) (k : Nat) (c : BareDoomLine) (l : Line)
    (hc : b.lines[k]? = some c) (hl : m.lines[k]? = some l) :
    (c.front_sidedef.toInt ≠ -1 → ¬ InRange c.front_sidedef b.sides → m.lineFront l = .panic .bounds) ∧
    (c.back_sidedef.toInt ≠ -1 → ¬ InRange c.back_sidedef b.sides → m.lineBack l = .panic .bounds) ∧
    (¬ InRange c.v0 b.vertices → m.lineStart l = .panic .bounds) ∧
    (¬ InRange c.v1 b.vertices → m.lineEnd l = .panic .bounds) := by
  rw [fromBare_eq] at hm
  injection hm with hm; subst hm
  dsimp only at hl
  rw [convLines_get, hc] at hl
  simp only [Option.map_some, Option.some.injEq, Nat.zero_add] at hl
  subst hl
  have key : ∀ {n : Nat} (x : Int16), n < 2 ^ 63 → ¬ (0 ≤ x.toInt ∧ x.toInt.toNat < n) → n ≤ i16AsUsize x := by
    intro n x hn hx
    by_cases h : 0 ≤ x.toInt
    · rw [i16AsUsize_nonneg h]; omega
    · have := i16AsUsize_neg (show x.toInt < 0 by omega); omega
  refine ⟨?_, ?_, ?_, ?_⟩
  · intro h hr
    simp only [FullMap.lineFront, convLine, if_pos (ne_neg_one.mpr h), Res.mapOption, FullMap.side]
    rw [index_panic (by rw [List.length_map]; exact key _ hsz.1 hr)]
  · intro h hr
    simp only [FullMap.lineBack, convLine, if_pos (ne_neg_one.mpr h), Res.mapOption, FullMap.side]
    rw [index_panic (by rw [List.length_map]; exact key _ hsz.1 hr)]
  · intro hr
    unfold FullMap.lineStart FullMap.vertex
    exact index_panic (by simp only [List.length_map]; exact key _ hsz.2 hr)
  · intro hr
    unfold FullMap.lineEnd FullMap.vertex
    exact index_panic (by simp only [List.length_map]; exact key _ hsz.2 hr)

/-- A map with a two-sided and a one-sided line, meeting `WellFormed`. -/
def wellFormedSample : BareDoomMap where
  vertices := [⟨0, 0⟩, ⟨64, 0⟩, ⟨64, 64⟩]
  sectors := [⟨0, 128, str "F", str "C", 160, 0, 0⟩, ⟨8, 128, str "F", str "C", 160, 0, 0⟩]
  sides := [⟨0, 0, str "-", str "-", str "A", 0⟩, ⟨0, 0, str "-", str "-", str "A", 1⟩]
  lines := [⟨0, 1, 4, 0, 0, 0, 1⟩, ⟨1, 2, 1, 0, 0, 0, -1⟩]
  things := []

theorem C37_hypotheses_met : WellFormed wellFormedSample := by
  constructor <;> (unfold InRange; decide)

/-! ### C38 -/

theorem bv_toNat_eq {n : Nat} (v : BitVec n) : (v.toNat : Int) = v.toInt % 2 ^ n := by
  have h : BitVec.ofInt n v.toInt = v := BitVec.ofInt_toInt
  have h2 := BitVec.toNat_ofInt (n := n) v.toInt
  rw [h] at h2
  have : (0 : Int) < 2 ^ n := Int.pow_pos (by decide)
  rw [h2]
  have := Int.emod_nonneg v.toInt (b := 2 ^ n) (by omega)
  push_cast
  omega

theorem i16AsU32_toNat (x : Int16) : ((i16AsU32 x).toNat : Int) = x.toInt % 2 ^ 32 := by
  have h := bv_toNat_eq x.toInt32.toBitVec
  have h1 : x.toInt32.toBitVec.toInt = x.toInt := toInt32_toInt x
  rw [h1] at h
  exact h

theorem i16AsU8_toNat (x : Int16) : ((i16AsU8 x).toNat : Int) = x.toInt % 2 ^ 8 := by
  have h := bv_toNat_eq x.toInt8.toBitVec
  have h1 : x.toInt8.toBitVec.toInt = x.toInt.bmod (2 ^ 8) := by
    show x.toInt8.toInt = _
    rw [Int16.toInt_toInt8]
  rw [h1] at h
  have h2 : x.toInt.bmod (2 ^ 8) % ((2 ^ 8 : Nat) : Int) = x.toInt % ((2 ^ 8 : Nat) : Int) := Int.bmod_emod
  exact h.trans h2

/-- **C38, what does hold** (missing: negative tags and types, and light levels outside 0..255; see
`C38_attributes_lost`): tag and special are the bare values when not negative, light when it is within
0..255. -/
theorem C38_attributes_partial (b : BareDoomMap) (m : FullMap F) (hm : FullMap.fromBare b = .ok m) (k : Nat)
    (c : BareSector) (s : Sector) (hc : b.sectors[k]? = some c) (hs : m.sectors[k]? = some s) :
    (0 ≤ c.sector_tag.toInt → (s.tag.toNat : Int) = c.sector_tag.toInt) ∧
    (0 ≤ c.sector_type.toInt → (s.special.toNat : Int) = c.sector_type.toInt) ∧
    (0 ≤ c.light.toInt → c.light.toInt ≤ 255 → (s.light.toNat : Int) = c.light.toInt) := by
  rw [fromBare_eq] at hm
  injection hm with hm; subst hm
  dsimp only at hs
  rw [List.getElem?_map, hc] at hs
  simp only [Option.map_some, Option.some.injEq] at hs
  subst hs
  have := Int16.toInt_lt c.sector_tag
  have := Int16.toInt_lt c.sector_type
  refine ⟨?_, ?_, ?_⟩
  · intro h; simp only [convSector, i16AsU32_toNat]; omega
  · intro h; simp only [convSector, i16AsU32_toNat]; omega
  · intro h h'; simp only [convSector, i16AsU8_toNat]; omega

/-- **C38 is false**: every negative tag or type comes out larger by 2^32, and every light level
outside 0..255 comes out reduced modulo 256. -/
theorem C38_attributes_lost (b : BareDoomMap) (m : FullMap F) (hm : FullMap.fromBare b = .ok m) (k : Nat)
    (c : BareSector) (s : Sector) (hc : b.sectors[k]? = some c) (hs : m.sectors[k]? = some s) :
    (c.sector_tag.toInt < 0 → (s.tag.toNat : Int) = c.sector_tag.toInt + 2 ^ 32) ∧
    (c.sector_type.toInt < 0 → (s.special.toNat : Int) = c.sector_type.toInt + 2 ^ 32) ∧
    (¬ (0 ≤ c.light.toInt ∧ c.light.toInt ≤ 255) → (s.light.toNat : Int) ≠ c.light.toInt ∧
      (s.light.toNat : Int) = c.light.toInt % 256) := by
  rw [fromBare_eq] at hm
  injection hm with hm; subst hm
  dsimp only at hs
  rw [List.getElem?_map, hc] at hs
  simp only [Option.map_some, Option.some.injEq] at hs
  subst hs
  have := Int16.le_toInt c.sector_tag
  have := Int16.le_toInt c.sector_type
  refine ⟨?_, ?_, ?_⟩
  · intro h; simp only [convSector, i16AsU32_toNat]; omega
  · intro h; simp only [convSector, i16AsU32_toNat]; omega
  · intro h; simp only [convSector, i16AsU8_toNat]; omega

/-- **C38, counterexample**: light 256 becomes 0 and tag -1 becomes 4294967295. -/
theorem C38_counterexample : ∃ m : FullMap F,
    FullMap.fromBare { vertices := [], sectors := [⟨0, 128, str "F", str "C", 256, 0, -1⟩], sides := [], lines := [], things := [] }
      = .ok m ∧ ∃ s, m.sectors = [s] ∧ s.light = 0 ∧ s.tag = 4294967295 :=
  ⟨_, fromBare_eq _, _, rfl, rfl, rfl⟩

/-! ### C39 -/

theorem int16_abs (x : Int16) : |x.toInt| ≤ 2 ^ 53 := by
  have h1 := Int16.le_toInt x
  have h2 := Int16.toInt_lt x
  rw [abs_le]; omega

theorem box_loop [IntExact F] (ps : List (Int × Int)) (x0 y0 x1 y1 : Int)
    (hb : ∀ p ∈ ps, |p.1| ≤ 2 ^ 53 ∧ |p.2| ≤ 2 ^ 53)
    (h0 : |x0| ≤ 2 ^ 53) (h1 : |y0| ≤ 2 ^ 53) (h2 : |x1| ≤ 2 ^ 53) (h3 : |y1| ≤ 2 ^ 53)
    (qs : List (Int × Int)) (hq : SmallestBox x0 y0 x1 y1 qs) :
    ∃ a b c d : Int, fromPointsLoop (ps.map ofIntPt) ((ofInt x0 : F), ofInt y0, ofInt x1, ofInt y1) =
        (ofInt a, ofInt b, ofInt c, ofInt d) ∧ SmallestBox a b c d (qs ++ ps) := by
  induction ps generalizing x0 y0 x1 y1 qs with
  | nil => exact ⟨_, _, _, _, rfl, by simpa using hq⟩
  | cons p ps ih =>
    obtain ⟨hp1, hp2⟩ := hb p (by simp)
    have hs : SmallestBox (if p.1 < x0 then p.1 else x0) (if p.2 < y0 then p.2 else y0) (if x1 < p.1 then p.1 else x1)
        (if y1 < p.2 then p.2 else y1) (qs ++ [p]) := by
      obtain ⟨hi, ⟨a, ha, ea⟩, ⟨b, hb, eb⟩, ⟨c, hc, ec⟩, ⟨d, hd, ed⟩⟩ := hq
      have hia := hi a ha
      have hib := hi b hb
      have hic := hi c hc
      have hid := hi d hd
      constructor
      · intro q hq
        rcases List.mem_append.mp hq with h | h
        · have := hi q h
          split_ifs <;> omega
        · simp only [List.mem_singleton] at h
          subst h
          split_ifs <;> omega
      · by_cases h : p.1 < x0
        · exact ⟨p, by simp, by rw [if_pos h]⟩
        · exact ⟨a, by simp [ha], by rw [if_neg h]; exact ea⟩
      · by_cases h : x1 < p.1
        · exact ⟨p, by simp, by rw [if_pos h]⟩
        · exact ⟨b, by simp [hb], by rw [if_neg h]; exact eb⟩
      · by_cases h : p.2 < y0
        · exact ⟨p, by simp, by rw [if_pos h]⟩
        · exact ⟨c, by simp [hc], by rw [if_neg h]; exact ec⟩
      · by_cases h : y1 < p.2
        · exact ⟨p, by simp, by rw [if_pos h]⟩
        · exact ⟨d, by simp [hd], by rw [if_neg h]; exact ed⟩
    obtain ⟨a, b, c, d, e, hh⟩ := ih _ _ _ _ (fun q hq => hb q (List.mem_cons_of_mem _ hq))
      (by split_ifs <;> assumption) (by split_ifs <;> assumption) (by split_ifs <;> assumption)
      (by split_ifs <;> assumption) _ hs
    refine ⟨a, b, c, d, ?_, by simpa using hh⟩
    rw [← e]
    simp only [List.map_cons, fromPointsLoop, ofIntPt, IntExact.lt_ofInt _ _ hp1 h0, IntExact.lt_ofInt _ _ hp2 h1,
      IntExact.lt_ofInt _ _ h2 hp1, IntExact.lt_ofInt _ _ h3 hp2, decide_eq_true_eq]
    congr 1
    split_ifs <;> rfl

/-- **C39** The bounding box of a map with vertices is the smallest box around them: its origin is the
lower left corner and its size the extent, exactly.  (Uses that doubles are exact on integers.) -/
theorem C39_bbox [IntExact F] (b : BareDoomMap) (m : FullMap F) (hm : FullMap.fromBare b = .ok m)
    (hne : b.vertices ≠ []) :
    ∃ x0 y0 x1 y1 : Int, SmallestBox x0 y0 x1 y1 (b.vertices.map fun v => (v.x.toInt, v.y.toInt)) ∧
      m.bbox = { x := ofInt x0, y := ofInt y0, width := ofInt (x1 - x0), height := ofInt (y1 - y0) } := by
  rw [fromBare_eq] at hm
  injection hm with hm; subst hm
  obtain ⟨v, vs, hv⟩ := List.exists_cons_of_ne_nil hne
  have hpts : ∀ l : List BareVertex, l.map (convVertex (F := F)) = (l.map fun v => (v.x.toInt, v.y.toInt)).map ofIntPt := by
    intro l; simp [convVertex, ofIntPt, Function.comp_def]
  have habs : ∀ p ∈ vs.map (fun v => (v.x.toInt, v.y.toInt)), |p.1| ≤ 2 ^ 53 ∧ |p.2| ≤ 2 ^ 53 := by
    intro p hp
    obtain ⟨w, _, rfl⟩ := List.mem_map.mp hp
    exact ⟨int16_abs _, int16_abs _⟩
  obtain ⟨a, c, d, e, h1, h2⟩ := box_loop (F := F) (vs.map fun v => (v.x.toInt, v.y.toInt)) v.x.toInt v.y.toInt v.x.toInt v.y.toInt
    habs (int16_abs _) (int16_abs _) (int16_abs _) (int16_abs _) [(v.x.toInt, v.y.toInt)]
    ⟨by simp, by simp, by simp, by simp, by simp⟩
  rw [hv]
  refine ⟨a, c, d, e, by simpa using h2, ?_⟩
  have hrange : ∀ p ∈ [(v.x.toInt, v.y.toInt)] ++ vs.map (fun v => (v.x.toInt, v.y.toInt)),
      (-32768 ≤ p.1 ∧ p.1 < 32768) ∧ -32768 ≤ p.2 ∧ p.2 < 32768 := by
    intro p hp
    rw [show [(v.x.toInt, v.y.toInt)] ++ vs.map (fun v => (v.x.toInt, v.y.toInt)) = (v :: vs).map fun v => (v.x.toInt, v.y.toInt) from rfl] at hp
    obtain ⟨w, _, rfl⟩ := List.mem_map.mp hp
    exact ⟨⟨Int16.le_toInt _, Int16.toInt_lt _⟩, Int16.le_toInt _, Int16.toInt_lt _⟩
  obtain ⟨_, ⟨p1, m1, e1⟩, ⟨p2, m2, e2⟩, ⟨p3, m3, e3⟩, ⟨p4, m4, e4⟩⟩ := h2
  have r1 := hrange p1 m1
  have r2 := hrange p2 m2
  have r3 := hrange p3 m3
  have r4 := hrange p4 m4
  unfold FullMap.bbox
  simp only [List.map_map]
  rw [show ((fun v : Pt F => ({ x := v.x, y := v.y } : Pt F)) ∘ convVertex) = convVertex from rfl, List.map_cons]
  unfold Rect.fromPoints
  simp only [convVertex]
  rw [hpts, h1]
  dsimp only
  rw [IntExact.sub_ofInt d a (by rw [abs_le]; omega) (by rw [abs_le]; omega) (by rw [abs_le]; omega),
    IntExact.sub_ofInt e c (by rw [abs_le]; omega) (by rw [abs_le]; omega) (by rw [abs_le]; omega)]

/-- **C39** A map without vertices has the zero box. -/
theorem C39_bbox_empty (b : BareDoomMap) (m : FullMap F) (hm : FullMap.fromBare b = .ok m) (he : b.vertices = []) :
    m.bbox = { x := ofInt 0, y := ofInt 0, width := ofInt 0, height := ofInt 0 } := by
  rw [fromBare_eq] at hm
  injection hm with hm; subst hm
  simp [FullMap.bbox, he, Rect.fromPoints, Rect.zero]

/-! ### C40 -/

theorem i16AsU32_eq_one (x : Int16) : (i16AsU32 x == 1) = true ↔ x.toInt = 1 := by
  rw [beq_iff_eq, ← UInt32.toNat_inj]
  have h := i16AsU32_toNat x
  have h1 := Int16.le_toInt x
  have h2 := Int16.toInt_lt x
  constructor
  · intro e
    rw [e] at h
    change (1 : Int) = _ at h
    omega
  · intro e
    rw [e] at h
    show _ = 1
    omega

/-- **C40** `find_player_start` gives the position of the first thing of type 1: `some p` iff some thing
of type 1 is at `p` and none before it has type 1. -/
theorem C40_player_start (b : BareDoomMap) (m : FullMap F) (hm : FullMap.fromBare b = .ok m) (p : Pt F) :
    m.findPlayerStart = some p ↔ ∃ before t after, b.things = before ++ t :: after ∧
      (∀ u ∈ before, u.doomednum.toInt ≠ 1) ∧ t.doomednum.toInt = 1 ∧ p = ⟨ofInt t.x.toInt, ofInt t.y.toInt⟩ := by
  rw [fromBare_eq] at hm
  injection hm with hm; subst hm
  unfold FullMap.findPlayerStart
  dsimp only
  rw [List.find?_map, Option.map_map, Option.map_eq_some_iff]
  constructor
  · rintro ⟨t, ht, rfl⟩
    obtain ⟨h1, before, after, h2, h3⟩ := List.find?_eq_some_iff_append.mp ht
    refine ⟨before, t, after, h2, ?_, (i16AsU32_eq_one _).mp h1, rfl⟩
    intro u hu hd
    have := h3 u hu
    rw [Function.comp] at this
    have h4 := (i16AsU32_eq_one u.doomednum).mpr hd
    simp [convThing, h4] at this
  · rintro ⟨before, t, after, h1, h2, h3, rfl⟩
    refine ⟨t, ?_, rfl⟩
    apply List.find?_eq_some_iff_append.mpr
    refine ⟨(i16AsU32_eq_one _).mpr h3, before, after, h1, ?_⟩
    intro u hu
    have h4 : ¬ (i16AsU32 u.doomednum == 1) = true := fun h => h2 u hu ((i16AsU32_eq_one _).mp h)
    simpa [convThing] using h4

/-- **C40** and `None` iff the map has no thing of type 1. -/
theorem C40_no_player_start (b : BareDoomMap) (m : FullMap F) (hm : FullMap.fromBare b = .ok m) :
    m.findPlayerStart = none ↔ ∀ t ∈ b.things, t.doomednum.toInt ≠ 1 := by
  rw [fromBare_eq] at hm
  injection hm with hm; subst hm
  unfold FullMap.findPlayerStart
  dsimp only
  rw [List.find?_map, Option.map_map, Option.map_eq_none_iff, List.find?_eq_none]
  constructor
  · intro h t ht hd
    exact h t ht ((i16AsU32_eq_one _).mpr hd)
  · intro h t ht hd
    exact h t ht ((i16AsU32_eq_one _).mp hd)

end Idc
