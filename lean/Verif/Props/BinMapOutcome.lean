import Verif.Props.BinMap
/-!
# C27: what `parse_doom_map` returns
-/

namespace Idc

theorem entrySlice_ok {w : BareWAD} {i : Nat} {d : Bytes} (h : LumpIs w i d) : w.entrySlice i = .ok d := by
  obtain ⟨e, he, hb, hr⟩ := h
  obtain ⟨d', h1, h2⟩ := (C06_entrySlice w i).1 e he hb
  rw [h1, (isRange_iff hb).mp hr, (isRange_iff hb).mp h2]

theorem entrySlice_panic {w : BareWAD} {i : Nat} (h : ¬ ∃ d, LumpIs w i d) : w.entrySlice i = .panic .bounds := by
  rcases he : w.directory[i]? with _ | e
  · exact (C06_entrySlice w i).2.2 (List.getElem?_eq_none_iff.mp he)
  · by_cases hb : e.filepos.toNat + e.size.toNat ≤ w.buffer.length
    · exfalso
      obtain ⟨d', h1, h2⟩ := (C06_entrySlice w i).1 e he hb
      exact h ⟨d', e, he, hb, h2⟩
    · exact (C06_entrySlice w i).2.1 e he (by omega)

theorem lump_vertexes (b : Bytes) :
    nomToResult "VERTEXES lump" b (vertexesLump b) = .ok (records 4 vertexAt b (b.length / 4)) := by
  obtain ⟨r, h⟩ := C22_vertexes b; rw [h]; rfl

theorem lump_sectors (b : Bytes) : ∃ k, LongestRun 26 SectorOk b k ∧
    nomToResult "SECTORS lump" b (sectorsLump b) = .ok (records 26 sectorAt b k) := by
  obtain ⟨k, r, hk, h⟩ := C23_sectors b; rw [h]; exact ⟨k, hk, rfl⟩

theorem lump_sidedefs (b : Bytes) : ∃ k, LongestRun 30 SideOk b k ∧
    nomToResult "SIDEDEFS lump" b (sidedefsLump b) = .ok (records 30 sideAt b k) := by
  obtain ⟨k, r, hk, h⟩ := C23_sidedefs b; rw [h]; exact ⟨k, hk, rfl⟩

theorem lump_doomLines (b : Bytes) :
    nomToResult "LINEDEFS lump" b (doomLinedefsLump b) = .ok (records 14 doomLineAt b (b.length / 14)) := by
  obtain ⟨r, h⟩ := (C22_linedefs b).1; rw [h]; rfl

theorem lump_hexenLines (b : Bytes) :
    nomToResult "LINEDEFS lump" b (hexenLinedefsLump b) = .ok (records 16 hexenLineAt b (b.length / 16)) := by
  obtain ⟨r, h⟩ := (C22_linedefs b).2; rw [h]; rfl

theorem lump_doomThings (b : Bytes) :
    nomToResult "THINGS lump" b (doomThingsLump b) = .ok (records 10 doomThingAt b (b.length / 10)) := by
  obtain ⟨r, h⟩ := (C22_things b).1; rw [h]; rfl

theorem lump_hexenThings (b : Bytes) :
    nomToResult "THINGS lump" b (hexenThingsLump b) = .ok (records 20 hexenThingAt b (b.length / 20)) := by
  obtain ⟨r, h⟩ := (C22_things b).2; rw [h]; rfl

/-- What a lump lookup can do: absent, out of bounds, or there. -/
theorem lookup_cases (w : BareWAD) (name : String) (o : Option Nat) :
    (o = none ∧ requireLump name o = .err (.missingMapLump name)) ∨
    (∃ i, o = some i ∧ requireLump name o = .ok i ∧ (¬ ∃ d, LumpIs w i d) ∧ w.entrySlice i = .panic .bounds) ∨
    (∃ i d, o = some i ∧ requireLump name o = .ok i ∧ LumpIs w i d ∧ w.entrySlice i = .ok d) := by
  rcases o with _ | i
  · exact .inl ⟨rfl, rfl⟩
  · by_cases h : ∃ d, LumpIs w i d
    · obtain ⟨d, hd⟩ := h
      exact .inr (.inr ⟨i, d, rfl, rfl, hd, entrySlice_ok hd⟩)
    · exact .inr (.inl ⟨i, rfl, rfl, h, entrySlice_panic h⟩)

/-- The `j`-th needed lump is the first one that cannot be read. -/
def FirstBad (w : BareWAD) (r : MapEntryBlock) (j : Nat) : Prop :=
  ∀ k, k < j → ∃ name i d, (neededLumps r)[k]? = some (name, some i) ∧ LumpIs w i d

/-- **C27** If the first unreadable lump (in the order VERTEXES, SECTORS, SIDEDEFS, LINEDEFS, THINGS)
is absent, the result is `MissingMapLump` naming it. -/
theorem C27_missing (w : BareWAD) (r : MapEntryBlock) (j : Nat) (name : String)
    (hj : (neededLumps r)[j]? = some (name, none)) (hb : FirstBad w r j) :
    parseDoomMap w r = .err (.missingMapLump name) := by
  unfold parseDoomMap
  have hlt : j < 5 := by
    have := List.getElem?_eq_some_iff.mp hj
    obtain ⟨h, _⟩ := this; simpa [neededLumps] using h
  have get : ∀ k, k < j → ∃ name i d, (neededLumps r)[k]? = some (name, some i) ∧ LumpIs w i d := hb
  rcases j with _ | _ | _ | _ | _ | j
  · simp only [neededLumps, List.getElem?_cons_zero, Option.some.injEq, Prod.mk.injEq] at hj
    obtain ⟨rfl, h⟩ := hj
    rw [h]; rfl
  · obtain ⟨n0, i0, d0, e0, l0⟩ := get 0 (by omega)
    simp only [neededLumps, List.getElem?_cons_zero, List.getElem?_cons_succ, Option.some.injEq, Prod.mk.injEq] at hj e0
    obtain ⟨rfl, h⟩ := hj
    simp only [e0.2, h, requireLump, Res.bind_ok, Res.bind_err, entrySlice_ok l0, lump_vertexes]
  · obtain ⟨n0, i0, d0, e0, l0⟩ := get 0 (by omega)
    obtain ⟨n1, i1, d1, e1, l1⟩ := get 1 (by omega)
    simp only [neededLumps, List.getElem?_cons_zero, List.getElem?_cons_succ, Option.some.injEq, Prod.mk.injEq] at hj e0 e1
    obtain ⟨rfl, h⟩ := hj
    obtain ⟨k1, _, hk1⟩ := lump_sectors d1
    simp only [e0.2, e1.2, h, requireLump, Res.bind_ok, Res.bind_err, entrySlice_ok l0, entrySlice_ok l1, lump_vertexes, hk1]
  · obtain ⟨n0, i0, d0, e0, l0⟩ := get 0 (by omega)
    obtain ⟨n1, i1, d1, e1, l1⟩ := get 1 (by omega)
    obtain ⟨n2, i2, d2, e2, l2⟩ := get 2 (by omega)
    simp only [neededLumps, List.getElem?_cons_zero, List.getElem?_cons_succ, Option.some.injEq, Prod.mk.injEq] at hj e0 e1 e2
    obtain ⟨rfl, h⟩ := hj
    obtain ⟨k1, _, hk1⟩ := lump_sectors d1
    obtain ⟨k2, _, hk2⟩ := lump_sidedefs d2
    simp only [e0.2, e1.2, e2.2, h, requireLump, Res.bind_ok, Res.bind_err, entrySlice_ok l0, entrySlice_ok l1,
      entrySlice_ok l2, lump_vertexes, hk1, hk2, ite_self]
  · obtain ⟨n0, i0, d0, e0, l0⟩ := get 0 (by omega)
    obtain ⟨n1, i1, d1, e1, l1⟩ := get 1 (by omega)
    obtain ⟨n2, i2, d2, e2, l2⟩ := get 2 (by omega)
    obtain ⟨n3, i3, d3, e3, l3⟩ := get 3 (by omega)
    simp only [neededLumps, List.getElem?_cons_zero, List.getElem?_cons_succ, Option.some.injEq, Prod.mk.injEq] at hj e0 e1 e2 e3
    obtain ⟨rfl, h⟩ := hj
    obtain ⟨k1, _, hk1⟩ := lump_sectors d1
    obtain ⟨k2, _, hk2⟩ := lump_sidedefs d2
    simp only [e0.2, e1.2, e2.2, e3.2, h, requireLump, Res.bind_ok, Res.bind_err, entrySlice_ok l0, entrySlice_ok l1,
      entrySlice_ok l2, entrySlice_ok l3, lump_vertexes, hk1, hk2, lump_doomLines, lump_hexenLines, ite_self]
  · omega

/-- **C27** If the first unreadable lump is listed but lies outside the file, the result is a
bounds panic. -/
theorem C27_panic (w : BareWAD) (r : MapEntryBlock) (j : Nat) (name : String) (i : Nat)
    (hj : (neededLumps r)[j]? = some (name, some i)) (hi : ¬ ∃ d, LumpIs w i d) (hb : FirstBad w r j) :
    parseDoomMap w r = .panic .bounds := by
  unfold parseDoomMap
  have hp := entrySlice_panic hi
  have get : ∀ k, k < j → ∃ name i d, (neededLumps r)[k]? = some (name, some i) ∧ LumpIs w i d := hb
  rcases j with _ | _ | _ | _ | _ | j
  · simp only [neededLumps, List.getElem?_cons_zero, Option.some.injEq, Prod.mk.injEq] at hj
    obtain ⟨rfl, h⟩ := hj
    simp only [h, requireLump, Res.bind_ok, hp, Res.bind_panic]
  · obtain ⟨n0, i0, d0, e0, l0⟩ := get 0 (by omega)
    simp only [neededLumps, List.getElem?_cons_zero, List.getElem?_cons_succ, Option.some.injEq, Prod.mk.injEq] at hj e0
    obtain ⟨rfl, h⟩ := hj
    simp only [e0.2, h, requireLump, Res.bind_ok, Res.bind_panic, entrySlice_ok l0, lump_vertexes, hp]
  · obtain ⟨n0, i0, d0, e0, l0⟩ := get 0 (by omega)
    obtain ⟨n1, i1, d1, e1, l1⟩ := get 1 (by omega)
    simp only [neededLumps, List.getElem?_cons_zero, List.getElem?_cons_succ, Option.some.injEq, Prod.mk.injEq] at hj e0 e1
    obtain ⟨rfl, h⟩ := hj
    obtain ⟨k1, _, hk1⟩ := lump_sectors d1
    simp only [e0.2, e1.2, h, requireLump, Res.bind_ok, Res.bind_panic, entrySlice_ok l0, entrySlice_ok l1, lump_vertexes, hk1, hp]
  · obtain ⟨n0, i0, d0, e0, l0⟩ := get 0 (by omega)
    obtain ⟨n1, i1, d1, e1, l1⟩ := get 1 (by omega)
    obtain ⟨n2, i2, d2, e2, l2⟩ := get 2 (by omega)
    simp only [neededLumps, List.getElem?_cons_zero, List.getElem?_cons_succ, Option.some.injEq, Prod.mk.injEq] at hj e0 e1 e2
    obtain ⟨rfl, h⟩ := hj
    obtain ⟨k1, _, hk1⟩ := lump_sectors d1
    obtain ⟨k2, _, hk2⟩ := lump_sidedefs d2
    simp only [e0.2, e1.2, e2.2, h, requireLump, Res.bind_ok, Res.bind_panic, entrySlice_ok l0, entrySlice_ok l1,
      entrySlice_ok l2, lump_vertexes, hk1, hk2, hp, ite_self]
  · obtain ⟨n0, i0, d0, e0, l0⟩ := get 0 (by omega)
    obtain ⟨n1, i1, d1, e1, l1⟩ := get 1 (by omega)
    obtain ⟨n2, i2, d2, e2, l2⟩ := get 2 (by omega)
    obtain ⟨n3, i3, d3, e3, l3⟩ := get 3 (by omega)
    simp only [neededLumps, List.getElem?_cons_zero, List.getElem?_cons_succ, Option.some.injEq, Prod.mk.injEq] at hj e0 e1 e2 e3
    obtain ⟨rfl, h⟩ := hj
    obtain ⟨k1, _, hk1⟩ := lump_sectors d1
    obtain ⟨k2, _, hk2⟩ := lump_sidedefs d2
    simp only [e0.2, e1.2, e2.2, e3.2, h, requireLump, Res.bind_ok, Res.bind_panic, entrySlice_ok l0, entrySlice_ok l1,
      entrySlice_ok l2, entrySlice_ok l3, lump_vertexes, hk1, hk2, lump_doomLines, lump_hexenLines, hp, ite_self]
  · simp [neededLumps] at hj

/-- **C27** If all five lumps can be read, parsing succeeds: a Doom map if the block's format is Doom
and a Hexen map otherwise, decoded from the lumps. -/
theorem C27_ok (w : BareWAD) (r : MapEntryBlock) {iv ic is il it : Nat} {v c s l t : Bytes}
    (hv : r.vertexes_index = some iv) (hc : r.sectors_index = some ic) (hs : r.sidedefs_index = some is)
    (hl : r.linedefs_index = some il) (ht : r.things_index = some it)
    (dv : LumpIs w iv v) (dc : LumpIs w ic c) (ds : LumpIs w is s) (dl : LumpIs w il l) (dt : LumpIs w it t) :
    (r.format = .Doom → ∃ m, parseDoomMap w r = .ok (.doom m) ∧ DecodesDoom v c s l t m) ∧
    (r.format ≠ .Doom → ∃ m, parseDoomMap w r = .ok (.hexen m) ∧ DecodesHexen v c s l t m) := by
  obtain ⟨k1, h1, hk1⟩ := lump_sectors c
  obtain ⟨k2, h2, hk2⟩ := lump_sidedefs s
  constructor
  · intro hf
    refine ⟨⟨records 4 vertexAt v (v.length / 4), records 26 sectorAt c k1, records 30 sideAt s k2,
      records 14 doomLineAt l (l.length / 14), records 10 doomThingAt t (t.length / 10)⟩, ?_, ?_⟩
    · unfold parseDoomMap
      simp only [hv, hc, hs, hl, ht, requireLump, Res.bind_ok, entrySlice_ok dv, entrySlice_ok dc, entrySlice_ok ds,
        entrySlice_ok dl, entrySlice_ok dt, lump_vertexes, hk1, hk2, hf, if_true, lump_doomLines, lump_doomThings]
      rfl
    · exact ⟨rfl, ⟨k1, h1, rfl⟩, ⟨k2, h2, rfl⟩, rfl, rfl⟩
  · intro hf
    refine ⟨⟨records 4 vertexAt v (v.length / 4), records 26 sectorAt c k1, records 30 sideAt s k2,
      records 16 hexenLineAt l (l.length / 16), records 20 hexenThingAt t (t.length / 20)⟩, ?_, ?_⟩
    · unfold parseDoomMap
      simp only [hv, hc, hs, hl, ht, requireLump, Res.bind_ok, entrySlice_ok dv, entrySlice_ok dc, entrySlice_ok ds,
        entrySlice_ok dl, entrySlice_ok dt, lump_vertexes, hk1, hk2, hf, if_false, lump_hexenLines, lump_hexenThings]
      rfl
    · exact ⟨rfl, ⟨k1, h1, rfl⟩, ⟨k2, h2, rfl⟩, rfl, rfl⟩

/-- **C27** No other outcome: the three cases above cover every WAD and block. -/
theorem C27_cases (w : BareWAD) (r : MapEntryBlock) :
    (∃ j name, (neededLumps r)[j]? = some (name, none) ∧ FirstBad w r j) ∨
    (∃ j name i, (neededLumps r)[j]? = some (name, some i) ∧ (¬ ∃ d, LumpIs w i d) ∧ FirstBad w r j) ∨
    (∃ iv ic is il it v c s l t, r.vertexes_index = some iv ∧ r.sectors_index = some ic ∧
      r.sidedefs_index = some is ∧ r.linedefs_index = some il ∧ r.things_index = some it ∧
      LumpIs w iv v ∧ LumpIs w ic c ∧ LumpIs w is s ∧ LumpIs w il l ∧ LumpIs w it t) := by
  have go : ∀ j, (∀ p ∈ neededLumps r, True) → j ≤ 5 →
      ((∃ j name, (neededLumps r)[j]? = some (name, none) ∧ FirstBad w r j) ∨
       (∃ j name i, (neededLumps r)[j]? = some (name, some i) ∧ (¬ ∃ d, LumpIs w i d) ∧ FirstBad w r j)) ∨
      FirstBad w r j := by
    intro j _ hj
    induction j with
    | zero => exact .inr fun k hk => absurd hk (by omega)
    | succ j ih =>
      rcases ih (by omega) with h | h
      · exact .inl h
      · have hlen : j < (neededLumps r).length := by simp [neededLumps]; omega
        rcases he : (neededLumps r)[j] with ⟨name, o⟩
        have he' : (neededLumps r)[j]? = some (name, o) := by rw [List.getElem?_eq_getElem hlen, he]
        rcases lookup_cases w name o with ⟨rfl, _⟩ | ⟨i, rfl, _, hn, _⟩ | ⟨i, d, rfl, _, hd, _⟩
        · exact .inl (.inl ⟨j, name, he', h⟩)
        · exact .inl (.inr ⟨j, name, i, he', hn, h⟩)
        · refine .inr fun k hk => ?_
          by_cases hkj : k = j
          · subst hkj; exact ⟨name, i, d, he', hd⟩
          · exact h k (by omega)
  rcases go 5 (fun _ _ => trivial) (by omega) with (h | h) | h
  · exact .inl h
  · exact .inr (.inl h)
  · right; right
    obtain ⟨_, iv, v, e0, l0⟩ := h 0 (by omega)
    obtain ⟨_, ic, c, e1, l1⟩ := h 1 (by omega)
    obtain ⟨_, is, s, e2, l2⟩ := h 2 (by omega)
    obtain ⟨_, il, l, e3, l3⟩ := h 3 (by omega)
    obtain ⟨_, it, t, e4, l4⟩ := h 4 (by omega)
    simp only [neededLumps, List.getElem?_cons_zero, List.getElem?_cons_succ, Option.some.injEq, Prod.mk.injEq] at e0 e1 e2 e3 e4
    exact ⟨iv, ic, is, il, it, v, c, s, l, t, e0.2, e1.2, e2.2, e3.2, e4.2, l0, l1, l2, l3, l4⟩

/-- Non-vacuity: a one-entry WAD whose entry is a vertex lump; the block lists only VERTEXES, so
SECTORS is reported. -/
example :
    parseDoomMap { buffer := [1, 0, 2, 0], header := ⟨.PWAD, 1, 0⟩, directory := [⟨0, 4, str "VERTEXES"⟩] }
      { format := .Doom, name := .ExMy 1 1, marker_index := 0, last_index := 0, vertexes_index := some 0 } =
    .err (.missingMapLump "SECTORS") := by
  apply C27_missing _ _ 1 _ rfl
  intro k hk
  obtain rfl : k = 0 := by omega
  refine ⟨"VERTEXES", 0, [1, 0, 2, 0], rfl, ⟨0, 4, str "VERTEXES"⟩, rfl, by decide, by decide, ?_⟩
  intro k hk
  have : k < 4 := hk
  rcases k with _ | _ | _ | _ | k <;> first | rfl | omega

end Idc
