import Verif.Lemmas.Bytes
import Verif.Spec.Wad

namespace Idc

theorem wadEntry_ok {i : Bytes} (h : 16 ≤ i.length) (hp : Printable (nameAt i 8 8)) :
    wadEntry i = .ok (i.drop 16)
      { filepos := UInt32.ofNat (u32At i 0), size := UInt32.ofNat (u32At i 4), name := nameAt i 8 8 } := by
  unfold wadEntry
  rw [Parser.bind_def, leU32_spec, if_neg (by omega)]
  dsimp only
  rw [Parser.bind_def, leU32_spec, if_neg (by simp; omega)]
  dsimp only
  rw [Parser.bind_def, fixedLengthAscii_ok (by simp; omega) (by simpa using hp)]
  simp [Parser.pure_def]

theorem wadEntry_bad {i : Bytes} (h : 16 ≤ i.length) (hp : ¬ Printable (nameAt i 8 8)) :
    ∃ b bs, wadEntry i = .err (.error (.code (b :: bs) (.custom 0))) := by
  unfold wadEntry
  rw [Parser.bind_def, leU32_spec, if_neg (by omega)]
  dsimp only
  rw [Parser.bind_def, leU32_spec, if_neg (by simp; omega)]
  dsimp only
  obtain ⟨b, bs, hb⟩ := fixedLengthAscii_bad (len := 8) (i := (i.drop 4).drop 4) (by simp; omega)
    (by simpa using hp)
  exact ⟨b, bs, by rw [Parser.bind_def, hb]⟩

/-- Row `k` of a table. -/
def entryAt (i : Bytes) (k : Nat) : DirEntry :=
  { filepos := UInt32.ofNat (u32At i (16 * k)), size := UInt32.ofNat (u32At i (16 * k + 4)),
    name := nameAt i (16 * k + 8) 8 }

theorem entryAt_drop (i : Bytes) (k : Nat) : entryAt (i.drop 16) k = entryAt i (k + 1) := by
  have : 16 + 16 * k = 16 * (k + 1) := by omega
  simp [entryAt, ← Nat.add_assoc, this]

theorem wadEntries_ok (n : Nat) (i : Bytes) (h : 16 * n ≤ i.length)
    (hp : ∀ k < n, Printable (nameAt i (16 * k + 8) 8)) :
    wadEntries n i = .ok (i.drop (16 * n)) ((List.range n).map (entryAt i)) := by
  induction n generalizing i with
  | zero => simp [wadEntries]
  | succ n ih =>
    unfold wadEntries
    rw [wadEntry_ok (by omega) (by simpa using hp 0 (by omega))]
    dsimp only
    rw [ih (i.drop 16) (by simp; omega)]
    · dsimp only
      rw [List.range_succ_eq_map, List.map_cons, List.map_map]
      congr 1
      · simp; congr 1; omega
      · congr 1
        apply List.map_congr_left
        intro k _
        exact entryAt_drop i k
    · intro k hk
      have := hp (k + 1) (by omega)
      simp only [nameAt_drop]
      have e : 16 + (16 * k + 8) = 16 * (k + 1) + 8 := by omega
      rwa [e]

theorem wadEntries_bad (n : Nat) (i : Bytes) (h : 16 * n ≤ i.length)
    (hp : ∃ k < n, ¬ Printable (nameAt i (16 * k + 8) 8)) :
    ∃ b bs, wadEntries n i = .err (.error (.code (b :: bs) (.custom 0))) := by
  induction n generalizing i with
  | zero => obtain ⟨k, hk, _⟩ := hp; omega
  | succ n ih =>
    unfold wadEntries
    by_cases h0 : Printable (nameAt i 8 8)
    · rw [wadEntry_ok (by omega) h0]
      obtain ⟨b, bs, hb⟩ := ih (i.drop 16) (by simp; omega) (by
        obtain ⟨k, hk, hk'⟩ := hp
        rcases k with _ | k
        · exact absurd (by simpa using h0) hk'
        · refine ⟨k, by omega, ?_⟩
          simp only [nameAt_drop]
          have e : 16 + (16 * k + 8) = 16 * (k + 1) + 8 := by omega
          rwa [e])
      exact ⟨b, bs, by simp [hb]⟩
    · obtain ⟨b, bs, hb⟩ := wadEntry_bad (by omega) h0
      exact ⟨b, bs, by rw [hb]⟩

/-! ### The magic -/

theorem MagicPossible_iff_HasMagic {b : Bytes} (h : 4 ≤ b.length) :
    MagicPossible b ↔ ∃ t, HasMagic b t := by
  have : ∀ t, (magicOf t).take b.length = magicOf t := by
    intro t; apply List.take_of_length_le; cases t <;> simp [magicOf] <;> omega
  simp [MagicPossible, HasMagic, this]

theorem str_IWAD : str "IWAD" = [0x49, 0x57, 0x41, 0x44] := by decide
theorem str_PWAD : str "PWAD" = [0x50, 0x57, 0x41, 0x44] := by decide

/-- The three outcomes of reading the magic. -/
theorem magic_cases (b : Bytes) :
    (∃ t, HasMagic b t ∧ returnError (.custom 1) (alt2 iwadTag pwadTag) b = .ok (b.drop 4) t) ∨
    (MagicPossible b ∧ b.length < 4 ∧ ∃ n, returnError (.custom 1) (alt2 iwadTag pwadTag) b = .err (.incomplete n)) ∨
    (¬ MagicPossible b ∧ ∃ l, returnError (.custom 1) (alt2 iwadTag pwadTag) b = .err (.failure (.list l))) := by
  have hmp : MagicPossible b ↔ (b.take 4 = (magicOf .IWAD).take b.length ∨ b.take 4 = (magicOf .PWAD).take b.length) := by
    constructor
    · rintro ⟨t, ht⟩; cases t
      · left; simpa [bytesAt] using ht
      · right; simpa [bytesAt] using ht
    · rintro (h | h)
      · exact ⟨_, by simpa [bytesAt] using h⟩
      · exact ⟨_, by simpa [bytesAt] using h⟩
  have hI : HasMagic b .IWAD ↔ b.take 4 = [0x49, 0x57, 0x41, 0x44] := by simp [HasMagic, bytesAt, magicOf]
  have hP : HasMagic b .PWAD ↔ b.take 4 = [0x50, 0x57, 0x41, 0x44] := by simp [HasMagic, bytesAt, magicOf]
  have key : ∀ (P Q R : Prop), (P ∨ Q ∨ R) → (P ∨ Q ∨ R) := fun _ _ _ h => h
  simp only [returnError, alt2, iwadTag, pwadTag, value, tag, str_IWAD, str_PWAD]
  rcases b with _ | ⟨b0, _ | ⟨b1, _ | ⟨b2, _ | ⟨b3, r⟩⟩⟩⟩
  · right; left
    simp [hmp, tagGo, magicOf]
  · simp only [hmp, tagGo, magicOf]
    by_cases h0 : b0 = 0x49
    · subst h0; simp
    · by_cases h1 : b0 = 0x50
      · subst h1; simp
      · right; right; simp [h0, h1, errorNode]
  · simp only [hmp, tagGo, magicOf]
    by_cases h0 : b0 = 0x49
    · subst h0
      by_cases h2 : b1 = 0x57
      · subst h2; simp
      · right; right; simp [h2, errorNode]
    · by_cases h1 : b0 = 0x50
      · subst h1
        by_cases h2 : b1 = 0x57
        · subst h2; simp
        · right; right; simp [h2, errorNode]
      · right; right; simp [h0, h1, errorNode]
  · simp only [hmp, tagGo, magicOf]
    by_cases h0 : b0 = 0x49
    · subst h0
      by_cases h2 : b1 = 0x57
      · subst h2
        by_cases h3 : b2 = 0x41
        · subst h3; simp
        · right; right; simp [h3, errorNode]
      · right; right; simp [h2, errorNode]
    · by_cases h1 : b0 = 0x50
      · subst h1
        by_cases h2 : b1 = 0x57
        · subst h2
          by_cases h3 : b2 = 0x41
          · subst h3; simp
          · right; right; simp [h3, errorNode]
        · right; right; simp [h2, errorNode]
      · right; right; simp [h0, h1, errorNode]
  · by_cases hi : HasMagic (b0 :: b1 :: b2 :: b3 :: r) .IWAD
    · left
      refine ⟨.IWAD, hi, ?_⟩
      simp [hI] at hi
      obtain ⟨rfl, rfl, rfl, rfl⟩ := hi
      simp [tagGo]
    · by_cases hp : HasMagic (b0 :: b1 :: b2 :: b3 :: r) .PWAD
      · left
        refine ⟨.PWAD, hp, ?_⟩
        simp [hP] at hp
        obtain ⟨rfl, rfl, rfl, rfl⟩ := hp
        simp [tagGo]
      · right; right
        refine ⟨?_, ?_⟩
        · rw [MagicPossible_iff_HasMagic (by simp)]
          rintro ⟨t, ht⟩; cases t
          · exact hi ht
          · exact hp ht
        · simp only [hI, hP, List.take_succ_cons, List.take_zero, List.cons.injEq, and_true] at hi hp
          simp only [tagGo]
          by_cases h0 : b0 = 0x49
          · subst h0
            by_cases h1 : b1 = 0x57
            · subst h1
              by_cases h2 : b2 = 0x41
              · subst h2
                have h3 : b3 ≠ 0x44 := fun h => hi (by simp [h])
                simp [h3, errorNode]
              · simp [h2, errorNode]
            · simp [h1, errorNode]
          · by_cases h0' : b0 = 0x50
            · subst h0'
              by_cases h1 : b1 = 0x57
              · subst h1
                by_cases h2 : b2 = 0x41
                · subst h2
                  have h3 : b3 ≠ 0x44 := fun h => hp (by simp [h])
                  simp [h3, errorNode]
                · simp [h2, errorNode]
              · simp [h1, errorNode]
            · simp [h0, h0', errorNode]

theorem HasMagic.length {b : Bytes} {t} (h : HasMagic b t) : 4 ≤ b.length := by
  have := congrArg List.length h
  cases t <;> simp [bytesAt, magicOf] at this <;> omega

/-- The outcomes of `wad_header`. -/
theorem wadHeader_cases (b : Bytes) :
    (∃ t, 12 ≤ b.length ∧ HasMagic b t ∧ wadHeader b = .ok (b.drop 12)
      { identification := t, numlumps := UInt32.ofNat (u32At b 4), infotableofs := UInt32.ofNat (u32At b 8) }) ∨
    (b.length < 12 ∧ MagicPossible b ∧ ∃ n, wadHeader b = .err (.incomplete n)) ∨
    (¬ MagicPossible b ∧ ∃ l, wadHeader b = .err (.failure (.list l))) := by
  unfold wadHeader
  rcases magic_cases b with ⟨t, ht, hr⟩ | ⟨hm, hl, n, hr⟩ | ⟨hm, l, hr⟩
  · have h4 := ht.length
    have hm : MagicPossible b := (MagicPossible_iff_HasMagic h4).mpr ⟨t, ht⟩
    rw [Parser.bind_def, hr]
    dsimp only
    rw [Parser.bind_def, leU32_spec]
    by_cases h8 : b.length < 8
    · rw [if_pos (by simp; omega)]
      exact Or.inr (Or.inl ⟨by omega, hm, _, rfl⟩)
    · rw [if_neg (by simp; omega)]
      dsimp only
      rw [Parser.bind_def, leU32_spec]
      by_cases h12 : b.length < 12
      · rw [if_pos (by simp; omega)]
        exact Or.inr (Or.inl ⟨by omega, hm, _, rfl⟩)
      · rw [if_neg (by simp; omega)]
        exact Or.inl ⟨t, by omega, ht, by simp [Parser.pure_def]⟩
  · rw [Parser.bind_def, hr]
    exact Or.inr (Or.inl ⟨by omega, hm, n, rfl⟩)
  · rw [Parser.bind_def, hr]
    exact Or.inr (Or.inr ⟨hm, l, rfl⟩)

/-- The outcomes of `parse_wad`. -/
theorem parseWad_cases (b : Bytes) :
    (IsWad b ∧ ∃ w, parseWad b = .ok w ∧ Describes b w) ∨
    (b.length < 12 ∧ MagicPossible b ∧ parseWad b = .err (.truncatedData "wad header")) ∨
    (¬ MagicPossible b ∧ parseWad b = .err .parseError) ∨
    (12 ≤ b.length ∧ (∃ t, HasMagic b t) ∧ b.length < u32At b 8 + 16 * u32At b 4 ∧
      parseWad b = .err (.truncatedData "wad index")) ∨
    (12 ≤ b.length ∧ (∃ t, HasMagic b t) ∧ u32At b 8 + 16 * u32At b 4 ≤ b.length ∧
      (∃ k < u32At b 4, ¬ Printable (nameAt b (rowOffset b k + 8) 8)) ∧
      parseWad b = .err .parseError) := by
  unfold parseWad
  rcases wadHeader_cases b with ⟨t, hl, ht, hr⟩ | ⟨hl, hm, n, hr⟩ | ⟨hm, l, hr⟩
  · rw [hr]
    simp only [nomToResult, Res.bind_ok]
    unfold wadDirectory
    simp only [toNat_ofNat_u32At]
    by_cases hfit : b.length < u32At b 8 + u32At b 4 * 16
    · rw [if_pos hfit]
      refine Or.inr (Or.inr (Or.inr (Or.inl ⟨hl, ⟨t, ht⟩, by omega, rfl⟩)))
    · rw [if_neg hfit]
      have hlen : 16 * u32At b 4 ≤ (b.drop (u32At b 8)).length := by simp; omega
      by_cases hn : ∃ k < u32At b 4, ¬ Printable (nameAt b (rowOffset b k + 8) 8)
      · obtain ⟨c, cs, hc⟩ := wadEntries_bad (u32At b 4) (b.drop (u32At b 8)) hlen (by
          obtain ⟨k, hk, hk'⟩ := hn
          refine ⟨k, hk, ?_⟩
          rw [nameAt_drop]
          simpa [rowOffset, Nat.add_assoc] using hk')
        rw [hc]
        refine Or.inr (Or.inr (Or.inr (Or.inr ⟨hl, ⟨t, ht⟩, by omega, hn, ?_⟩)))
        have : b ≠ [] := by rintro rfl; simp at hl
        simp [this]
      · have hn' : ∀ k < u32At b 4, Printable (nameAt b (rowOffset b k + 8) 8) := by
          intro k hk; exact Classical.byContradiction fun h => hn ⟨k, hk, h⟩
        rw [wadEntries_ok _ _ hlen (by
          intro k hk
          rw [nameAt_drop]
          simpa [rowOffset, Nat.add_assoc] using hn' k hk)]
        refine Or.inl ⟨⟨hl, ⟨t, ht⟩, by omega, hn'⟩, ?_⟩
        refine ⟨_, rfl, ⟨rfl, ht, by simp [-UInt32.toNat_ofNat'], by simp [-UInt32.toNat_ofNat'], by simp, ?_⟩⟩
        intro k e he
        simp only [List.getElem?_map, Option.map_eq_some_iff] at he
        obtain ⟨k', hk', rfl⟩ := he
        obtain ⟨hlt, rfl⟩ := by simpa [List.getElem?_range, List.getElem?_eq_some_iff] using hk'
        simp [entryAt, rowOffset, ← Nat.add_assoc, -UInt32.toNat_ofNat']
  · rw [hr]
    exact Or.inr (Or.inl ⟨hl, hm, rfl⟩)
  · rw [hr]
    exact Or.inr (Or.inr (Or.inl ⟨hm, rfl⟩))

end Idc
