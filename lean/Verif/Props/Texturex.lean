import Verif.Lemmas.BinMap
import Verif.Spec.Texturex
/-!
# C29–C30: TEXTUREx
-/

namespace Idc

theorem rec_leI32 : Rec leI32 4 (fun _ => True) (fun i => Int32.ofInt (i32At i 0)) := by
  intro i
  rw [leI32_spec]
  refine ⟨fun h _ => by rw [if_neg (by omega)], fun h => .inl ⟨4, if_pos (Nat.lt_of_not_le fun hh => h ⟨hh, trivial⟩)⟩⟩

theorem count_leI32 (start : Bytes) (n : Nat) (i : Bytes) :
    count leI32 start n i =
      if 4 * n ≤ i.length then .ok (i.drop (4 * n)) ((List.range n).map fun k => Int32.ofInt (i32At i (4 * k)))
      else .err (.incomplete 4) := by
  induction n generalizing i with
  | zero => simp [count]
  | succ n ih =>
    unfold count
    rw [leI32_spec]
    by_cases h : i.length < 4
    · rw [if_pos h, if_neg (by omega)]
    · rw [if_neg h]
      simp only [ih]
      rw [List.length_drop]
      by_cases h2 : 4 * n ≤ i.length - 4
      · rw [if_pos h2, if_pos (by omega)]
        simp only [List.drop_drop]
        congr 1
        · congr 1; omega
        · rw [List.range_succ_eq_map, List.map_cons, List.map_map]
          congr 1
          apply List.map_congr_left
          intro k _
          simp only [Function.comp, i32At_drop]
          congr 2; omega
      · rw [if_neg h2, if_neg (by omega)]

theorem header_ok {b : Bytes} (h : TexHeaderFits b) :
    ∃ rest, texturexLumpHeader b = .ok rest ((List.range (texCount b)).map fun k => Int32.ofInt (texOffset b k)) := by
  obtain ⟨h1, h2, h3⟩ := h
  unfold texturexLumpHeader
  rw [Parser.bind_def, leI32_spec, if_neg (show ¬ b.length < 4 by omega)]
  simp only [Parser.bind_def, countI32, count_leI32, Parser.pure_def]
  have e : i32AsUsize (Int32.ofInt (i32At b 0)) = texCount b := by
    unfold i32AsUsize texCount
    rw [toInt_ofInt_i32At, if_pos h2]
  rw [e, List.length_drop, if_pos (by unfold texCount; omega)]
  refine ⟨List.drop (4 * texCount b) (List.drop 4 b), ?_⟩
  congr 1
  apply List.map_congr_left
  intro k _
  simp [texOffset]

theorem header_bad {b : Bytes} (hlen : b.length < 2 ^ 63) (h : ¬ TexHeaderFits b) :
    ∃ k, texturexLumpHeader b = .err (.incomplete k) := by
  unfold texturexLumpHeader
  rw [Parser.bind_def, leI32_spec]
  by_cases h1 : b.length < 4
  · rw [if_pos h1]; exact ⟨4, rfl⟩
  · rw [if_neg h1]
    simp only [Parser.bind_def, countI32, count_leI32]
    have hr := i32At_range b 0
    have e : b.length - 4 < 4 * i32AsUsize (Int32.ofInt (i32At b 0)) := by
      unfold i32AsUsize
      rw [toInt_ofInt_i32At]
      by_cases h2 : 0 ≤ i32At b 0
      · rw [if_pos h2]
        have : ¬ (4 + 4 * (i32At b 0) ≤ b.length) := fun h3 => h ⟨by omega, h2, h3⟩
        omega
      · rw [if_neg h2]
        omega
    rw [List.length_drop, if_neg (by omega)]
    exact ⟨4, rfl⟩

theorem rec_texEntry : Rec texturexLumpEntry 22 (fun i => Printable (nameAt i 0 8))
    (fun i => { name := nameAt i 0 8, width := Int16.ofInt (i16At i 12), height := Int16.ofInt (i16At i 14) }) := by
  unfold texturexLumpEntry
  refine (((rec_ascii 8).bind fun _ => rec_leI32.bind fun _ => rec_leI16.bind fun _ => rec_leI16.bind fun _ =>
    rec_leI32.bind fun _ => rec_leI16.bind fun _ => Rec.pure _)).congr (by rfl) ?_ ?_
  · intro i; simp
  · intro i; simp

theorem i32AsUsize_nonneg {b : Bytes} {o : Nat} (h : 0 ≤ i32At b o) :
    i32AsUsize (Int32.ofInt (i32At b o)) = (i32At b o).toNat := by
  unfold i32AsUsize
  rw [toInt_ofInt_i32At, if_pos h]

/-- One step of the loop on a good texture. -/
theorem loop_ok {b : Bytes} {k : Nat} (h : TexOk b k) (i : Nat) (os : List Int32) :
    texturexLoop b i (Int32.ofInt (texOffset b k) :: os) =
      (do let es ← texturexLoop b (i + 1) os; pure (texAt b k :: es)) := by
  obtain ⟨h1, h2, h3⟩ := h
  unfold texOffset at h1 h2 h3 ⊢
  conv => lhs; unfold texturexLoop
  rw [toInt_ofInt_i32At, if_neg (by omega), i32AsUsize_nonneg h1]
  unfold sliceFrom
  rw [if_pos (by omega), Res.bind_ok, (rec_texEntry _).1 (by simp; omega) (by simpa using h3)]
  simp [nomToResult, texAt, texOffset]

/-- One step of the loop on a bad texture. -/
theorem loop_bad {b : Bytes} {k : Nat} (h : ¬ TexOk b k) (i : Nat) (os : List Int32) :
    (texOffset b k < 0 → texturexLoop b i (Int32.ofInt (texOffset b k) :: os) =
      .err (.negativeOffset "TEXTUREx" i (texOffset b k))) ∧
    (0 ≤ texOffset b k → (b.length : Int) < texOffset b k →
      texturexLoop b i (Int32.ofInt (texOffset b k) :: os) = .panic .bounds) ∧
    (0 ≤ texOffset b k → texOffset b k ≤ b.length → (b.length : Int) < texOffset b k + 8 →
      texturexLoop b i (Int32.ofInt (texOffset b k) :: os) = .err (.truncatedData "TEXTUREx")) ∧
    (0 ≤ texOffset b k → texOffset b k + 8 ≤ b.length →
      ¬ Printable (nameAt b (texOffset b k).toNat 8) →
      texturexLoop b i (Int32.ofInt (texOffset b k) :: os) = .err .parseError) ∧
    (0 ≤ texOffset b k → texOffset b k + 8 ≤ b.length → Printable (nameAt b (texOffset b k).toNat 8) →
      texturexLoop b i (Int32.ofInt (texOffset b k) :: os) = .err (.truncatedData "TEXTUREx")) := by
  unfold TexOk at h
  simp only [texOffset] at h ⊢
  refine ⟨fun h1 => ?_, fun h1 h2 => ?_, fun h1 h2 h3 => ?_, fun h1 h2 h3 => ?_, fun h1 h2 h3 => ?_⟩ <;>
    unfold texturexLoop <;> rw [toInt_ofInt_i32At]
  · rw [if_pos h1]
  · rw [if_neg (by omega), i32AsUsize_nonneg h1, sliceFrom, if_neg (by omega)]; rfl
  · rw [if_neg (by omega), i32AsUsize_nonneg h1, sliceFrom, if_pos (by omega), Res.bind_ok]
    unfold texturexLumpEntry
    rw [Parser.bind_def, fixedLengthAscii_short (by simp; omega)]
    rfl
  · rw [if_neg (by omega), i32AsUsize_nonneg h1, sliceFrom, if_pos (by omega), Res.bind_ok]
    unfold texturexLumpEntry
    obtain ⟨c, cs, hc⟩ := fixedLengthAscii_bad (len := 8) (i := b.drop (i32At b (4 + 4 * k)).toNat) (by simp; omega)
      (by simpa using h3)
    rw [Parser.bind_def, hc]
    have : b ≠ [] := by rintro rfl; simp at h2; omega
    simp [nomToResult, this]
  · rw [if_neg (by omega), i32AsUsize_nonneg h1, sliceFrom, if_pos (by omega), Res.bind_ok]
    have hlt : (b.length : Int) < i32At b (4 + 4 * k) + 22 := by
      have : ¬ (i32At b (4 + 4 * k) + 22 ≤ b.length) := fun hh => h ⟨h1, hh, h3⟩
      omega
    have hinc : ∃ n, texturexLumpEntry (b.drop (i32At b (4 + 4 * k)).toNat) = .err (.incomplete n) := by
      unfold texturexLumpEntry
      rw [Parser.bind_def, fixedLengthAscii_ok (by simp; omega) (by simpa using h3)]
      simp only [Parser.bind_def, leI32_spec, leI16_spec, List.drop_drop, List.length_drop]
      by_cases c1 : b.length - ((i32At b (4 + 4 * k)).toNat + 8) < 4
      · rw [if_pos c1]; exact ⟨_, rfl⟩
      · rw [if_neg c1]; simp only [List.length_drop]
        by_cases c2 : b.length - ((i32At b (4 + 4 * k)).toNat + (8 + 4)) < 2
        · rw [if_pos (by omega)]; exact ⟨_, rfl⟩
        · rw [if_neg (by omega)]; simp only [List.length_drop, List.drop_drop]
          by_cases c3 : b.length - ((i32At b (4 + 4 * k)).toNat + (8 + 4 + 2)) < 2
          · rw [if_pos (by omega)]; exact ⟨_, rfl⟩
          · rw [if_neg (by omega)]; simp only [List.length_drop, List.drop_drop]
            by_cases c4 : b.length - ((i32At b (4 + 4 * k)).toNat + (8 + 4 + 2 + 2)) < 4
            · rw [if_pos (by omega)]; exact ⟨_, rfl⟩
            · rw [if_neg (by omega)]; simp only [List.length_drop, List.drop_drop]
              rw [if_pos (by omega)]; exact ⟨_, rfl⟩
    obtain ⟨n, hn⟩ := hinc
    rw [hn]; rfl

/-- Running over a good prefix. -/
theorem loop_prefix {b : Bytes} (m k : Nat) (hk : k ≤ m) (hg : ∀ j, j < k → TexOk b j) (i : Nat) :
    texturexLoop b i ((List.range m).map fun j => Int32.ofInt (texOffset b j)) =
      (do let es ← texturexLoop b (i + k) ((List.range' k (m - k)).map fun j => Int32.ofInt (texOffset b j))
          pure ((List.range k).map (texAt b) ++ es)) := by
  have go : ∀ (n s i : Nat), s + n ≤ m → (∀ j, s ≤ j → j < s + n → TexOk b j) →
      texturexLoop b i ((List.range' s (m - s)).map fun j => Int32.ofInt (texOffset b j)) =
      (do let es ← texturexLoop b (i + n) ((List.range' (s + n) (m - (s + n))).map fun j => Int32.ofInt (texOffset b j))
          pure ((List.range' s n).map (texAt b) ++ es)) := by
    intro n
    induction n with
    | zero =>
      intro s i _ _
      simp only [Nat.add_zero, List.range'_zero, List.map_nil, List.nil_append]
      cases texturexLoop b i ((List.range' s (m - s)).map fun j => Int32.ofInt (texOffset b j)) <;> rfl
    | succ n ih =>
      intro s i hm hs
      have e : m - s = (m - (s + 1)) + 1 := by omega
      rw [e, List.range'_succ, List.map_cons, loop_ok (hs s (by omega) (by omega)),
        ih (s + 1) (i + 1) (by omega) (fun j h1 h2 => hs j (by omega) (by omega))]
      rw [show s + 1 + n = s + (n + 1) by omega, show i + 1 + n = i + (n + 1) by omega, List.range'_succ]
      cases texturexLoop b (i + (n + 1)) ((List.range' (s + (n + 1)) (m - (s + (n + 1)))).map fun j => Int32.ofInt (texOffset b j)) <;> rfl
  have := go k 0 i (by omega) (fun j _ h => hg j (by omega))
  rw [Nat.sub_zero, ← List.range_eq_range', Nat.zero_add, ← List.range_eq_range'] at this
  exact this

theorem parse_header_ok {b : Bytes} (h : TexHeaderFits b) :
    parseTexturexNames b = texturexLoop b 0 ((List.range (texCount b)).map fun k => Int32.ofInt (texOffset b k)) := by
  obtain ⟨rest, hr⟩ := header_ok h
  unfold parseTexturexNames
  rw [hr]; rfl

/-- **C29** If the header fits and every texture can be decoded, the result is the list of textures,
each read at its offset. -/
theorem C29_ok {b : Bytes} (h : TexHeaderFits b) (hall : ∀ k, k < texCount b → TexOk b k) :
    parseTexturexNames b = .ok ((List.range (texCount b)).map (texAt b)) := by
  rw [parse_header_ok h, loop_prefix _ (texCount b) (Nat.le_refl _) hall, Nat.sub_self]
  simp [texturexLoop]

/-- **C29** A header that does not fit (or a negative count) is `TruncatedData("TEXTUREx header")`.
(No Rust slice is longer than `isize::MAX`.) -/
theorem C29_header_truncated {b : Bytes} (hlen : b.length < 2 ^ 63) (h : ¬ TexHeaderFits b) :
    parseTexturexNames b = .err (.truncatedData "TEXTUREx header") := by
  obtain ⟨k, hk⟩ := header_bad hlen h
  unfold parseTexturexNames
  rw [hk]; rfl

theorem parse_first_bad {b : Bytes} {k : Nat} (h : FirstBadTex b k) :
    ∃ os, ∀ r, texturexLoop b k (Int32.ofInt (texOffset b k) :: os) = r → (∀ a, r ≠ .ok a) → parseTexturexNames b = r := by
  obtain ⟨hh, hk, hg, hb⟩ := h
  refine ⟨(List.range' (k + 1) (texCount b - (k + 1))).map fun j => Int32.ofInt (texOffset b j), fun r hr hne => ?_⟩
  rw [parse_header_ok hh, loop_prefix _ k (by omega) hg, Nat.zero_add]
  have e : texCount b - k = (texCount b - (k + 1)) + 1 := by omega
  rw [e, List.range'_succ, List.map_cons, hr]
  rcases r with a | a | a | _
  · exact absurd rfl (hne a)
  · rfl
  · rfl
  · rfl

/-- **C29** Otherwise the first bad texture decides: a negative offset is reported with its index and
value, a bad name is a parse error, and not enough bytes is `TruncatedData("TEXTUREx")`. -/
theorem C29_first_bad {b : Bytes} {k : Nat} (h : FirstBadTex b k) :
    (texOffset b k < 0 → parseTexturexNames b = .err (.negativeOffset "TEXTUREx" k (texOffset b k))) ∧
    (0 ≤ texOffset b k → texOffset b k + 8 ≤ b.length → ¬ Printable (nameAt b (texOffset b k).toNat 8) →
      parseTexturexNames b = .err .parseError) ∧
    (0 ≤ texOffset b k → texOffset b k ≤ b.length →
      (b.length < texOffset b k + 8 ∨ Printable (nameAt b (texOffset b k).toNat 8)) →
      parseTexturexNames b = .err (.truncatedData "TEXTUREx")) := by
  obtain ⟨os, hos⟩ := parse_first_bad h
  obtain ⟨h1, h2, h3, h4, h5⟩ := loop_bad h.2.2.2 k os
  refine ⟨fun c1 => hos _ (h1 c1) (by simp), fun c1 c2 c3 => hos _ (h4 c1 c2 c3) (by simp), fun c1 c2 c3 => ?_⟩
  by_cases c : (b.length : Int) < texOffset b k + 8
  · exact hos _ (h3 c1 c2 c) (by simp)
  · exact hos _ (h5 c1 (by omega) (c3.resolve_left c)) (by simp)

/-- **C30 is false**: the call panics if the first bad texture has an offset past the end of the lump. -/
theorem C30_panics {b : Bytes} {k : Nat} (h : FirstBadTex b k) (ho : (b.length : Int) < texOffset b k) :
    parseTexturexNames b = .panic .bounds := by
  obtain ⟨os, hos⟩ := parse_first_bad h
  exact hos _ ((loop_bad h.2.2.2 k os).2.1 (by omega) ho) (by simp)

theorem tex_cases (b : Bytes) (h : TexHeaderFits b) :
    (∀ k, k < texCount b → TexOk b k) ∨ ∃ k, FirstBadTex b k := by
  have go : ∀ n, n ≤ texCount b → (∀ k, k < n → TexOk b k) ∨ ∃ k, FirstBadTex b k := by
    intro n
    induction n with
    | zero => exact fun _ => .inl fun k hk => by omega
    | succ n ih =>
      intro hn
      rcases ih (by omega) with h1 | h1
      · by_cases hb : TexOk b n
        · refine .inl fun k hk => ?_
          by_cases hkn : k = n
          · subst hkn; exact hb
          · exact h1 k (by omega)
        · exact .inr ⟨n, h, by omega, h1, hb⟩
      · exact .inr h1
  exact go _ (Nat.le_refl _)

/-- **C29** Success happens only in the case of `C29_ok`. -/
theorem C29_ok_iff {b : Bytes} (hlen : b.length < 2 ^ 63) (es : List TEXTURExEntry) :
    parseTexturexNames b = .ok es ↔
      TexHeaderFits b ∧ (∀ k, k < texCount b → TexOk b k) ∧ es = (List.range (texCount b)).map (texAt b) := by
  constructor
  · intro he
    by_cases hh : TexHeaderFits b
    · rcases tex_cases b hh with h | ⟨k, hk⟩
      · rw [C29_ok hh h] at he
        injection he with he
        exact ⟨hh, h, he.symm⟩
      · exfalso
        obtain ⟨h1, h2, h3⟩ := C29_first_bad hk
        by_cases c1 : texOffset b k < 0
        · rw [h1 c1] at he; simp at he
        · by_cases c2 : (b.length : Int) < texOffset b k
          · rw [C30_panics hk c2] at he; simp at he
          · by_cases c3 : (b.length : Int) < texOffset b k + 8
            · rw [h3 (by omega) (by omega) (.inl c3)] at he; simp at he
            · by_cases c4 : Printable (nameAt b (texOffset b k).toNat 8)
              · rw [h3 (by omega) (by omega) (.inr c4)] at he; simp at he
              · rw [h2 (by omega) (by omega) c4] at he; simp at he
    · rw [C29_header_truncated hlen hh] at he; simp at he
  · rintro ⟨h1, h2, rfl⟩
    exact C29_ok h1 h2

/-- **C30, what does hold** (missing: the panic above): if no offset points past the end of the lump,
the call does not panic; and it panics only by `C30_panics`. -/
theorem C30_no_panic_partial {b : Bytes} (hlen : b.length < 2 ^ 63)
    (h : ¬ ∃ k, FirstBadTex b k ∧ (b.length : Int) < texOffset b k) :
    (∃ es, parseTexturexNames b = .ok es) ∨ (∃ e, parseTexturexNames b = .err e) := by
  by_cases hh : TexHeaderFits b
  · rcases tex_cases b hh with h' | ⟨k, hk⟩
    · exact .inl ⟨_, C29_ok hh h'⟩
    · right
      obtain ⟨h1, h2, h3⟩ := C29_first_bad hk
      have c2 : ¬ (b.length : Int) < texOffset b k := fun c => h ⟨k, hk, c⟩
      by_cases c1 : texOffset b k < 0
      · exact ⟨_, h1 c1⟩
      · by_cases c3 : (b.length : Int) < texOffset b k + 8
        · exact ⟨_, h3 (by omega) (by omega) (.inl c3)⟩
        · by_cases c4 : Printable (nameAt b (texOffset b k).toNat 8)
          · exact ⟨_, h3 (by omega) (by omega) (.inr c4)⟩
          · exact ⟨_, h2 (by omega) (by omega) c4⟩
  · exact .inr ⟨_, C29_header_truncated hlen hh⟩

/-- Non-vacuity: a lump with one texture at offset 8, and the same lump with the offset changed to
100 (panic) and to -1 (reported). -/
def sampleTex (o : Bytes) : Bytes :=
  [1, 0, 0, 0] ++ o ++ str "AASHITTY" ++ [0, 0, 0, 0, 64, 0, 128, 0, 0, 0, 0, 0, 0, 0]

example : TexHeaderFits (sampleTex [8, 0, 0, 0]) ∧ TexOk (sampleTex [8, 0, 0, 0]) 0 ∧
    texAt (sampleTex [8, 0, 0, 0]) 0 = ⟨str "AASHITTY", 64, 128⟩ := by
  simp only [TexHeaderFits, TexOk]
  decide

example : FirstBadTex (sampleTex [100, 0, 0, 0]) 0 ∧
    ((sampleTex [100, 0, 0, 0]).length : Int) < texOffset (sampleTex [100, 0, 0, 0]) 0 ∧
    FirstBadTex (sampleTex [255, 255, 255, 255]) 0 ∧ texOffset (sampleTex [255, 255, 255, 255]) 0 = -1 := by
  refine ⟨⟨by simp only [TexHeaderFits]; decide, by decide, by intro j h; omega, by simp only [TexOk]; decide⟩, by decide,
    ⟨by simp only [TexHeaderFits]; decide, by decide, by intro j h; omega, by simp only [TexOk]; decide⟩, by decide⟩

end Idc
