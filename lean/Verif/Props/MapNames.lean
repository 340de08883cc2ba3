import Verif.Model.MapName
/-!
# C10, C11: map names
-/

namespace Idc

/-- The byte of a decimal digit. -/
def digit (d : Nat) : UInt8 := UInt8.ofNat (48 + d)

/-- `E<digit>M<digit>`. -/
def exmyText (e m : Nat) : Bytes := [0x45, digit e, 0x4D, digit m]

/-- `MAP` and two digits. -/
def mapText (x : Nat) : Bytes := [0x4D, 0x41, 0x50, digit (x / 10), digit (x % 10)]

/-- `MAP+` and one digit. -/
def mapPlusText (x : Nat) : Bytes := [0x4D, 0x41, 0x50, 0x2B, digit x]

theorem str_E : str "E" = [0x45] := by decide
theorem str_M : str "M" = [0x4D] := by decide
theorem str_MAP : str "MAP" = [0x4D, 0x41, 0x50] := by decide

theorem isDigit_iff (b : UInt8) : isDigit b = true ↔ ∃ d, d < 10 ∧ b = digit d := by
  constructor
  · intro h
    simp [isDigit] at h
    refine ⟨b.toNat - 48, by omega, ?_⟩
    apply UInt8.toNat_inj.mp
    simp [digit]; omega
  · rintro ⟨d, hd, rfl⟩
    simp [isDigit, digit]; omega

theorem digit_sub {d : Nat} (h : d < 10) : digit d - 48 = UInt8.ofNat d := by
  match d, h with
  | 0, _ | 1, _ | 2, _ | 3, _ | 4, _ | 5, _ | 6, _ | 7, _ | 8, _ | 9, _ => decide

theorem digitVal_digit {d : Nat} (h : d < 10) : digitVal (digit d) = some d := by
  have := (isDigit_iff (digit d)).mpr ⟨d, h, rfl⟩
  rw [digitVal, if_pos this]; simp [digit]; omega

theorem digitVal_none {b : UInt8} (h : isDigit b = false) : digitVal b = none := by simp [digitVal, h]

theorem exmy_ok_iff (s rest : Bytes) (n : MapName) :
    exmyMapName s = .ok rest n ↔
      ∃ e m, e < 10 ∧ m < 10 ∧ s = exmyText e m ∧ rest = [] ∧ n = .ExMy (UInt8.ofNat e) (UInt8.ofNat m) := by
  constructor
  · intro h
    simp only [exmyMapName, Parser.bind_def, Parser.pure_def, tag, str_E, str_M] at h
    rcases s with _ | ⟨a, s⟩
    · simp [tagGo] at h
    simp only [tagGo] at h
    by_cases ha : a = 0x45
    case neg => simp [ha] at h
    subst ha
    rcases s with _ | ⟨b, s⟩
    · simp [verify, leU8] at h
    simp only [if_true, verify, leU8] at h
    by_cases hb : isDigit b = true
    case neg => simp [hb] at h
    simp only [hb, if_true] at h
    rcases s with _ | ⟨c, s⟩
    · simp [tagGo] at h
    simp only [tagGo] at h
    by_cases hc : c = 0x4D
    case neg => simp [hc] at h
    subst hc
    rcases s with _ | ⟨d, s⟩
    · simp [leU8] at h
    simp only [if_true, leU8] at h
    by_cases hd : isDigit d = true
    case neg => simp [hd] at h
    simp only [hd, if_true] at h
    rcases s with _ | ⟨x, s⟩
    · simp [naiveEof] at h
      obtain ⟨rfl, rfl⟩ := h
      obtain ⟨e, he, rfl⟩ := (isDigit_iff b).mp hb
      obtain ⟨m, hm, rfl⟩ := (isDigit_iff d).mp hd
      exact ⟨e, m, he, hm, rfl, rfl, by rw [digit_sub he, digit_sub hm]⟩
    · simp [naiveEof] at h
  · rintro ⟨e, m, he, hm, rfl, rfl, rfl⟩
    have h1 := (isDigit_iff (digit e)).mpr ⟨e, he, rfl⟩
    have h2 := (isDigit_iff (digit m)).mpr ⟨m, hm, rfl⟩
    simp [exmyMapName, Parser.bind_def, Parser.pure_def, tag, str_E, str_M, exmyText, tagGo, verify, leU8,
      h1, h2, naiveEof, digit_sub he, digit_sub hm]

theorem u8FromStr_two (a b : UInt8) (v : UInt8) :
    u8FromStr [a, b] = some v ↔
      (∃ d, d < 10 ∧ a = 0x2B ∧ b = digit d ∧ v = UInt8.ofNat d) ∨
      (∃ c d, c < 10 ∧ d < 10 ∧ a = digit c ∧ b = digit d ∧ v = UInt8.ofNat (c * 10 + d)) := by
  constructor
  · intro h
    by_cases ha : a = 43
    · subst ha
      by_cases hb : isDigit b = true
      · obtain ⟨d, hd, rfl⟩ := (isDigit_iff b).mp hb
        simp only [u8FromStr, if_true, u8Digits, digitVal_digit hd] at h
        rw [if_neg (by simp), if_pos (by omega)] at h
        left; exact ⟨d, hd, rfl, rfl, by simpa using h.symm⟩
      · simp only [Bool.not_eq_true] at hb
        simp [u8FromStr, u8Digits, digitVal_none hb] at h
    · by_cases ha' : isDigit a = true
      · obtain ⟨c, hc, rfl⟩ := (isDigit_iff a).mp ha'
        by_cases hb : isDigit b = true
        · obtain ⟨d, hd, rfl⟩ := (isDigit_iff b).mp hb
          simp only [u8FromStr, ha, if_false, u8Digits, digitVal_digit hd, digitVal_digit hc] at h
          rw [if_pos (by omega), if_pos (by omega)] at h
          right; exact ⟨c, d, hc, hd, rfl, rfl, by simpa using h.symm⟩
        · simp only [Bool.not_eq_true] at hb
          simp [u8FromStr, u8Digits, digitVal_none hb, ha, digitVal_digit hc] at h
      · simp only [Bool.not_eq_true] at ha'
        simp [u8FromStr, u8Digits, ha, digitVal_none ha'] at h
  · rintro (⟨d, hd, rfl, rfl, rfl⟩ | ⟨c, d, hc, hd, rfl, rfl, rfl⟩)
    · simp [u8FromStr, u8Digits, digitVal_digit hd]; omega
    · have hne : digit c ≠ 43 := by
        match c, hc with
        | 0, _ | 1, _ | 2, _ | 3, _ | 4, _ | 5, _ | 6, _ | 7, _ | 8, _ | 9, _ => decide
      simp only [u8FromStr, hne, if_false, u8Digits, digitVal_digit hd, digitVal_digit hc]
      rw [if_pos (by omega), if_pos (by omega)]
      simp

theorem mapxx_ok_iff (s rest : Bytes) (n : MapName) :
    mapxxMapName s = .ok rest n ↔ rest = [] ∧
      ((∃ d, 1 ≤ d ∧ d < 10 ∧ s = mapPlusText d ∧ n = .MAPxx (UInt8.ofNat d)) ∨
       (∃ x, 1 ≤ x ∧ x ≤ 32 ∧ s = mapText x ∧ n = .MAPxx (UInt8.ofNat x))) := by
  constructor
  · intro h
    simp only [mapxxMapName, Parser.bind_def, Parser.pure_def, tag, str_MAP] at h
    rcases s with _ | ⟨a, s⟩
    · simp [tagGo] at h
    simp only [tagGo] at h
    by_cases ha : a = 0x4D
    case neg => simp [ha] at h
    subst ha
    rcases s with _ | ⟨b, s⟩
    · simp [tagGo] at h
    simp only [if_true, tagGo] at h
    by_cases hb : b = 0x41
    case neg => simp [hb] at h
    subst hb
    rcases s with _ | ⟨c, s⟩
    · simp [tagGo] at h
    simp only [if_true, tagGo] at h
    by_cases hc : c = 0x50
    case neg => simp [hc] at h
    subst hc
    rcases s with _ | ⟨p, _ | ⟨q, s⟩⟩
    · simp [verify, mapRes, take] at h
    · simp [verify, mapRes, take] at h
    simp only [if_true, verify, mapRes, take, List.length_cons] at h
    rw [if_neg (by omega)] at h
    simp only [List.take_succ_cons, List.take_zero, List.drop_succ_cons, List.drop_zero] at h
    rcases hv : u8FromStr [p, q] with _ | v
    · rw [hv] at h; simp at h
    rw [hv] at h
    simp only at h
    by_cases hr : (decide (1 ≤ v.toNat) && decide (v.toNat ≤ 32)) = true
    case neg => simp [hr] at h
    rw [if_pos hr] at h
    simp only [Bool.and_eq_true, decide_eq_true_eq] at hr
    have hs : s = [] := by
      rcases s with _ | ⟨x, s⟩
      · rfl
      · simp [naiveEof] at h
    subst hs
    simp [naiveEof] at h
    obtain ⟨rfl, rfl⟩ := h
    refine ⟨rfl, ?_⟩
    rcases (u8FromStr_two p q v).mp hv with ⟨d, hd, rfl, rfl, rfl⟩ | ⟨c, d, hc, hd, rfl, rfl, rfl⟩
    · left
      refine ⟨d, ?_, hd, rfl, rfl⟩
      have := hr.1
      simp at this; omega
    · right
      simp at hr
      refine ⟨c * 10 + d, by omega, by omega, ?_, rfl⟩
      have e1 : (c * 10 + d) / 10 = c := by omega
      have e2 : (c * 10 + d) % 10 = d := by omega
      simp [mapText, e1, e2]
  · rintro ⟨rfl, ⟨d, h1, h2, rfl, rfl⟩ | ⟨x, h1, h2, rfl, rfl⟩⟩
    · have hv := (u8FromStr_two 0x2B (digit d) (UInt8.ofNat d)).mpr (.inl ⟨d, h2, rfl, rfl, rfl⟩)
      have hr : (decide (1 ≤ (UInt8.ofNat d).toNat) && decide ((UInt8.ofNat d).toNat ≤ 32)) = true := by
        simp; omega
      simp only [Bool.and_eq_true, decide_eq_true_eq] at hr
      simp [mapxxMapName, Parser.bind_def, Parser.pure_def, tag, str_MAP, tagGo, mapPlusText, verify, mapRes,
        take, hv, naiveEof, -UInt8.toNat_ofNat', hr]
    · have hv := (u8FromStr_two (digit (x / 10)) (digit (x % 10)) (UInt8.ofNat x)).mpr
        (.inr ⟨x / 10, x % 10, by omega, by omega, rfl, rfl, by congr 1; omega⟩)
      have hr : (decide (1 ≤ (UInt8.ofNat x).toNat) && decide ((UInt8.ofNat x).toNat ≤ 32)) = true := by
        simp; omega
      simp only [Bool.and_eq_true, decide_eq_true_eq] at hr
      simp [mapxxMapName, Parser.bind_def, Parser.pure_def, tag, str_MAP, tagGo, mapText, verify, mapRes,
        take, hv, naiveEof, -UInt8.toNat_ofNat', hr]

theorem mapNameOf_eq_some (s : Bytes) (n : MapName) :
    mapNameOf s = some n ↔
      (∃ e m, e < 10 ∧ m < 10 ∧ s = exmyText e m ∧ n = .ExMy (UInt8.ofNat e) (UInt8.ofNat m)) ∨
      (∃ x, 1 ≤ x ∧ x ≤ 32 ∧ s = mapText x ∧ n = .MAPxx (UInt8.ofNat x)) ∨
      (∃ d, 1 ≤ d ∧ d < 10 ∧ s = mapPlusText d ∧ n = .MAPxx (UInt8.ofNat d)) := by
  unfold mapNameOf vanillaMapName alt2
  rcases hE : exmyMapName s with ⟨rest, n'⟩ | e
  · have hh := (exmy_ok_iff s rest n').mp hE
    simp only [Option.some.injEq]
    obtain ⟨e, m, he, hm, rfl, rfl, rfl⟩ := hh
    constructor
    · rintro rfl; left; exact ⟨e, m, he, hm, rfl, rfl⟩
    · rintro (⟨e', m', he', hm', h, rfl⟩ | ⟨x, _, _, h, rfl⟩ | ⟨d, _, _, h, rfl⟩)
      · have := (exmy_ok_iff (exmyText e m) [] (.ExMy (UInt8.ofNat e') (UInt8.ofNat m'))).mpr
          ⟨e', m', he', hm', h, rfl, rfl⟩
        rw [hE] at this
        simpa using this
      · simp [exmyText, mapText] at h
      · simp [exmyText, mapPlusText] at h
  · have hne : ∀ e m, e < 10 → m < 10 → s ≠ exmyText e m := by
      intro e m he hm hs
      have := (exmy_ok_iff s [] _).mpr ⟨e, m, he, hm, hs, rfl, rfl⟩
      rw [hE] at this; simp at this
    have hM : (∃ r, mapxxMapName s = .ok r n) ↔
        (∃ x, 1 ≤ x ∧ x ≤ 32 ∧ s = mapText x ∧ n = .MAPxx (UInt8.ofNat x)) ∨
        (∃ d, 1 ≤ d ∧ d < 10 ∧ s = mapPlusText d ∧ n = .MAPxx (UInt8.ofNat d)) := by
      simp only [mapxx_ok_iff]
      constructor
      · rintro ⟨r, _, h | h⟩
        · exact .inr h
        · exact .inl h
      · rintro (h | h)
        · exact ⟨[], rfl, .inr h⟩
        · exact ⟨[], rfl, .inl h⟩
    have hE' : ¬ (∃ e m, e < 10 ∧ m < 10 ∧ s = exmyText e m ∧ n = .ExMy (UInt8.ofNat e) (UInt8.ofNat m)) := by
      rintro ⟨e, m, he, hm, hs, _⟩; exact hne e m he hm hs
    -- if exmy ran out of input, the name starts with E (or is empty) and is not MAP..
    have hrec : (∃ x, 1 ≤ x ∧ x ≤ 32 ∧ s = mapText x ∧ n = .MAPxx (UInt8.ofNat x)) ∨
        (∃ d, 1 ≤ d ∧ d < 10 ∧ s = mapPlusText d ∧ n = .MAPxx (UInt8.ofNat d)) → ∃ c, e = .error c := by
      intro h
      have : ∃ t, s = 0x4D :: t := by
        rcases h with ⟨x, _, _, rfl, _⟩ | ⟨x, _, _, rfl, _⟩
        · exact ⟨_, rfl⟩
        · exact ⟨_, rfl⟩
      obtain ⟨t, rfl⟩ := this
      simp [exmyMapName, Parser.bind_def, tag, str_E, tagGo] at hE
      exact ⟨_, hE.symm⟩
    simp only [hE', false_or]
    rw [← hM] at hrec ⊢
    constructor
    · intro h
      rcases e with k | c | c
      · simp at h
      · simp only at h
        rcases hm : mapxxMapName s with ⟨r, n'⟩ | e'
        · rw [hm] at h; simp at h; subst h; exact ⟨r, rfl⟩
        · rw [hm] at h; rcases e' with k | c' | c' <;> simp at h
      · simp at h
    · intro h
      obtain ⟨c, rfl⟩ := hrec h
      obtain ⟨r, h⟩ := h
      simp [h]

/-- **C10** (partial: the English claim omits that `MAP+1` .. `MAP+9` are recognised too, because
`u8::from_str` takes a leading plus sign; see `C10_plus_accepted`).  The complete list of recognised names and the numbers they carry. -/
theorem C10_map_names_partial (s : Bytes) (n : MapName) :
    mapNameOf s = some n ↔
      (∃ e m, e < 10 ∧ m < 10 ∧ s = exmyText e m ∧ n = .ExMy (UInt8.ofNat e) (UInt8.ofNat m)) ∨
      (∃ x, 1 ≤ x ∧ x ≤ 32 ∧ s = mapText x ∧ n = .MAPxx (UInt8.ofNat x)) ∨
      (∃ d, 1 ≤ d ∧ d < 10 ∧ s = mapPlusText d ∧ n = .MAPxx (UInt8.ofNat d)) :=
  mapNameOf_eq_some s n

/-- **C10, as claimed**, for every name without a plus sign. -/
theorem C10_map_names_without_plus (s : Bytes) (n : MapName) (hplus : (0x2B : UInt8) ∉ s) :
    mapNameOf s = some n ↔
      (∃ e m, e < 10 ∧ m < 10 ∧ s = exmyText e m ∧ n = .ExMy (UInt8.ofNat e) (UInt8.ofNat m)) ∨
      (∃ x, 1 ≤ x ∧ x ≤ 32 ∧ s = mapText x ∧ n = .MAPxx (UInt8.ofNat x)) := by
  rw [mapNameOf_eq_some]
  constructor
  · rintro (h | h | ⟨d, _, _, rfl, _⟩)
    · exact .inl h
    · exact .inr h
    · exact absurd (by simp [mapPlusText]) hplus
  · rintro (h | h)
    · exact .inl h
    · exact .inr (.inl h)

/-- **C10, negative part.** `MAP+5` is taken for a map although it is not `MAP` and two digits. -/
theorem C10_plus_accepted : mapNameOf (str "MAP+5") = some (.MAPxx 5) ∧
    ¬ ∃ x, x < 100 ∧ str "MAP+5" = mapText x := by
  refine ⟨by decide, ?_⟩
  rintro ⟨x, hx, h⟩
  have : str "MAP+5" = [0x4D, 0x41, 0x50, 0x2B, 0x35] := by decide
  rw [this] at h
  simp only [mapText, List.cons.injEq, and_true, true_and] at h
  have h1 := congrArg UInt8.toNat h.1
  simp [digit] at h1
  omega

example : mapNameOf (str "E1M8") = some (.ExMy 1 8) ∧ mapNameOf (str "MAP32") = some (.MAPxx 32) ∧
    mapNameOf (str "MAP33") = none ∧ mapNameOf (str "MAP00") = none ∧ mapNameOf (str "E1M10") = none ∧
    mapNameOf (str "map01") = none ∧ mapNameOf (str "MAP1") = none := by decide

/-! ## C11 -/

theorem showU8_small {d : Nat} (h : d < 10) : showU8 (UInt8.ofNat d) = [digit d] := by
  have : (UInt8.ofNat d).toNat = d := by simp; omega
  simp [showU8, this, h, digit]

theorem display_ExMy {e m : Nat} (he : e < 10) (hm : m < 10) :
    (MapName.ExMy (UInt8.ofNat e) (UInt8.ofNat m)).display = exmyText e m := by
  simp [MapName.display, showU8_small he, showU8_small hm, exmyText, str_E, str_M]

theorem display_MAPxx {x : Nat} (hx : x < 100) :
    (MapName.MAPxx (UInt8.ofNat x)).display = mapText x := by
  have h : (UInt8.ofNat x).toNat = x := by simp; omega
  simp only [MapName.display, showU8Pad2, showU8, h, str_MAP, mapText]
  by_cases h10 : x < 10
  · have e1 : x / 10 = 0 := by omega
    have e2 : x % 10 = x := by omega
    simp [h10, e1, e2, digit]
  · simp [h10, hx, digit]

/-- The numbers a vanilla map name can carry. -/
def Vanilla : MapName → Prop
  | .ExMy e m => e.toNat ≤ 9 ∧ m.toNat ≤ 9
  | .MAPxx x => 1 ≤ x.toNat ∧ x.toNat ≤ 32

/-- **C11** Parsing the display of any vanilla map name gives back that name. -/
theorem C11_parse_display (n : MapName) (h : Vanilla n) : mapNameOf n.display = some n := by
  rw [mapNameOf_eq_some]
  rcases n with ⟨e, m⟩ | ⟨x⟩
  · left
    have he : UInt8.ofNat e.toNat = e := by simp
    have hm : UInt8.ofNat m.toNat = m := by simp
    simp only [Vanilla] at h
    refine ⟨e.toNat, m.toNat, by omega, by omega, ?_, by rw [he, hm]⟩
    conv => lhs; rw [← he, ← hm]
    exact display_ExMy (by omega) (by omega)
  · right; left
    have hx : UInt8.ofNat x.toNat = x := by simp
    simp only [Vanilla] at h
    refine ⟨x.toNat, h.1, h.2, ?_, by rw [hx]⟩
    conv => lhs; rw [← hx]
    exact display_MAPxx (by omega)

/-- **C11** Every recognised name is vanilla. -/
theorem C11_parsed_vanilla (s : Bytes) (n : MapName) (h : mapNameOf s = some n) : Vanilla n := by
  rw [mapNameOf_eq_some] at h
  rcases h with ⟨e, m, he, hm, _, rfl⟩ | ⟨x, h1, h2, _, rfl⟩ | ⟨x, h1, h2, _, rfl⟩ <;>
    simp [Vanilla] <;> omega

/-- **C11** (partial: false for the nine `MAP+d` names, see `C11_plus_not_roundtrip`).  Displaying a
parsed map name gives back the lump name. -/
theorem C11_display_parse_partial (s : Bytes) (n : MapName) (h : mapNameOf s = some n)
    (hplus : (0x2B : UInt8) ∉ s) : n.display = s := by
  rcases (C10_map_names_without_plus s n hplus).mp h with ⟨e, m, he, hm, rfl, rfl⟩ | ⟨x, h1, h2, rfl, rfl⟩
  · exact display_ExMy he hm
  · exact display_MAPxx (by omega)

/-- **C11, negative part.** -/
theorem C11_plus_not_roundtrip : ∃ s n, mapNameOf s = some n ∧ n.display ≠ s :=
  ⟨str "MAP+5", .MAPxx 5, by decide, by decide⟩

example : Vanilla (.ExMy 4 9) ∧ Vanilla (.MAPxx 7) ∧ (MapName.MAPxx 7).display = str "MAP07" ∧
    (MapName.ExMy 4 9).display = str "E4M9" := by
  refine ⟨by simp [Vanilla], by simp [Vanilla], by decide, by decide⟩

end Idc
