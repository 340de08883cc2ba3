import Verif.Spec.Textures
import Verif.Spec.Float
import Verif.Props.BareOutline
/-!
# Texture usage: C45, C46
-/

namespace Idc

open FloatOps

set_option linter.unusedSectionVars false

variable {F : Type} [FloatOps F]

theorem reports_nil : Reports ([] : TexCounts F) [] := ⟨by simp, by intro tex n area; simp; omega⟩

theorem bump_keys (counts : TexCounts F) (tex : Bytes) (area : F) :
    (counts.bump tex area).map (·.1) = if tex ∈ counts.map (·.1) then counts.map (·.1) else counts.map (·.1) ++ [tex] := by
  induction counts with
  | nil => simp [TexCounts.bump]
  | cons c cs ih =>
    obtain ⟨k, n, a⟩ := c
    by_cases h : k = tex
    · subst h; simp [TexCounts.bump]
    · have h' : tex ≠ k := fun e => h e.symm
      simp only [TexCounts.bump, if_neg h, List.map_cons, ih, List.mem_cons, h', false_or]
      split_ifs <;> simp

theorem bump_mem (counts : TexCounts F) (hn : (counts.map (·.1)).Nodup) (tex : Bytes) (area : F) (t : Bytes) (n : Nat) (a : F) :
    (t, n, a) ∈ counts.bump tex area ↔
      (t ≠ tex ∧ (t, n, a) ∈ counts) ∨
      (t = tex ∧ ((∃ n' a', (tex, n', a') ∈ counts ∧ n = n' + 1 ∧ a = add a' area) ∨
        (tex ∉ counts.map (·.1) ∧ n = 1 ∧ a = add (ofInt 0) area))) := by
  induction counts with
  | nil => simp [TexCounts.bump]
  | cons c cs ih =>
    obtain ⟨k, m, b⟩ := c
    simp only [List.map_cons, List.nodup_cons] at hn
    have ih := ih hn.2
    by_cases h : k = tex
    · subst h
      have hk : ∀ n' a', (k, n', a') ∉ cs := fun n' a' hm => hn.1 (List.mem_map.mpr ⟨_, hm, rfl⟩)
      simp only [TexCounts.bump, if_true, List.mem_cons, Prod.mk.injEq, List.map_cons, true_or, not_true, false_and, or_false, true_and]
      constructor
      · rintro (⟨rfl, rfl, rfl⟩ | hm)
        · exact Or.inr ⟨rfl, m, b, Or.inl ⟨rfl, rfl⟩, rfl, rfl⟩
        · left
          have : t ≠ k := by rintro rfl; exact hk _ _ hm
          exact ⟨this, Or.inr hm⟩
      · rintro (⟨h1, ⟨h2, _⟩ | h2⟩ | ⟨rfl, n', a', ⟨rfl, rfl⟩ | h2, rfl, rfl⟩)
        · exact absurd h2 h1
        · exact Or.inr h2
        · exact Or.inl ⟨rfl, rfl, rfl⟩
        · exact absurd h2 (hk _ _)
    · have h' : tex ≠ k := fun e => h e.symm
      simp only [TexCounts.bump, if_neg h, List.mem_cons, ih, List.map_cons, Prod.mk.injEq, h', false_and, false_or]
      constructor
      · rintro (⟨rfl, rfl, rfl⟩ | h1 | h1)
        · exact Or.inl ⟨h, Or.inl ⟨rfl, rfl, rfl⟩⟩
        · exact Or.inl ⟨h1.1, Or.inr h1.2⟩
        · exact Or.inr h1
      · rintro (⟨h1, ⟨rfl, rfl, rfl⟩ | h2⟩ | h1)
        · exact Or.inl ⟨rfl, rfl, rfl⟩
        · exact Or.inr (Or.inl ⟨h1, h2⟩)
        · exact Or.inr (Or.inr h1)

theorem reports_add {counts : TexCounts F} {areas : List (Bytes × F)} (h : Reports counts areas) (tex : Bytes) (area : F) :
    Reports (addTexture counts tex area) (areas ++ [(tex, area)]) := by
  unfold addTexture
  by_cases ht : tex = str "-"
  · rw [if_neg (by simp [ht])]
    refine ⟨h.once, ?_⟩
    intro t n a
    rw [h.entries]
    constructor
    · rintro ⟨h1, h2, h3, h4⟩
      have : ¬ tex = t := fun e => h1 (e ▸ ht)
      refine ⟨h1, ?_, h3, ?_⟩
      · simpa [this] using h2
      · simpa [List.filter_append, this] using h4
    · rintro ⟨h1, h2, h3, h4⟩
      have : ¬ tex = t := fun e => h1 (e ▸ ht)
      refine ⟨h1, ?_, h3, ?_⟩
      · simpa [this] using h2
      · simpa [List.filter_append, this] using h4
  · rw [if_pos ht]
    have hmem : tex ∈ counts.map (·.1) ↔ 0 < areas.countP (·.1 = tex) := by
      constructor
      · intro hm
        obtain ⟨⟨k, n, a⟩, h1, rfl⟩ := List.mem_map.mp hm
        have := (h.entries _ _ _).mp h1
        have h2 := this.2.1
        have h3 := this.2.2.1
        show 0 < areas.countP (·.1 = k)
        omega
      · intro hp
        exact List.mem_map.mpr ⟨(tex, _, _), (h.entries _ _ _).mpr ⟨ht, rfl, hp, rfl⟩, rfl⟩
    constructor
    · rw [bump_keys]
      split_ifs with hm
      · exact h.once
      · exact List.nodup_append.mpr ⟨h.once, by simp, by intro a ha b hb; simp at hb; subst hb; rintro rfl; exact hm ha⟩
    · intro t n a
      rw [bump_mem _ h.once]
      by_cases htt : tex = t
      · subst htt
        simp only [ne_eq, not_true, false_and, false_or, true_and, ht, not_false_eq_true, List.countP_append, List.filter_append,
          List.map_append, List.foldl_append]
        have hc1 : List.countP (fun x : Bytes × F => decide (x.1 = tex)) [(tex, area)] = 1 := by simp
        have hf1 : List.map (·.2) (List.filter (fun x : Bytes × F => decide (x.1 = tex)) [(tex, area)]) = [area] := by simp
        rw [hc1, hf1, List.foldl_cons, List.foldl_nil]
        constructor
        · rintro (⟨n', a', h1, rfl, rfl⟩ | ⟨h1, rfl, rfl⟩)
          · obtain ⟨_, h2, h3, h4⟩ := (h.entries _ _ _).mp h1
            subst h2 h4
            exact ⟨rfl, by omega, rfl⟩
          · rw [hmem] at h1
            have h2 : areas.countP (·.1 = tex) = 0 := by omega
            have h3 : areas.filter (fun x => decide (x.1 = tex)) = [] := by
              rw [List.filter_eq_nil_iff]
              exact List.countP_eq_zero.mp h2
            rw [h2, h3]
            exact ⟨rfl, by omega, rfl⟩
        · rintro ⟨rfl, h2, rfl⟩
          by_cases hp : 0 < areas.countP (·.1 = tex)
          · exact Or.inl ⟨_, _, (h.entries _ _ _).mpr ⟨ht, rfl, hp, rfl⟩, rfl, rfl⟩
          · right
            have h2 : areas.countP (·.1 = tex) = 0 := by omega
            have h3 : areas.filter (fun x => decide (x.1 = tex)) = [] := by
              rw [List.filter_eq_nil_iff]
              exact List.countP_eq_zero.mp h2
            rw [hmem, h2, h3]
            exact ⟨by omega, rfl, rfl⟩
      · have htt' : t ≠ tex := fun e => htt e.symm
        simp only [htt', ne_eq, not_false_eq_true, true_and, false_and, or_false]
        rw [h.entries]
        simp [List.filter_append, htt]

theorem subI16_fits {pr : Profile} {a b : Int16} (h : DiffFits a b) :
    ∃ d, subI16 pr a b = .ok d ∧ d.toInt = a.toInt - b.toInt := by
  unfold DiffFits at h
  rw [abs_le] at h
  refine ⟨Int16.ofInt (a.toInt - b.toInt), ?_, ?_⟩
  · unfold subI16 i16Arith
    rw [if_pos (by omega)]
  · rw [Int16.toInt_ofInt_of_le (by omega) (by omega)]

theorem negI16_fits {pr : Profile} {a : Int16} (h : |a.toInt| ≤ 32767) :
    ∃ d, negI16 pr a = .ok d ∧ d.toInt = -a.toInt := by
  rw [abs_le] at h
  refine ⟨Int16.ofInt (-a.toInt), ?_, ?_⟩
  · unfold negI16 i16Arith
    rw [if_pos (by omega)]
  · rw [Int16.toInt_ofInt_of_le (by omega) (by omega)]

theorem BinMap.sideAt_get {m : BinMap} (hm : m.InRange) {i : Int16} (hi : i ≠ -1)
    (h : i.toInt ≠ -1 → 0 ≤ i.toInt ∧ i.toInt.toNat < m.sides.length) :
    ∃ s c, m.sideAt i = some (s, c) ∧ index m.sides (i16AsUsize i) = .ok s ∧
      index m.sectors (i16AsUsize s.sector) = .ok c ∧ c ∈ m.sectors := by
  have h2 : i.toInt ≠ -1 := by
    intro h; apply hi
    apply Int16.toInt_inj.mp
    rw [h]; rfl
  obtain ⟨h3, h4⟩ := h h2
  have h5 := hm.sectors _ (List.getElem_mem h4)
  refine ⟨m.sides[i.toInt.toNat], m.sectors[(m.sides[i.toInt.toNat]).sector.toInt.toNat]'h5.2, ?_, ?_, ?_, List.getElem_mem _⟩
  · unfold BinMap.sideAt
    rw [if_pos h3, List.getElem?_eq_getElem h4, Option.bind_some, if_pos h5.1, List.getElem?_eq_getElem h5.2]; rfl
  · rw [i16AsUsize_nonneg h3]; exact index_ok (List.getElem?_eq_getElem h4)
  · rw [i16AsUsize_nonneg h5.1]; exact index_ok (List.getElem?_eq_getElem h5.2)

theorem BinMap.sideAt_none (m : BinMap) : m.sideAt (-1) = none := rfl

theorem foldAdd_reports {counts : TexCounts F} {areas : List (Bytes × F)} (h : Reports counts areas) (l : List (Bytes × F)) :
    Reports (l.foldl (fun c p => addTexture c p.1 p.2) counts) (areas ++ l) := by
  induction l generalizing counts areas with
  | nil => simpa using h
  | cons p ps ih =>
    have := ih (reports_add h p.1 p.2)
    simpa using this

/-- One line adds exactly its charged parts. -/
theorem countLine_eq [SmallIntOrder F] (pr : Profile) (m : BinMap) (hm : m.InRange) (hmod : m.Moderate) (l : BinLine) (hl : l ∈ m.lines)
    (counts : TexCounts F) :
    m.countLine pr counts l = .ok ((m.lineAreas chargedParts l).foldl (fun c p => addTexture c p.1 p.2) counts) := by
  unfold BinMap.lineAreas
  obtain ⟨h0, h1⟩ := hm.starts l hl
  obtain ⟨h2, h3⟩ := hm.ends l hl
  have e0 : index m.vertices (i16AsUsize l.v0) = .ok m.vertices[l.v0.toInt.toNat] := by
    rw [i16AsUsize_nonneg h0]; exact index_ok (List.getElem?_eq_getElem h1)
  have e1 : index m.vertices (i16AsUsize l.v1) = .ok m.vertices[l.v1.toInt.toNat] := by
    rw [i16AsUsize_nonneg h2]; exact index_ok (List.getElem?_eq_getElem h3)
  rw [List.getElem?_eq_getElem h1, List.getElem?_eq_getElem h3]
  dsimp only
  obtain ⟨hx, hy⟩ := hmod.xs _ (List.getElem_mem h3) _ (List.getElem_mem h1)
  obtain ⟨dx, ex, ex'⟩ := subI16_fits (pr := pr) hx
  obtain ⟨dy, ey, ey'⟩ := subI16_fits (pr := pr) hy
  have elen : sqrt (add (mul (i16AsFloat dx : F) (i16AsFloat dx)) (mul (i16AsFloat dy) (i16AsFloat dy))) =
      lineLength m.vertices[l.v0.toInt.toNat] m.vertices[l.v1.toInt.toNat] := by
    simp only [i16AsFloat, lineLength, ex', ey']
  unfold BinMap.countLine
  simp only [e0, e1, ex, ey, Res.bind_ok, elen]
  generalize lineLength (F := F) m.vertices[l.v0.toInt.toNat] m.vertices[l.v1.toInt.toNat] = len
  by_cases hf : l.front = -1
  · by_cases hb : l.back = -1
    · rw [if_pos ⟨hf, hb⟩, hf, hb, BinMap.sideAt_none]; rfl
    · obtain ⟨s, c, g1, g2, g3, g4⟩ := BinMap.sideAt_get hm hb (hm.backs l hl)
      rw [if_neg (fun h => hb h.2), if_neg (fun h => h.1 hf), if_neg hb, if_pos hf, hf, BinMap.sideAt_none, g1]
      obtain ⟨d, ed, ed'⟩ := subI16_fits (pr := pr) (hmod.heights c g4 c g4).2.2
      simp only [BinMap.countOneSided, g2, g3, Res.bind_ok, ed, Res.pure_eq, i16AsFloat, ed']
      rfl
  · by_cases hb : l.back = -1
    · obtain ⟨s, c, g1, g2, g3, g4⟩ := BinMap.sideAt_get hm hf (hm.fronts l hl)
      rw [if_neg (fun h => hf h.1), if_neg (fun h => h.2 hb), if_pos hb, hb, BinMap.sideAt_none, g1]
      obtain ⟨d, ed, ed'⟩ := subI16_fits (pr := pr) (hmod.heights c g4 c g4).2.2
      simp only [BinMap.countOneSided, g2, g3, Res.bind_ok, ed, Res.pure_eq, i16AsFloat, ed']
      rfl
    · obtain ⟨s, c, g1, g2, g3, g4⟩ := BinMap.sideAt_get hm hf (hm.fronts l hl)
      obtain ⟨s', c', g1', g2', g3', g4'⟩ := BinMap.sideAt_get hm hb (hm.backs l hl)
      rw [if_neg (fun h => hf h.1), if_pos ⟨hf, hb⟩, g1, g1']
      obtain ⟨d, ed, ed'⟩ := subI16_fits (pr := pr) (hmod.heights c g4 c' g4').1
      obtain ⟨e, ee, ee'⟩ := subI16_fits (pr := pr) (hmod.heights c g4 c' g4').2.1
      have hd := (hmod.heights c g4 c' g4').1
      have he := (hmod.heights c g4 c' g4').2.1
      unfold DiffFits at hd he
      obtain ⟨dn, edn, edn'⟩ := negI16_fits (pr := pr) (a := d) (by rw [ed']; exact hd)
      obtain ⟨en, een, een'⟩ := negI16_fits (pr := pr) (a := e) (by rw [ee']; exact he)
      obtain ⟨m1, em1, em1'⟩ := subI16_fits (pr := pr) (hmod.heights c' g4' c' g4').2.2
      obtain ⟨m2, em2, em2'⟩ := subI16_fits (pr := pr) (hmod.heights c' g4' c g4).2.2
      obtain ⟨m3, em3, em3'⟩ := subI16_fits (pr := pr) (hmod.heights c g4 c' g4').2.2
      obtain ⟨m4, em4, em4'⟩ := subI16_fits (pr := pr) (hmod.heights c g4 c g4).2.2
      have key : ∀ x : Int16, lt (ofInt 0 : F) (i16AsFloat x) = decide (0 < x.toInt) := by
        intro x
        refine SmallIntOrder.pos _ ?_
        have := x.toInt_lt
        have := x.le_toInt
        rw [abs_le]; constructor <;> omega
      simp only [BinMap.countTwoSided, g2, g3, g2', g3', ed, ee, Res.bind_ok, edn, een, chargedParts]
      by_cases hd0 : 0 < d.toInt <;> by_cases he0 : 0 < e.toInt
      · have a1 : min c.ceiling_height.toInt c'.ceiling_height.toInt = c'.ceiling_height.toInt := by omega
        have a2 : min c.floor_height.toInt c'.floor_height.toInt = c'.floor_height.toInt := by omega
        have a3 : |c.ceiling_height.toInt - c'.ceiling_height.toInt| = d.toInt := by rw [abs_of_pos] <;> omega
        have a4 : |c.floor_height.toInt - c'.floor_height.toInt| = e.toInt := by rw [abs_of_pos] <;> omega
        have a5 : c.floor_height.toInt > c'.floor_height.toInt := by omega
        simp only [if_pos hd0, if_pos he0, Res.bind_ok, em1, key, a1, a2, a3, a4, if_pos a5, ← em1', Res.pure_eq, decide_eq_true_eq]
        split_ifs <;> rfl
      · have a1 : min c.ceiling_height.toInt c'.ceiling_height.toInt = c'.ceiling_height.toInt := by omega
        have a2 : min c.floor_height.toInt c'.floor_height.toInt = c.floor_height.toInt := by omega
        have a3 : |c.ceiling_height.toInt - c'.ceiling_height.toInt| = d.toInt := by rw [abs_of_pos] <;> omega
        have a4 : |c.floor_height.toInt - c'.floor_height.toInt| = en.toInt := by rw [abs_of_nonpos] <;> omega
        have a5 : ¬ c.floor_height.toInt > c'.floor_height.toInt := by omega
        simp only [if_pos hd0, if_neg he0, Res.bind_ok, em2, key, a1, a2, a3, a4, if_neg a5, ← em2', Res.pure_eq, decide_eq_true_eq]
        split_ifs <;> rfl
      · have a1 : min c.ceiling_height.toInt c'.ceiling_height.toInt = c.ceiling_height.toInt := by omega
        have a2 : min c.floor_height.toInt c'.floor_height.toInt = c'.floor_height.toInt := by omega
        have a3 : |c.ceiling_height.toInt - c'.ceiling_height.toInt| = dn.toInt := by rw [abs_of_nonpos] <;> omega
        have a4 : |c.floor_height.toInt - c'.floor_height.toInt| = e.toInt := by rw [abs_of_pos] <;> omega
        have a5 : c.floor_height.toInt > c'.floor_height.toInt := by omega
        simp only [if_neg hd0, if_pos he0, Res.bind_ok, em3, key, a1, a2, a3, a4, if_pos a5, ← em3', Res.pure_eq, decide_eq_true_eq]
        split_ifs <;> rfl
      · have a1 : min c.ceiling_height.toInt c'.ceiling_height.toInt = c.ceiling_height.toInt := by omega
        have a2 : min c.floor_height.toInt c'.floor_height.toInt = c.floor_height.toInt := by omega
        have a3 : |c.ceiling_height.toInt - c'.ceiling_height.toInt| = dn.toInt := by rw [abs_of_nonpos] <;> omega
        have a4 : |c.floor_height.toInt - c'.floor_height.toInt| = en.toInt := by rw [abs_of_nonpos] <;> omega
        have a5 : ¬ c.floor_height.toInt > c'.floor_height.toInt := by omega
        simp only [if_neg hd0, if_neg he0, Res.bind_ok, em4, key, a1, a2, a3, a4, if_neg a5, ← em4', Res.pure_eq, decide_eq_true_eq]
        split_ifs <;> rfl

/-- **C45 / C46, what the code does**: on every map whose references are in range and whose differences
fit an `i16`, `count_textures` reports exactly the parts of `chargedParts`.  Partial because a line whose
back ceiling is the higher one has its upper part charged to the front side's texture: see `C46_wrong_side`. -/
theorem C45_counts_partial [SmallIntOrder F] (pr : Profile) (m : BinMap) (hm : m.InRange) (hmod : m.Moderate) :
    ∃ counts : TexCounts F, m.countTextures pr = .ok counts ∧ Reports counts (m.wallAreas chargedParts) := by
  unfold BinMap.countTextures BinMap.wallAreas
  have : ∀ (ls : List BinLine), (∀ l ∈ ls, l ∈ m.lines) → ∀ (counts : TexCounts F) (areas : List (Bytes × F)), Reports counts areas →
      ∃ counts', forEach (m.countLine pr) ls counts = .ok counts' ∧ Reports counts' (areas ++ ls.flatMap (m.lineAreas chargedParts)) := by
    intro ls
    induction ls with
    | nil => intro _ counts areas h; exact ⟨counts, rfl, by simpa using h⟩
    | cons l ls ih =>
      intro hls counts areas h
      have h1 := countLine_eq pr m hm hmod l (hls l (by simp)) counts
      obtain ⟨c', h2, h3⟩ := ih (fun x hx => hls x (by simp [hx])) _ _ (foldAdd_reports h _)
      refine ⟨c', ?_, ?_⟩
      · simp only [forEach, h1, Res.bind_ok]
        exact h2
      · rw [List.flatMap_cons, ← List.append_assoc]; exact h3
  obtain ⟨c, h1, h2⟩ := this m.lines (fun _ h => h) [] [] reports_nil
  exact ⟨c, h1, by simpa using h2⟩


/-- A sequence that ends well keeps every property each step keeps. -/
theorem forEach_inv {α σ : Type} (f : σ → α → Res σ) (P : σ → Prop) (hf : ∀ s a s', P s → f s a = .ok s' → P s') :
    ∀ (l : List α) (s s' : σ), P s → forEach f l s = .ok s' → P s' := by
  intro l
  induction l with
  | nil => intro s s' hs h; simp only [forEach] at h; cases h; exact hs
  | cons a l ih =>
    intro s s' hs h
    simp only [forEach] at h
    cases hfa : f s a with
    | ok s1 => rw [hfa] at h; exact ih s1 s' (hf _ _ _ hs hfa) h
    | err e => rw [hfa] at h; cases h
    | panic p => rw [hfa] at h; cases h
    | diverge => rw [hfa] at h; cases h

theorem addTexture_noDash {counts : TexCounts F} (h : str "-" ∉ counts.map (·.1)) (tex : Bytes) (a : F) :
    str "-" ∉ (addTexture counts tex a).map (·.1) := by
  unfold addTexture
  split_ifs with ht
  · rw [bump_keys]
    split_ifs
    · exact h
    · intro hm
      rcases List.mem_append.mp hm with hm | hm
      · exact h hm
      · exact ht (List.mem_singleton.mp hm).symm
  · exact h

theorem Res.bind_eq_ok {α β : Type} {r : Res α} {f : α → Res β} {b : β} (h : (r >>= f) = .ok b) :
    ∃ a, r = .ok a ∧ f a = .ok b := by
  cases r with
  | ok a => exact ⟨a, rfl, h⟩
  | err e => cases h
  | panic p => cases h
  | diverge => cases h

theorem countOneSided_noDash {pr : Profile} {m : BinMap} {len : F} {id : Int16} {counts counts' : TexCounts F}
    (h : str "-" ∉ counts.map (·.1)) (he : m.countOneSided pr len id counts = .ok counts') : str "-" ∉ counts'.map (·.1) := by
  unfold BinMap.countOneSided at he
  obtain ⟨s, _, he⟩ := Res.bind_eq_ok he
  obtain ⟨c, _, he⟩ := Res.bind_eq_ok he
  obtain ⟨d, _, he⟩ := Res.bind_eq_ok he
  cases he
  exact addTexture_noDash h _ _

theorem countTwoSided_noDash {pr : Profile} {m : BinMap} {len : F} {i j : Int16} {counts counts' : TexCounts F}
    (h : str "-" ∉ counts.map (·.1)) (he : m.countTwoSided pr len i j counts = .ok counts') : str "-" ∉ counts'.map (·.1) := by
  unfold BinMap.countTwoSided at he
  obtain ⟨s, _, he⟩ := Res.bind_eq_ok he
  obtain ⟨s', _, he⟩ := Res.bind_eq_ok he
  obtain ⟨c, _, he⟩ := Res.bind_eq_ok he
  obtain ⟨c', _, he⟩ := Res.bind_eq_ok he
  obtain ⟨d, _, he⟩ := Res.bind_eq_ok he
  obtain ⟨⟨t1, lc⟩, h1, he⟩ := Res.bind_eq_ok he
  have ht1 : str "-" ∉ t1.map (·.1) := by
    split_ifs at h1
    · cases h1; exact addTexture_noDash h _ _
    · obtain ⟨n, _, h1⟩ := Res.bind_eq_ok h1
      cases h1; exact addTexture_noDash h _ _
  obtain ⟨e, _, he⟩ := Res.bind_eq_ok he
  obtain ⟨⟨t2, hf⟩, h2, he⟩ := Res.bind_eq_ok he
  have ht2 : str "-" ∉ t2.map (·.1) := by
    split_ifs at h2
    · cases h2; exact addTexture_noDash ht1 _ _
    · obtain ⟨n, _, h2⟩ := Res.bind_eq_ok h2
      cases h2; exact addTexture_noDash ht1 _ _
  obtain ⟨mh, _, he⟩ := Res.bind_eq_ok he
  dsimp only at he
  split_ifs at he
  · cases he; exact addTexture_noDash (addTexture_noDash ht2 _ _) _ _
  · cases he; exact ht2

theorem countLine_noDash {pr : Profile} {m : BinMap} {counts counts' : TexCounts F} {l : BinLine}
    (h : str "-" ∉ counts.map (·.1)) (he : m.countLine pr counts l = .ok counts') : str "-" ∉ counts'.map (·.1) := by
  unfold BinMap.countLine at he
  split_ifs at he with h0
  · cases he; exact h
  all_goals
    obtain ⟨v0, _, he⟩ := Res.bind_eq_ok he
    obtain ⟨v1, _, he⟩ := Res.bind_eq_ok he
    obtain ⟨dx, _, he⟩ := Res.bind_eq_ok he
    obtain ⟨dy, _, he⟩ := Res.bind_eq_ok he
    dsimp only at he
  · exact countTwoSided_noDash h he
  · exact countOneSided_noDash h he
  · exact countOneSided_noDash h he
  · cases he; exact h

/-- **C45, first half**: whatever the map, the empty texture "-" is never reported. -/
theorem C45_no_empty_texture (pr : Profile) (m : BinMap) (counts : TexCounts F) (h : m.countTextures pr = .ok counts) :
    ∀ n area, (str "-", n, area) ∉ counts := by
  have := forEach_inv (m.countLine pr) (fun c : TexCounts F => str "-" ∉ c.map (·.1)) (fun _ _ _ hs he => countLine_noDash hs he)
    m.lines [] counts (by simp) h
  intro n area hm
  exact this (List.mem_map.mpr ⟨_, hm, rfl⟩)

/-- On every two-sided line of the map the front ceiling is not lower, and the floors are level. -/
def BinMap.FrontTaller (m : BinMap) : Prop :=
  ∀ l ∈ m.lines, ∀ f fc b bc, m.sideAt l.front = some (f, fc) → m.sideAt l.back = some (b, bc) →
    bc.ceiling_height.toInt ≤ fc.ceiling_height.toInt ∧ fc.floor_height.toInt = bc.floor_height.toInt

/-- **C46, partial** (and C45's counts): where every two-sided line has level floors and the front
ceiling is not the lower one, every texture is reported with the number and the area of the visible wall
parts.  Missing: lines whose back ceiling is higher, or whose floors differ — false there, see
`C46_wrong_side` and `C46_opening_too_high`. -/
theorem C46_areas_partial [SmallIntOrder F] (pr : Profile) (m : BinMap) (hm : m.InRange) (hmod : m.Moderate) (hft : m.FrontTaller) :
    ∃ counts : TexCounts F, m.countTextures pr = .ok counts ∧ Reports counts (m.wallAreas wallParts) := by
  obtain ⟨counts, h1, h2⟩ := C45_counts_partial (F := F) pr m hm hmod
  refine ⟨counts, h1, ?_⟩
  have : m.wallAreas chargedParts = (m.wallAreas wallParts : List (Bytes × F)) := by
    unfold BinMap.wallAreas
    rw [List.flatMap_def, List.flatMap_def]
    congr 1
    apply List.map_congr_left
    intro l hl
    unfold BinMap.lineAreas
    rcases hf : m.sideAt l.front with _ | ⟨f, fc⟩
    · rfl
    · rcases hb : m.sideAt l.back with _ | ⟨b, bc⟩
      · rfl
      · obtain ⟨h3, h4⟩ := hft l hl f fc b bc hf hb
        have : chargedParts (some (f, fc)) (some (b, bc)) = wallParts (some (f, fc)) (some (b, bc)) := by
          unfold chargedParts wallParts
          dsimp only
          rw [if_neg (by omega : ¬ fc.ceiling_height.toInt < bc.ceiling_height.toInt), h4, min_self, max_self]
        rw [this]
  rw [← this]; exact h2

/-- A one-line map between two sectors: the front one `f0–f1`, the back one `b0–b1`. -/
def windowMap (f0 f1 b0 b1 : Int16) : BinMap where
  vertices := [⟨0, 0⟩, ⟨64, 0⟩]
  sectors := [⟨f0, f1, str "FLOOR", str "CEIL", 160, 0, 0⟩, ⟨b0, b1, str "FLOOR", str "CEIL", 160, 0, 0⟩]
  sides := [⟨0, 0, str "FUP", str "FLOW", str "FMID", 0⟩, ⟨0, 0, str "BUP", str "BLOW", str "-", 1⟩]
  lines := [⟨0, 1, 0, 1⟩]

theorem windowMap_inRange (f0 f1 b0 b1 : Int16) : (windowMap f0 f1 b0 b1).InRange := by
  constructor <;> intro x hx <;> simp only [windowMap, List.mem_cons, List.not_mem_nil, or_false] at hx
  · subst hx; show _ ∧ _ < 2; decide
  · subst hx; show _ ∧ _ < 2; decide
  · subst hx; intro _; show _ ∧ _ < 2; decide
  · subst hx; intro _; show _ ∧ _ < 2; decide
  · rcases hx with rfl | rfl <;> (show _ ∧ _ < 2; decide)

/-- The hypotheses of `C45_counts_partial` and `C46_areas_partial` are met: a window whose front ceiling is
higher. -/
theorem C46_hypotheses_met : (windowMap 0 128 0 96).InRange ∧ (windowMap 0 128 0 96).Moderate ∧ (windowMap 0 128 0 96).FrontTaller ∧
    (windowMap 0 128 0 96).wallAreas (F := F) wallParts =
      [(str "FUP", mul (lineLength ⟨0, 0⟩ ⟨64, 0⟩) (ofInt 32)), (str "FLOW", mul (lineLength ⟨0, 0⟩ ⟨64, 0⟩) (ofInt 0)),
        (str "FMID", mul (lineLength ⟨0, 0⟩ ⟨64, 0⟩) (ofInt 96)), (str "-", mul (lineLength ⟨0, 0⟩ ⟨64, 0⟩) (ofInt 96))] := by
  refine ⟨windowMap_inRange _ _ _ _, ?_, ?_, rfl⟩
  · constructor <;> (unfold DiffFits; decide)
  · intro l hl f fc b bc h1 h2
    simp only [windowMap, List.mem_cons, List.not_mem_nil, or_false] at hl
    subst hl
    cases h1; cases h2
    decide

/-- **C46 is false, upper part**: whenever the back ceiling is the higher one, the wall above the opening,
which only the back side shows, is charged to the *front* side's upper texture, and the back side's upper
texture is not reported at all. -/
theorem C46_wrong_side [SmallIntOrder F] (pr : Profile) : ∃ counts : TexCounts F,
    (windowMap 0 96 0 128).countTextures pr = .ok counts ∧
    (∃ area, (str "FUP", 1, area) ∈ counts) ∧ (∀ n area, (str "BUP", n, area) ∉ counts) ∧
    (str "FUP") ∉ ((windowMap 0 96 0 128).wallAreas (F := F) wallParts).map (·.1) ∧
    (str "BUP") ∈ ((windowMap 0 96 0 128).wallAreas (F := F) wallParts).map (·.1) := by
  obtain ⟨counts, h1, h2⟩ := C45_counts_partial (F := F) pr (windowMap 0 96 0 128) (windowMap_inRange _ _ _ _)
    (by constructor <;> (unfold DiffFits; decide))
  refine ⟨counts, h1, ⟨_, (h2.entries _ _ _).mpr ⟨by decide, rfl, by decide, rfl⟩⟩, ?_, ?_, ?_⟩
  · intro n area hm
    obtain ⟨_, h3, h4, _⟩ := (h2.entries _ _ _).mp hm
    have : ((windowMap 0 96 0 128).wallAreas (F := F) chargedParts).countP (·.1 = str "BUP") = 0 := rfl
    omega
  · show str "FUP" ∉ [str "BUP", str "FLOW", str "FMID", str "-"]
    decide
  · show str "BUP" ∈ [str "BUP", str "FLOW", str "FMID", str "-"]
    decide

/-- **C46 is false, middle part**: between a room with floor 0 and a step with floor 64, both with their
ceiling at 128, the opening is 64 high but the middle texture is charged 128. -/
theorem C46_opening_too_high [SmallIntOrder F] (pr : Profile) : ∃ counts : TexCounts F,
    (windowMap 0 128 64 128).countTextures pr = .ok counts ∧
    (str "FMID", 1, add (ofInt 0) (mul (lineLength ⟨0, 0⟩ ⟨64, 0⟩) (ofInt 128))) ∈ counts ∧
    (str "FMID", mul (lineLength ⟨0, 0⟩ ⟨64, 0⟩) (ofInt 64)) ∈ (windowMap 0 128 64 128).wallAreas (F := F) wallParts := by
  obtain ⟨counts, h1, h2⟩ := C45_counts_partial (F := F) pr (windowMap 0 128 64 128) (windowMap_inRange _ _ _ _)
    (by constructor <;> (unfold DiffFits; decide))
  refine ⟨counts, h1, (h2.entries _ _ _).mpr ⟨by decide, rfl, by decide, rfl⟩, ?_⟩
  exact List.mem_of_getElem? (i := 2) rfl

/-- Without `Moderate` the call can panic: in a debug build, a line between vertices more than 32767
apart overflows. -/
theorem C45_overflow_panics (m : BinMap) (l : BinLine) (rest : List BinLine) (a b : BareVertex) (hl : m.lines = l :: rest)
    (hs : l.front ≠ -1 ∨ l.back ≠ -1) (h0 : 0 ≤ l.v0.toInt) (h1 : 0 ≤ l.v1.toInt)
    (ha : m.vertices[l.v0.toInt.toNat]? = some a) (hb : m.vertices[l.v1.toInt.toNat]? = some b)
    (ho : b.x.toInt - a.x.toInt < -32768 ∨ 32767 < b.x.toInt - a.x.toInt) :
    (m.countTextures .debug : Res (TexCounts F)) = .panic .overflow := by
  have hp : subI16 .debug b.x a.x = .panic .overflow := by
    unfold subI16 i16Arith
    rw [if_neg (by omega)]
  have : m.countLine (F := F) .debug [] l = .panic .overflow := by
    unfold BinMap.countLine
    rw [if_neg (by rintro ⟨h2, h3⟩; rcases hs with h | h <;> contradiction), i16AsUsize_nonneg h0, i16AsUsize_nonneg h1,
      index_ok ha, index_ok hb]
    simp only [Res.bind_ok, hp, Res.bind_panic]
  unfold BinMap.countTextures
  rw [hl]
  simp only [forEach, this]
  rfl

/-- `C45_overflow_panics` has instances. -/
example : ∃ (m : BinMap) (l : BinLine) (a b : BareVertex), m.lines = [l] ∧ l.front ≠ -1 ∧ m.vertices[l.v0.toInt.toNat]? = some a ∧
    m.vertices[l.v1.toInt.toNat]? = some b ∧ 32767 < b.x.toInt - a.x.toInt :=
  ⟨⟨[⟨-20000, 0⟩, ⟨20000, 0⟩], [], [], [⟨0, 1, 0, -1⟩]⟩, ⟨0, 1, 0, -1⟩, ⟨-20000, 0⟩, ⟨20000, 0⟩, rfl, by decide, rfl, rfl, by decide⟩

end Idc
