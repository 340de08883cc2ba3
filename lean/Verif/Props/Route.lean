import Verif.Spec.Route
import Verif.Props.Compute
import Verif.Props.Textures
/-!
# C62, C63: the flood fill of the route finder
-/

namespace Idc

open FloatOps

variable {F : Type} [FloatOps F]

/-! ### Sets -/

theorem mem_hashInsert {α : Type} [DecidableEq α] (x y : α) (l : List α) : y ∈ hashInsert x l ↔ y = x ∨ y ∈ l := by
  unfold hashInsert
  split
  · constructor
    · intro h; exact .inr h
    · rintro (rfl | h) <;> assumption
  · simp only [List.mem_append, List.mem_singleton]; exact or_comm

theorem hashEq_iff {α : Type} [DecidableEq α] (a b : List α) : hashEq a b = true ↔ ∀ x, x ∈ a ↔ x ∈ b := by
  unfold hashEq
  simp only [Bool.and_eq_true, List.all_eq_true, decide_eq_true_eq]
  exact ⟨fun h x => ⟨h.1 x, h.2 x⟩, fun h => ⟨fun x => (h x).1, fun x => (h x).2⟩⟩

theorem mem_btreeInsert (x y : Nat) (l : List Nat) : y ∈ btreeInsert x l ↔ y = x ∨ y ∈ l := by
  induction l with
  | nil => simp [btreeInsert]
  | cons z l ih =>
    unfold btreeInsert
    split
    · simp
    · split
      · rename_i h; subst h; simp
      · simp only [List.mem_cons, ih]; tauto

theorem btreeInsert_sorted (x : Nat) {l : List Nat} (h : l.Pairwise (· < ·)) : (btreeInsert x l).Pairwise (· < ·) := by
  induction l with
  | nil => simp [btreeInsert]
  | cons z l ih =>
    have hz := List.pairwise_cons.1 h
    unfold btreeInsert
    split
    · rename_i hlt
      refine List.pairwise_cons.2 ⟨?_, h⟩
      intro a ha
      rcases List.mem_cons.1 ha with rfl | ha
      · exact hlt
      · exact Nat.lt_trans hlt (hz.1 a ha)
    · split
      · exact h
      · rename_i h1 h2
        refine List.pairwise_cons.2 ⟨?_, ih hz.2⟩
        intro a ha
        rcases (mem_btreeInsert x a l).1 ha with rfl | ha
        · omega
        · exact hz.1 a ha

theorem sorted_nodup {l : List Nat} (h : l.Pairwise (· < ·)) : l.Nodup := h.imp fun h => Nat.ne_of_lt h

/-! ### Sectors and tags -/

/-- A polygon stands for sector `s`. -/
def RefIn (m : FullMap F) (r : PolygonRef) (s : Nat) : Prop :=
  r = .sector s ∨ ∃ l, r = .line l ∧ (SideIn m l.front s ∨ SideIn m l.back s)

theorem insertSide_ok {m : FullMap F} {acc l : List Nat} {side : Option Nat} (h : insertSide m acc side = .ok l) (s : Nat) :
    s ∈ l ↔ s ∈ acc ∨ SideIn m side s := by
  cases side with
  | none =>
    simp only [insertSide, Res.ok.injEq] at h
    subst h
    simp [SideIn]
  | some x =>
    simp only [insertSide] at h
    obtain ⟨sd, h1, h2⟩ := Res.bind_eq_ok h
    simp only [Res.pure_eq, Res.ok.injEq] at h2
    subst h2
    have h1 := index_eq_ok h1
    rw [mem_hashInsert]
    constructor
    · rintro (rfl | h)
      · exact .inr ⟨x, sd, rfl, h1, rfl⟩
      · exact .inl h
    · rintro (h | ⟨y, sd', hy, hs, rfl⟩)
      · exact .inr h
      · cases hy; rw [h1] at hs; cases hs; exact .inl rfl

theorem insertRef_ok {m : FullMap F} {acc l : List Nat} {r : PolygonRef} (h : insertRef m acc r = .ok l) (s : Nat) :
    s ∈ l ↔ s ∈ acc ∨ RefIn m r s := by
  cases r with
  | sector x =>
    simp only [insertRef, Res.ok.injEq] at h
    subst h
    rw [mem_hashInsert]
    simp only [RefIn, PolygonRef.sector.injEq, reduceCtorEq, false_and, exists_false, or_false]
    constructor
    · rintro (rfl | h)
      · exact .inr rfl
      · exact .inl h
    · rintro (h | rfl)
      · exact .inr h
      · exact .inl rfl
  | line ln =>
    simp only [insertRef] at h
    obtain ⟨a, h1, h2⟩ := Res.bind_eq_ok h
    rw [insertSide_ok h2, insertSide_ok h1]
    simp only [RefIn, reduceCtorEq, false_or, PolygonRef.line.injEq, exists_eq_left', or_assoc]

theorem collectSectors_ok {m : FullMap F} {refs : List PolygonRef} {flags : List Bool} {p : Nat} {acc l : List Nat}
    (h : collectSectors m refs p flags acc = .ok l) (s : Nat) :
    s ∈ l ↔ s ∈ acc ∨ ∃ (q : Nat) (r : PolygonRef), flags[q]? = some true ∧ refs[p + q]? = some r ∧ RefIn m r s := by
  induction flags generalizing p acc with
  | nil =>
    simp only [collectSectors, Res.ok.injEq] at h
    subst h; simp
  | cons flag rest ih =>
    have key : (∃ (q : Nat) (r : PolygonRef), (flag :: rest)[q]? = some true ∧ refs[p + q]? = some r ∧ RefIn m r s) ↔
        (flag = true ∧ ∃ r, refs[p]? = some r ∧ RefIn m r s) ∨
          ∃ (q : Nat) (r : PolygonRef), rest[q]? = some true ∧ refs[p + 1 + q]? = some r ∧ RefIn m r s := by
      constructor
      · rintro ⟨q, r, h1, h2, h3⟩
        cases q with
        | zero => simp only [List.getElem?_cons_zero, Option.some.injEq] at h1; exact .inl ⟨h1, r, h2, h3⟩
        | succ q =>
          simp only [List.getElem?_cons_succ] at h1
          exact .inr ⟨q, r, h1, by rw [Nat.add_assoc, Nat.add_comm 1]; exact h2, h3⟩
      · rintro (⟨rfl, r, h2, h3⟩ | ⟨q, r, h1, h2, h3⟩)
        · exact ⟨0, r, rfl, h2, h3⟩
        · exact ⟨q + 1, r, by simpa using h1, by rw [Nat.add_assoc, Nat.add_comm 1] at h2; exact h2, h3⟩
    rw [key]
    unfold collectSectors at h
    split at h
    · rename_i hf
      have hf : flag = false := by simpa using hf
      rw [ih h]; simp [hf]
    · rename_i hf
      have hf : flag = true := by simpa using hf
      obtain ⟨r, h1, h2⟩ := Res.bind_eq_ok h
      obtain ⟨a, h3, h4⟩ := Res.bind_eq_ok h2
      have h1 := index_eq_ok h1
      rw [ih h4, insertRef_ok h3, or_assoc]
      simp [hf, h1]

theorem inSector_iff (m : FullMap F) (refs : List PolygonRef) (c : Contour F) (s : Nat) :
    InSector m refs c s ↔ ∃ (q : Nat) (r : PolygonRef), c.from_polygons[q]? = some true ∧ refs[q]? = some r ∧ RefIn m r s := by
  constructor
  · rintro ⟨p, h1, h2 | ⟨l, h2, h3⟩⟩
    · exact ⟨p, _, h1, h2, .inl rfl⟩
    · exact ⟨p, _, h1, h2, .inr ⟨l, rfl, h3⟩⟩
  · rintro ⟨q, r, h1, h2, rfl | ⟨l, rfl, h3⟩⟩
    · exact ⟨q, h1, .inl h2⟩
    · exact ⟨q, h1, .inr ⟨l, h2, h3⟩⟩

theorem sectors_ok {m : FullMap F} {refs : List PolygonRef} {c : Contour F} {l : List Nat}
    (h : collectSectors m refs 0 c.from_polygons [] = .ok l) (s : Nat) : s ∈ l ↔ InSector m refs c s := by
  rw [collectSectors_ok h, inSector_iff]; simp

/-- `collectFree` collects like `collectSectors` unless it meets a line that blocks. -/
theorem collectFree_ok {m : FullMap F} {refs : List PolygonRef} {flags : List Bool} {p : Nat} {acc l : List Nat} {free : Bool}
    (h : collectFree m refs p flags acc = .ok (free, l)) :
    (free = true → collectSectors m refs p flags acc = .ok l) ∧
    (free = false ↔ ∃ (q : Nat) (r : PolygonRef), flags[q]? = some true ∧ refs[p + q]? = some r ∧ r.blocks = true) := by
  induction flags generalizing p acc with
  | nil =>
    simp only [collectFree, Res.ok.injEq, Prod.mk.injEq] at h
    obtain ⟨rfl, rfl⟩ := h
    simp [collectSectors]
  | cons flag rest ih =>
    have key : (∃ (q : Nat) (r : PolygonRef), (flag :: rest)[q]? = some true ∧ refs[p + q]? = some r ∧ r.blocks = true) ↔
        (flag = true ∧ ∃ r, refs[p]? = some r ∧ r.blocks = true) ∨
          ∃ (q : Nat) (r : PolygonRef), rest[q]? = some true ∧ refs[p + 1 + q]? = some r ∧ r.blocks = true := by
      constructor
      · rintro ⟨q, r, h1, h2, h3⟩
        cases q with
        | zero => simp only [List.getElem?_cons_zero, Option.some.injEq] at h1; exact .inl ⟨h1, r, h2, h3⟩
        | succ q =>
          simp only [List.getElem?_cons_succ] at h1
          exact .inr ⟨q, r, h1, by rw [Nat.add_assoc, Nat.add_comm 1]; exact h2, h3⟩
      · rintro (⟨rfl, r, h2, h3⟩ | ⟨q, r, h1, h2, h3⟩)
        · exact ⟨0, r, rfl, h2, h3⟩
        · exact ⟨q + 1, r, by simpa using h1, by rw [Nat.add_assoc, Nat.add_comm 1] at h2; exact h2, h3⟩
    rw [key]
    unfold collectFree at h
    unfold collectSectors
    split at h
    · rename_i hf
      have hf' : flag = false := by simpa using hf
      rw [if_pos hf]
      have := ih h
      refine ⟨this.1, ?_⟩
      rw [this.2]; simp [hf']
    · rename_i hf
      have hf' : flag = true := by simpa using hf
      rw [if_neg hf]
      obtain ⟨r, h1, h2⟩ := Res.bind_eq_ok h
      have h1' := index_eq_ok h1
      split at h2
      · rename_i hb
        simp only [Res.pure_eq, Res.ok.injEq, Prod.mk.injEq] at h2
        obtain ⟨rfl, rfl⟩ := h2
        refine ⟨fun h => by simp at h, ?_⟩
        simp only [true_iff]
        exact .inl ⟨hf', r, h1', hb⟩
      · rename_i hb
        obtain ⟨a, h3, h4⟩ := Res.bind_eq_ok h2
        have := ih h4
        refine ⟨fun hfree => ?_, ?_⟩
        · rw [h1]; simp only [Res.bind_ok]; rw [h3]; simp only [Res.bind_ok]; exact this.1 hfree
        · rw [this.2]; simp [hf', h1', hb]

theorem blocked_iff (refs : List PolygonRef) (c : Contour F) :
    Blocked refs c ↔ ∃ (q : Nat) (r : PolygonRef), c.from_polygons[q]? = some true ∧ refs[q]? = some r ∧ r.blocks = true := by
  constructor
  · rintro ⟨p, l, h1, h2, h3⟩
    exact ⟨p, _, h1, h2, by simpa [PolygonRef.blocks, Line.blocksPlayer] using h3⟩
  · rintro ⟨q, r, h1, h2, h3⟩
    cases r with
    | sector h => simp [PolygonRef.blocks] at h3
    | line l => exact ⟨q, l, h1, h2, by simpa [PolygonRef.blocks, Line.blocksPlayer] using h3⟩

theorem free_ok {m : FullMap F} {refs : List PolygonRef} {c : Contour F} {l : List Nat} {free : Bool}
    (h : collectFree m refs 0 c.from_polygons [] = .ok (free, l)) :
    (free = true → ∀ s, s ∈ l ↔ InSector m refs c s) ∧ (free = false ↔ Blocked refs c) := by
  have := collectFree_ok h
  refine ⟨fun hf s => sectors_ok (this.1 hf) s, ?_⟩
  rw [this.2, blocked_iff]; simp

theorem maxFloor_ok {l : List Int32} {h : Int32} (hl : maxFloor l = some h) : h ∈ l ∧ ∀ x ∈ l, x.toInt ≤ h.toInt := by
  induction l generalizing h with
  | nil => simp [maxFloor] at hl
  | cons x xs ih =>
    unfold maxFloor at hl
    split at hl
    · rename_i hn
      cases hl
      have : xs = [] := by
        cases xs with
        | nil => rfl
        | cons y ys => unfold maxFloor at hn; split at hn <;> cases hn
      subst this; simp
    · rename_i y hy
      simp only [Option.some.injEq] at hl
      obtain ⟨h1, h2⟩ := ih hy
      split at hl
      · rename_i hle
        subst hl
        refine ⟨List.mem_cons_of_mem _ h1, ?_⟩
        intro z hz
        rcases List.mem_cons.1 hz with rfl | hz
        · exact hle
        · exact h2 z hz
      · rename_i hle
        subst hl
        refine ⟨List.mem_cons_self, ?_⟩
        intro z hz
        rcases List.mem_cons.1 hz with rfl | hz
        · exact le_refl _
        · have := h2 z hz; omega

theorem mapList_mem {α β : Type} {f : α → Res β} {l : List α} {l' : List β} (h : Res.mapList f l = .ok l') :
    l'.length = l.length ∧ ∀ (i : Nat) (x : α), l[i]? = some x → ∃ y, f x = .ok y ∧ l'[i]? = some y := by
  induction l generalizing l' with
  | nil => simp only [Res.mapList, Res.ok.injEq] at h; subst h; simp
  | cons x xs ih =>
    unfold Res.mapList at h
    split at h <;> try (cases h; done)
    rename_i y hy
    split at h <;> try (cases h; done)
    rename_i ys hys
    cases h
    obtain ⟨h1, h2⟩ := ih hys
    refine ⟨by simp [h1], ?_⟩
    intro i z hz
    cases i with
    | zero => simp only [List.getElem?_cons_zero, Option.some.injEq] at hz; subst hz; exact ⟨y, hy, rfl⟩
    | succ i => simp only [List.getElem?_cons_succ] at hz ⊢; exact h2 i z hz

theorem Res.map_eq_ok {α β : Type} {f : α → β} {r : Res α} {b : β} (h : r.map f = .ok b) : ∃ a, r = .ok a ∧ f a = b := by
  cases r with
  | ok a => simp only [Res.map, Res.ok.injEq] at h; exact ⟨a, rfl, h⟩
  | err e => simp [Res.map] at h
  | panic p => simp [Res.map] at h
  | diverge => simp [Res.map] at h

theorem unwrap_eq_ok {α : Type} {o : Option α} {a : α} (h : unwrap o = .ok a) : o = some a := by
  cases o with
  | none => simp [unwrap] at h
  | some b => simp only [unwrap, Res.ok.injEq] at h; rw [h]

theorem highestFloor_ok {m : FullMap F} {sectors : List Nat} {h : Int32} (hh : highestFloor m sectors = .ok h) :
    (∃ s ∈ sectors, ∃ sec, m.sectors[s]? = some sec ∧ sec.floor_height = h) ∧
    ∀ s ∈ sectors, ∀ sec, m.sectors[s]? = some sec → sec.floor_height.toInt ≤ h.toInt := by
  unfold highestFloor at hh
  obtain ⟨floors, h1, h2⟩ := Res.bind_eq_ok hh
  obtain ⟨h3, h4⟩ := maxFloor_ok (unwrap_eq_ok h2)
  obtain ⟨hl, hm⟩ := mapList_mem h1
  constructor
  · obtain ⟨i, hi⟩ := List.mem_iff_getElem?.1 h3
    have hlt : i < sectors.length := by
      rw [← hl]; exact (List.getElem?_eq_some_iff.1 hi).1
    obtain ⟨y, hy, hy'⟩ := hm i _ (List.getElem?_eq_getElem hlt)
    obtain ⟨sec, hs, hf⟩ := Res.map_eq_ok hy
    rw [hi] at hy'; cases hy'
    exact ⟨_, List.getElem_mem hlt, sec, index_eq_ok hs, hf⟩
  · intro s hs sec hsec
    obtain ⟨i, hi⟩ := List.mem_iff_getElem?.1 hs
    obtain ⟨y, hy, hy'⟩ := hm i _ hi
    obtain ⟨sec', hs', hf⟩ := Res.map_eq_ok hy
    have := index_eq_ok hs'
    rw [hsec] at this; cases this
    rw [hf]
    exact h4 _ (List.mem_of_getElem? hy')

theorem floorOf_of {m : FullMap F} {refs : List PolygonRef} {c : Contour F} {sectors : List Nat} {h : Int32}
    (hs : ∀ s, s ∈ sectors ↔ InSector m refs c s) (hh : highestFloor m sectors = .ok h) : FloorOf m refs c h.toInt := by
  obtain ⟨⟨s, h1, sec, h2, h3⟩, h4⟩ := highestFloor_ok hh
  exact ⟨⟨s, sec, (hs s).1 h1, h2, by rw [h3]⟩, fun s sec h5 h6 => h4 s ((hs s).2 h5) sec h6⟩

theorem floorOf_unique {m : FullMap F} {refs : List PolygonRef} {c : Contour F} {h k : Int}
    (hh : FloorOf m refs c h) (hk : FloorOf m refs c k) : h = k := by
  obtain ⟨⟨s, sec, a1, a2, a3⟩, a4⟩ := hh
  obtain ⟨⟨s', sec', b1, b2, b3⟩, b4⟩ := hk
  have := a4 s' sec' b1 b2
  have := b4 s sec a1 a2
  omega

/-! Tags -/

/-- The tag of sector `s`, if it is not 0. -/
def TagOf (m : FullMap F) (s : Nat) (t : UInt32) : Prop := t ≠ 0 ∧ ∃ sec, m.sectors[s]? = some sec ∧ sec.tag = t

theorem insertTag_ok {m : FullMap F} {acc l : List UInt32} {s : Nat} (h : insertTag m acc s = .ok l) (t : UInt32) :
    t ∈ l ↔ t ∈ acc ∨ TagOf m s t := by
  unfold insertTag at h
  obtain ⟨sec, h1, h2⟩ := Res.bind_eq_ok h
  have h1 := index_eq_ok h1
  simp only [Res.pure_eq, Res.ok.injEq] at h2
  subst h2
  split
  · rename_i hne
    rw [mem_hashInsert]
    constructor
    · rintro (rfl | h)
      · exact .inr ⟨hne, sec, h1, rfl⟩
      · exact .inl h
    · rintro (h | ⟨_, sec', h3, rfl⟩)
      · exact .inr h
      · rw [h1] at h3; cases h3; exact .inl rfl
  · rename_i hne
    constructor
    · exact .inl
    · rintro (h | ⟨h0, sec', h3, rfl⟩)
      · exact h
      · rw [h1] at h3; cases h3; exact absurd h0 hne

theorem insertSideTag_ok {m : FullMap F} {acc l : List UInt32} {side : Option Nat} (h : insertSideTag m acc side = .ok l) (t : UInt32) :
    t ∈ l ↔ t ∈ acc ∨ ∃ s, SideIn m side s ∧ TagOf m s t := by
  cases side with
  | none =>
    simp only [insertSideTag, Res.ok.injEq] at h
    subst h
    simp [SideIn]
  | some x =>
    simp only [insertSideTag] at h
    obtain ⟨sd, h1, h2⟩ := Res.bind_eq_ok h
    have h1 := index_eq_ok h1
    rw [insertTag_ok h2]
    constructor
    · rintro (h | h)
      · exact .inl h
      · exact .inr ⟨_, ⟨x, sd, rfl, h1, rfl⟩, h⟩
    · rintro (h | ⟨s, ⟨y, sd', hy, hs, rfl⟩, h⟩)
      · exact .inl h
      · cases hy; rw [h1] at hs; cases hs; exact .inr h

theorem insertRefTags_ok {m : FullMap F} {acc l : List UInt32} {r : PolygonRef} (h : insertRefTags m acc r = .ok l) (t : UInt32) :
    t ∈ l ↔ t ∈ acc ∨ ∃ s, RefIn m r s ∧ TagOf m s t := by
  cases r with
  | sector x =>
    simp only [insertRefTags] at h
    rw [insertTag_ok h]
    simp only [RefIn, PolygonRef.sector.injEq, reduceCtorEq, false_and, exists_false, or_false, exists_eq_left']
  | line ln =>
    simp only [insertRefTags] at h
    obtain ⟨a, h1, h2⟩ := Res.bind_eq_ok h
    rw [insertSideTag_ok h2, insertSideTag_ok h1]
    simp only [RefIn, reduceCtorEq, false_or, PolygonRef.line.injEq, exists_eq_left', or_assoc]
    simp only [or_and_right, exists_or]

theorem collectTags_ok {m : FullMap F} {refs : List PolygonRef} {flags : List Bool} {p : Nat} {acc l : List UInt32}
    (h : collectTags m refs p flags acc = .ok l) (t : UInt32) :
    t ∈ l ↔ t ∈ acc ∨ ∃ (q : Nat) (r : PolygonRef), flags[q]? = some true ∧ refs[p + q]? = some r ∧ ∃ s, RefIn m r s ∧ TagOf m s t := by
  induction flags generalizing p acc with
  | nil =>
    simp only [collectTags, Res.ok.injEq] at h
    subst h; simp
  | cons flag rest ih =>
    have key : (∃ (q : Nat) (r : PolygonRef), (flag :: rest)[q]? = some true ∧ refs[p + q]? = some r ∧ ∃ s, RefIn m r s ∧ TagOf m s t) ↔
        (flag = true ∧ ∃ r, refs[p]? = some r ∧ ∃ s, RefIn m r s ∧ TagOf m s t) ∨
          ∃ (q : Nat) (r : PolygonRef), rest[q]? = some true ∧ refs[p + 1 + q]? = some r ∧ ∃ s, RefIn m r s ∧ TagOf m s t := by
      constructor
      · rintro ⟨q, r, h1, h2, h3⟩
        cases q with
        | zero => simp only [List.getElem?_cons_zero, Option.some.injEq] at h1; exact .inl ⟨h1, r, h2, h3⟩
        | succ q =>
          simp only [List.getElem?_cons_succ] at h1
          exact .inr ⟨q, r, h1, by rw [Nat.add_assoc, Nat.add_comm 1]; exact h2, h3⟩
      · rintro (⟨rfl, r, h2, h3⟩ | ⟨q, r, h1, h2, h3⟩)
        · exact ⟨0, r, rfl, h2, h3⟩
        · exact ⟨q + 1, r, by simpa using h1, by rw [Nat.add_assoc, Nat.add_comm 1] at h2; exact h2, h3⟩
    rw [key]
    unfold collectTags at h
    split at h
    · rename_i hf
      have hf : flag = false := by simpa using hf
      rw [ih h]; simp [hf]
    · rename_i hf
      have hf : flag = true := by simpa using hf
      obtain ⟨r, h1, h2⟩ := Res.bind_eq_ok h
      obtain ⟨a, h3, h4⟩ := Res.bind_eq_ok h2
      have h1 := index_eq_ok h1
      rw [ih h4, insertRefTags_ok h3, or_assoc]
      simp [hf, h1]

theorem contourTags_ok {m : FullMap F} {refs : List PolygonRef} {c : Contour F} {l : List UInt32}
    (h : contourTags m refs c = .ok l) (t : UInt32) : t ∈ l ↔ HasTag m refs c t := by
  unfold contourTags at h
  obtain ⟨tags, h1, h2⟩ := Res.bind_eq_ok h
  simp only [Res.pure_eq, Res.ok.injEq] at h2
  subst h2
  rw [List.mem_filter, collectTags_ok h1]
  simp only [List.not_mem_nil, Nat.zero_add, false_or, decide_eq_true_eq]
  constructor
  · rintro ⟨⟨q, r, h1, h2, s, h3, h4, sec, h5, h6⟩, h7⟩
    exact ⟨h4, h7, s, sec, (inSector_iff ..).2 ⟨q, r, h1, h2, h3⟩, h5, h6⟩
  · rintro ⟨h4, h7, s, sec, h, h5, h6⟩
    obtain ⟨q, r, h1, h2, h3⟩ := (inSector_iff ..).1 h
    exact ⟨⟨q, r, h1, h2, s, h3, h4, sec, h5, h6⟩, h7⟩

theorem unionHoles_ok {contours : List (Contour F)} {hs : List Nat} {acc r : List Bool} (h : unionHoles contours hs acc = .ok r) (j : Nat) :
    r[j]? = some true ↔ acc[j]? = some true ∨ ∃ k ∈ hs, ∃ hole, contours[k]? = some hole ∧ hole.neighbors[j]? = some true := by
  induction hs generalizing acc with
  | nil =>
    simp only [unionHoles, Res.ok.injEq] at h
    subst h; simp
  | cons k ks ih =>
    simp only [unionHoles] at h
    obtain ⟨c, h1, h2⟩ := Res.bind_eq_ok h
    obtain ⟨a, h3, h4⟩ := Res.bind_eq_ok h2
    have h1 := index_eq_ok h1
    have hu : a[j]? = some true ↔ acc[j]? = some true ∨ c.neighbors[j]? = some true := by
      unfold bvUnion at h3
      split at h3
      · rename_i hlen
        simp only [Res.ok.injEq] at h3
        subst h3
        rw [List.getElem?_zipWith]
        rcases hx : acc[j]? with _ | x <;> rcases hy : c.neighbors[j]? with _ | y
        · simp
        · have h1 := List.getElem?_eq_none_iff.1 hx
          have h2 := (List.getElem?_eq_some_iff.1 hy).1
          omega
        · have h1 := List.getElem?_eq_none_iff.1 hy
          have h2 := (List.getElem?_eq_some_iff.1 hx).1
          omega
        · simp
      · cases h3
    rw [ih h4, hu, or_assoc]
    simp [h1]

end Idc
