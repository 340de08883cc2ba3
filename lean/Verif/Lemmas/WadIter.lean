import Verif.Spec.WadIter

namespace Idc

/-- Names of pending entries. -/
def namesOf (todo : List (Nat × DirEntry)) : List Bytes := todo.map fun p => p.2.name

/-- Storing a run of entries in a block. -/
def applyClaims (b : MapEntryBlock) (l : List (Nat × DirEntry)) : MapEntryBlock :=
  l.foldl (fun b p => b.setLump p.2.name p.1) b

theorem sublist_cons_ne {x n : Bytes} {l ls : List Bytes} (hx : x ≠ n)
    (h : (x :: l).Sublist (n :: ls)) : (x :: l).Sublist ls := by
  cases h with
  | cons _ h => exact h
  | cons_cons _ h => exact absurd rfl hx

theorem mapLoop_spec (ls : List (Bytes × Bool)) (b : MapEntryBlock) (i : Nat) (e : DirEntry)
    (rest : List (Nat × DirEntry)) :
    ∃ k, k ≤ rest.length + 1 ∧
      (namesOf (((i, e) :: rest).take k)).Sublist (ls.map (·.1)) ∧
      (mapLoop ls b i e rest).2 = ((i, e) :: rest).drop k ∧
      ∀ b' last, (mapLoop ls b i e rest).1 = some (b', last) →
        b' = applyClaims b (((i, e) :: rest).take k) ∧
        ((k = rest.length + 1 ∧ (∃ p, ((i, e) :: rest)[k - 1]? = some p ∧ last = p.1) ∧
            ∃ ls1, ls1 <+: ls ∧ (namesOf (((i, e) :: rest).take k)).Sublist (ls1.map (·.1)) ∧
              ∀ r, (r, true) ∈ ls1 → r ∈ namesOf (((i, e) :: rest).take k)) ∨
         ((∃ p, ((i, e) :: rest)[k]? = some p ∧ last = p.1) ∧
            (∀ r, (r, true) ∈ ls → r ∈ namesOf (((i, e) :: rest).take k)))) := by
  induction ls generalizing b i e rest with
  | nil =>
    refine ⟨0, by omega, by simp [namesOf], by simp [mapLoop], ?_⟩
    intro b' last h
    simp [mapLoop] at h
    obtain ⟨rfl, rfl⟩ := h
    simp [applyClaims]
  | cons l ls ih =>
    obtain ⟨n, r⟩ := l
    by_cases hn : e.name = n
    · rcases rest with _ | ⟨⟨j, next⟩, rest'⟩
      · refine ⟨1, by simp, ?_, ?_, ?_⟩
        · simp [namesOf, hn]
        · simp [mapLoop, hn]
        · intro b' last h
          simp [mapLoop, hn] at h
          obtain ⟨rfl, rfl⟩ := h
          refine ⟨by simp [applyClaims, hn], Or.inl ⟨by simp, by simp, [(n, r)], by simp, ?_, ?_⟩⟩
          · simp [namesOf, hn]
          · intro r' h'; simp at h'; simp [namesOf, hn, h'.1]
      · obtain ⟨k, hk, hsub, hdrop, hsome⟩ := ih (b.setLump e.name i) j next rest'
        have hml : mapLoop ((n, r) :: ls) b i e ((j, next) :: rest') =
            mapLoop ls (b.setLump e.name i) j next rest' := by simp [mapLoop, hn]
        refine ⟨k + 1, by simp; omega, ?_, ?_, ?_⟩
        · simp only [namesOf, List.take_succ_cons, List.map_cons, hn]
          exact hsub.cons_cons _
        · rw [hml, hdrop]; rfl
        · intro b' last h
          rw [hml] at h
          obtain ⟨hb, hcase⟩ := hsome b' last h
          refine ⟨by rw [hb]; rfl, ?_⟩
          have hcl : namesOf (((i, e) :: (j, next) :: rest').take (k + 1)) =
              n :: namesOf (((j, next) :: rest').take k) := by simp [namesOf, hn]
          rw [hcl]
          rcases hcase with ⟨hk', ⟨p, hp, hlast⟩, ls1, hpre, hs1, hr1⟩ | ⟨⟨p, hp, hlast⟩, hr⟩
          · left
            refine ⟨by simp; omega, ⟨p, ?_, hlast⟩, (n, r) :: ls1, ?_, ?_, ?_⟩
            · obtain ⟨k', rfl⟩ : ∃ k', k = k' + 1 := ⟨k - 1, by omega⟩
              simpa using hp
            · exact (List.cons_prefix_cons).mpr ⟨rfl, hpre⟩
            · exact hs1.cons_cons _
            · intro r' h'
              rcases List.mem_cons.mp h' with h' | h'
              · cases h'; simp
              · exact List.mem_cons_of_mem _ (hr1 r' h')
          · right
            refine ⟨⟨p, by simpa using hp, hlast⟩, ?_⟩
            intro r' h'
            rcases List.mem_cons.mp h' with h' | h'
            · cases h'; simp
            · exact List.mem_cons_of_mem _ (hr r' h')
    · by_cases hr : r = true
      · subst hr
        refine ⟨0, by omega, by simp [namesOf], by simp [mapLoop, hn], ?_⟩
        intro b' last h
        simp [mapLoop, hn] at h
      · have hr' : r = false := by simpa using hr
        subst hr'
        have hml : mapLoop ((n, false) :: ls) b i e rest = mapLoop ls b i e rest := by simp [mapLoop, hn]
        obtain ⟨k, hk, hsub, hdrop, hsome⟩ := ih b i e rest
        refine ⟨k, hk, hsub.cons _, by rw [hml, hdrop], ?_⟩
        intro b' last h
        rw [hml] at h
        obtain ⟨hb, hcase⟩ := hsome b' last h
        refine ⟨hb, ?_⟩
        rcases hcase with ⟨hk', hp, ls1, hpre, hs1, hr1⟩ | ⟨hp, hr⟩
        · left
          refine ⟨hk', hp, (n, false) :: ls1, (List.cons_prefix_cons).mpr ⟨rfl, hpre⟩, hs1.cons _, ?_⟩
          intro r' h'
          rcases List.mem_cons.mp h' with h' | h'
          · cases h'
          · exact hr1 r' h'
        · right
          refine ⟨hp, ?_⟩
          intro r' h'
          rcases List.mem_cons.mp h' with h' | h'
          · cases h'
          · exact hr r' h'

/-- When a block is found. -/
theorem mapLoop_some_of (ls : List (Bytes × Bool)) (hnd : (ls.map (·.1)).Nodup) (b : MapEntryBlock)
    (i : Nat) (e : DirEntry) (rest : List (Nat × DirEntry))
    (h : (∃ k, ((namesOf ((i, e) :: rest)).take k).Sublist (ls.map (·.1)) ∧
            ∀ r, (r, true) ∈ ls → r ∈ (namesOf ((i, e) :: rest)).take k) ∨
         (∃ ls1, ls1 <+: ls ∧ (namesOf ((i, e) :: rest)).Sublist (ls1.map (·.1)) ∧
            ∀ r, (r, true) ∈ ls1 → r ∈ namesOf ((i, e) :: rest))) :
    ∃ p, (mapLoop ls b i e rest).1 = some p := by
  induction ls generalizing b i e rest with
  | nil => exact ⟨(b, i), by simp [mapLoop]⟩
  | cons l ls ih =>
    obtain ⟨n, r⟩ := l
    have hnn : n ∉ ls.map (·.1) := by simpa using (List.nodup_cons.mp hnd).1
    have hnd' : (ls.map (·.1)).Nodup := by simpa using (List.nodup_cons.mp hnd).2
    have hnr : ∀ r', (r', true) ∈ ls → r' ≠ n := by
      rintro r' h' rfl; exact hnn (List.mem_map.mpr ⟨_, h', rfl⟩)
    by_cases hn : e.name = n
    · rcases rest with _ | ⟨⟨j, next⟩, rest'⟩
      · exact ⟨(b.setLump e.name i, i), by simp [mapLoop, hn]⟩
      · have hml : mapLoop ((n, r) :: ls) b i e ((j, next) :: rest') =
            mapLoop ls (b.setLump e.name i) j next rest' := by simp [mapLoop, hn]
        rw [hml]
        apply ih hnd'
        have hnames : namesOf ((i, e) :: (j, next) :: rest') = n :: namesOf ((j, next) :: rest') := by
          simp [namesOf, hn]
        rw [hnames] at h
        rcases h with ⟨k, hsub, hreq⟩ | ⟨ls1, hpre, hsub, hreq⟩
        · left
          rcases k with _ | k
          · refine ⟨0, by simp, ?_⟩
            intro r' h'
            have := hreq r' (List.mem_cons_of_mem _ h')
            simp at this
          · refine ⟨k, ?_, ?_⟩
            · simp only [List.take_succ_cons, List.map_cons] at hsub
              exact List.cons_sublist_cons.mp hsub
            · intro r' h'
              have := hreq r' (List.mem_cons_of_mem _ h')
              simp only [List.take_succ_cons, List.mem_cons] at this
              rcases this with h1 | h1
              · exact absurd h1 (hnr r' h')
              · exact h1
        · right
          rcases ls1 with _ | ⟨l1, ls1⟩
          · simp at hsub
          · obtain ⟨rfl, hpre'⟩ := List.cons_prefix_cons.mp hpre
            refine ⟨ls1, hpre', ?_, ?_⟩
            · simp only [List.map_cons] at hsub
              exact List.cons_sublist_cons.mp hsub
            · intro r' h'
              have := hreq r' (List.mem_cons_of_mem _ h')
              rcases List.mem_cons.mp this with h1 | h1
              · exact absurd h1 (hnr r' (hpre'.subset h'))
              · exact h1
    · have hnames : namesOf ((i, e) :: rest) = e.name :: namesOf rest := rfl
      by_cases hr : r = true
      · subst hr
        exfalso
        rcases h with ⟨k, hsub, hreq⟩ | ⟨ls1, hpre, hsub, hreq⟩
        · have hm := hreq n (by simp)
          rcases k with _ | k
          · simp at hm
          · rw [hnames, List.take_succ_cons] at hsub hm
            have hs := sublist_cons_ne hn hsub
            exact hnn (hs.subset hm)
        · rcases ls1 with _ | ⟨l1, ls1⟩
          · rw [hnames] at hsub; simp at hsub
          · obtain ⟨rfl, hpre'⟩ := List.cons_prefix_cons.mp hpre
            have hm := hreq n (by simp)
            rw [hnames] at hsub hm
            have hs := sublist_cons_ne hn hsub
            have := hs.subset hm
            obtain ⟨q, hq, hq'⟩ := List.mem_map.mp this
            exact hnn (List.mem_map.mpr ⟨q, hpre'.subset hq, hq'⟩)
      · have hr' : r = false := by simpa using hr
        subst hr'
        have hml : mapLoop ((n, false) :: ls) b i e rest = mapLoop ls b i e rest := by simp [mapLoop, hn]
        rw [hml]
        apply ih hnd'
        rcases h with ⟨k, hsub, hreq⟩ | ⟨ls1, hpre, hsub, hreq⟩
        · left
          refine ⟨k, ?_, fun r' h' => hreq r' (List.mem_cons_of_mem _ h')⟩
          rcases k with _ | k
          · simp
          · rw [hnames, List.take_succ_cons] at hsub ⊢
            exact sublist_cons_ne hn hsub
        · right
          rcases ls1 with _ | ⟨l1, ls1⟩
          · rw [hnames] at hsub; simp at hsub
          · obtain ⟨rfl, hpre'⟩ := List.cons_prefix_cons.mp hpre
            refine ⟨ls1, hpre', ?_, fun r' h' => hreq r' (List.mem_cons_of_mem _ h')⟩
            rw [hnames] at hsub ⊢
            exact sublist_cons_ne hn hsub

/-! ### Storing indices -/

/-- Field lookup by lump name. -/
def MapEntryBlock.lump (b : MapEntryBlock) (n : Bytes) : Option Nat :=
  if n = str "THINGS" then b.things_index
  else if n = str "LINEDEFS" then b.linedefs_index
  else if n = str "SIDEDEFS" then b.sidedefs_index
  else if n = str "VERTEXES" then b.vertexes_index
  else if n = str "SEGS" then b.segs_index
  else if n = str "SSECTORS" then b.ssectors_index
  else if n = str "NODES" then b.nodes_index
  else if n = str "SECTORS" then b.sectors_index
  else if n = str "REJECT" then b.reject_index
  else if n = str "BLOCKMAP" then b.blockmap_index
  else if n = str "BEHAVIOR" then b.behavior_index
  else none

theorem lumps_eq (b : MapEntryBlock) :
    b.lumps = standardLumps.filterMap fun n => (b.lump n).map fun i => (n, i) := by
  rfl

theorem order_names : mapLumpOrder.map (·.1) = standardLumps := rfl

theorem standardLumps_nodup : standardLumps.Nodup := by decide

theorem required_iff (r : Bytes) : (r, true) ∈ mapLumpOrder ↔ r ∈ requiredLumps := by
  simp [mapLumpOrder, requiredLumps]

theorem str_THINGS : str "THINGS" = [84, 72, 73, 78, 71, 83] := by decide
theorem str_LINEDEFS : str "LINEDEFS" = [76, 73, 78, 69, 68, 69, 70, 83] := by decide
theorem str_SIDEDEFS : str "SIDEDEFS" = [83, 73, 68, 69, 68, 69, 70, 83] := by decide
theorem str_VERTEXES : str "VERTEXES" = [86, 69, 82, 84, 69, 88, 69, 83] := by decide
theorem str_SEGS : str "SEGS" = [83, 69, 71, 83] := by decide
theorem str_SSECTORS : str "SSECTORS" = [83, 83, 69, 67, 84, 79, 82, 83] := by decide
theorem str_NODES : str "NODES" = [78, 79, 68, 69, 83] := by decide
theorem str_SECTORS : str "SECTORS" = [83, 69, 67, 84, 79, 82, 83] := by decide
theorem str_REJECT : str "REJECT" = [82, 69, 74, 69, 67, 84] := by decide
theorem str_BLOCKMAP : str "BLOCKMAP" = [66, 76, 79, 67, 75, 77, 65, 80] := by decide
theorem str_BEHAVIOR : str "BEHAVIOR" = [66, 69, 72, 65, 86, 73, 79, 82] := by decide

theorem lump_setLump (b : MapEntryBlock) (n : Bytes) (hn : n ∈ standardLumps) (i : Nat) (m : Bytes)
    (hm : m ∈ standardLumps) : (b.setLump n i).lump m = if m = n then some i else b.lump m := by
  simp only [standardLumps, List.mem_cons, List.not_mem_nil, or_false] at hn hm
  rcases hn with rfl | rfl | rfl | rfl | rfl | rfl | rfl | rfl | rfl | rfl | rfl <;>
  rcases hm with rfl | rfl | rfl | rfl | rfl | rfl | rfl | rfl | rfl | rfl | rfl <;>
    simp [MapEntryBlock.setLump, MapEntryBlock.lump, str_THINGS, str_LINEDEFS, str_SIDEDEFS, str_VERTEXES, str_SEGS, str_SSECTORS, str_NODES, str_SECTORS, str_REJECT, str_BLOCKMAP, str_BEHAVIOR]

theorem setLump_marker (b : MapEntryBlock) (n : Bytes) (i : Nat) :
    (b.setLump n i).marker_index = b.marker_index ∧ (b.setLump n i).name = b.name := by
  simp only [MapEntryBlock.setLump, apply_ite MapEntryBlock.marker_index, apply_ite MapEntryBlock.name, ite_self, and_self]

theorem setLump_textmap (b : MapEntryBlock) (n : Bytes) (hn : n ∈ standardLumps) (i : Nat) :
    (b.setLump n i).textmap_index = b.textmap_index := by
  simp only [standardLumps, List.mem_cons, List.not_mem_nil, or_false] at hn
  rcases hn with rfl | rfl | rfl | rfl | rfl | rfl | rfl | rfl | rfl | rfl | rfl <;>
    simp [MapEntryBlock.setLump, str_THINGS, str_LINEDEFS, str_SIDEDEFS, str_VERTEXES, str_SEGS, str_SSECTORS, str_NODES, str_SECTORS, str_REJECT, str_BLOCKMAP, str_BEHAVIOR]

theorem setLump_format (b : MapEntryBlock) (n : Bytes) (hn : n ∈ standardLumps) (i : Nat) :
    (b.setLump n i).format = if n = str "BEHAVIOR" then .Hexen else b.format := by
  simp only [standardLumps, List.mem_cons, List.not_mem_nil, or_false] at hn
  rcases hn with rfl | rfl | rfl | rfl | rfl | rfl | rfl | rfl | rfl | rfl | rfl <;>
    simp [MapEntryBlock.setLump, str_THINGS, str_LINEDEFS, str_SIDEDEFS, str_VERTEXES, str_SEGS, str_SSECTORS, str_NODES, str_SECTORS, str_REJECT, str_BLOCKMAP, str_BEHAVIOR]

theorem applyClaims_marker (b : MapEntryBlock) (l : List (Nat × DirEntry)) :
    (applyClaims b l).marker_index = b.marker_index ∧ (applyClaims b l).name = b.name := by
  induction l generalizing b with
  | nil => exact ⟨rfl, rfl⟩
  | cons p l ih =>
    have := ih (b.setLump p.2.name p.1)
    have h2 := setLump_marker b p.2.name p.1
    simp only [applyClaims, List.foldl_cons] at this ⊢
    exact ⟨this.1.trans h2.1, this.2.trans h2.2⟩

theorem applyClaims_textmap (b : MapEntryBlock) (l : List (Nat × DirEntry))
    (h : ∀ n ∈ namesOf l, n ∈ standardLumps) : (applyClaims b l).textmap_index = b.textmap_index := by
  induction l generalizing b with
  | nil => rfl
  | cons p l ih =>
    have := ih (b.setLump p.2.name p.1) (fun n hn => h n (List.mem_cons_of_mem _ hn))
    simp only [applyClaims, List.foldl_cons] at this ⊢
    exact this.trans (setLump_textmap b _ (h _ (by simp [namesOf])) _)

theorem applyClaims_format (b : MapEntryBlock) (l : List (Nat × DirEntry))
    (h : ∀ n ∈ namesOf l, n ∈ standardLumps) :
    (applyClaims b l).format = if str "BEHAVIOR" ∈ namesOf l then .Hexen else b.format := by
  induction l generalizing b with
  | nil => simp [applyClaims, namesOf]
  | cons p l ih =>
    have := ih (b.setLump p.2.name p.1) (fun n hn => h n (List.mem_cons_of_mem _ hn))
    have h2 := setLump_format b p.2.name (h _ (by simp [namesOf])) p.1
    simp only [applyClaims, List.foldl_cons] at this ⊢
    rw [this, h2]
    have hc : str "BEHAVIOR" ∈ namesOf (p :: l) ↔ p.2.name = str "BEHAVIOR" ∨ str "BEHAVIOR" ∈ namesOf l := by
      simp only [namesOf, List.map_cons, List.mem_cons]
      constructor
      · rintro (h | h)
        · exact .inl h.symm
        · exact .inr h
      · rintro (h | h)
        · exact .inl h.symm
        · exact .inr h
    simp only [hc]
    by_cases h1 : p.2.name = str "BEHAVIOR" <;> by_cases h3 : str "BEHAVIOR" ∈ namesOf l <;> simp [h1, h3]

theorem applyClaims_lump (b : MapEntryBlock) (l : List (Nat × DirEntry))
    (h : ∀ n ∈ namesOf l, n ∈ standardLumps) (hnd : (namesOf l).Nodup) (m : Bytes) (hm : m ∈ standardLumps) :
    (applyClaims b l).lump m =
      match l.find? (fun p => p.2.name == m) with
      | some p => some p.1
      | none => b.lump m := by
  induction l generalizing b with
  | nil => simp [applyClaims]
  | cons p l ih =>
    have hnd' := List.nodup_cons.mp hnd
    have := ih (b.setLump p.2.name p.1) (fun n hn => h n (List.mem_cons_of_mem _ hn)) hnd'.2
    simp only [applyClaims, List.foldl_cons] at this ⊢
    rw [this, List.find?_cons]
    by_cases hp : p.2.name = m
    · have hf : l.find? (fun p => p.2.name == m) = none := by
        rw [List.find?_eq_none]
        intro q hq hqm
        apply hnd'.1
        have : q.2.name = m := by simpa using hqm
        exact List.mem_map.mpr ⟨q, hq, by simp only; rw [hp, ← this]⟩
      rw [hf]
      simp only [hp, beq_self_eq_true]
      rw [lump_setLump _ _ (hp ▸ hm) _ _ hm, if_pos rfl]
    · have hp' : (p.2.name == m) = false := by simpa using hp
      simp only [hp']
      rw [lump_setLump _ _ (h _ (by simp [namesOf])) _ _ hm, if_neg (Ne.symm hp)]

theorem filterMap_congr' {α β : Type} {f g : α → Option β} {l : List α} (h : ∀ x ∈ l, f x = g x) :
    l.filterMap f = l.filterMap g := by
  induction l with
  | nil => rfl
  | cons a l ih =>
    rw [List.filterMap_cons, List.filterMap_cons, h a (by simp), ih (fun x hx => h x (by simp [hx]))]

theorem filterMap_find (l : List (Nat × DirEntry)) (L : List Bytes) (hL : L.Nodup)
    (hs : (namesOf l).Sublist L) :
    (L.filterMap fun n => Option.map (fun i => (n, i)) (match l.find? (fun p => p.2.name == n) with
      | some p => some p.1
      | none => none)) = l.map fun p => (p.2.name, p.1) := by
  induction L generalizing l with
  | nil =>
    have : l = [] := by simpa [namesOf] using hs
    simp [this]
  | cons n L ih =>
    have hL' := List.nodup_cons.mp hL
    rcases l with _ | ⟨p, l⟩
    · simp
    · by_cases hp : p.2.name = n
      · have hs' : (namesOf l).Sublist L := by
          simp only [namesOf, List.map_cons, hp] at hs
          exact List.cons_sublist_cons.mp hs
        rw [List.filterMap_cons]
        simp only [List.find?_cons, hp, beq_self_eq_true, Option.map_some, List.map_cons]
        congr 1
        rw [← ih l hL'.2 hs']
        apply filterMap_congr'
        intro m hm
        have : n ≠ m := fun h => hL'.1 (h ▸ hm)
        have : (n == m) = false := by simpa using this
        simp [this]
      · have hs' : (namesOf (p :: l)).Sublist L := sublist_cons_ne hp hs
        rw [List.filterMap_cons]
        have hnone : (p :: l).find? (fun p => p.2.name == n) = none := by
          rw [List.find?_eq_none]
          intro q hq hqn
          apply hL'.1
          have : q.2.name = n := by simpa using hqn
          exact hs'.subset (List.mem_map.mpr ⟨q, hq, this⟩)
        simp only [hnone, Option.map_none]
        exact ih (p :: l) hL'.2 hs'

theorem applyClaims_lumps (b : MapEntryBlock) (hb : ∀ n ∈ standardLumps, b.lump n = none)
    (l : List (Nat × DirEntry)) (hs : (namesOf l).Sublist standardLumps) :
    (applyClaims b l).lumps = l.map fun p => (p.2.name, p.1) := by
  rw [lumps_eq, ← filterMap_find l standardLumps standardLumps_nodup hs]
  apply filterMap_congr'
  intro n hn
  rw [applyClaims_lump b l (fun m hm => hs.subset hm) (hs.nodup standardLumps_nodup) n hn, hb n hn]

/-! ### One `next` call -/

/-- A block as it should be, for the directory run `todo` whose head is the marker. -/
structure BlockFacts (m : Nat) (e : DirEntry) (todo : List (Nat × DirEntry)) (k : Nat) (b : MapEntryBlock) : Prop where
  name : mapNameOf e.name = some b.name
  marker : b.marker_index = m
  run : (namesOf (todo.take k)).Sublist standardLumps
  lumps : b.lumps = (todo.take k).map fun p => (p.2.name, p.1)
  textmap : b.textmap_index = none
  format : b.format = if str "BEHAVIOR" ∈ namesOf (todo.take k) then .Hexen else .Doom
  ending : (k = todo.length ∧ 1 ≤ k ∧ (∃ p, todo[k - 1]? = some p ∧ b.last_index = p.1) ∧
      ∃ ls1, ls1 <+: standardLumps ∧ (namesOf todo).Sublist ls1 ∧
        ∀ r ∈ requiredLumps, r ∈ ls1 → r ∈ namesOf todo) ∨
    ((∃ p, todo[k]? = some p ∧ b.last_index = p.1) ∧ ∀ r ∈ requiredLumps, r ∈ namesOf (todo.take k))

theorem standardLumps_no_TEXTMAP : str "TEXTMAP" ∉ standardLumps := by decide

theorem setLastIndex_lumps (b : MapEntryBlock) (i : Nat) : ({ b with last_index := i } : MapEntryBlock).lumps = b.lumps := rfl

theorem wadNext_map {m : Nat} {e : DirEntry} {todo : List (Nat × DirEntry)} {name : MapName}
    (hn : mapNameOf e.name = some name) :
    ∃ k, k ≤ todo.length ∧
      ((wadNext ((m, e) :: todo)).1 = none ∨
       ∃ b, wadNext ((m, e) :: todo) = (some (.map b), todo.drop k) ∧ BlockFacts m e todo k b) := by
  rcases todo with _ | ⟨⟨j, first⟩, rest⟩
  · exact ⟨0, by simp, Or.inl (by simp [wadNext, hn])⟩
  · obtain ⟨k, hk, hsub, hdrop, hsome⟩ := mapLoop_spec mapLumpOrder
      (if first.name = str "TEXTMAP" then
        { ({ format := .Doom, name := name, marker_index := m, last_index := m } : MapEntryBlock) with format := .UDMF }
       else { format := .Doom, name := name, marker_index := m, last_index := m }) j first rest
    refine ⟨k, by simpa using hk, ?_⟩
    simp only [wadNext, hn]
    rcases hml : mapLoop mapLumpOrder
      (if first.name = str "TEXTMAP" then
        { ({ format := .Doom, name := name, marker_index := m, last_index := m } : MapEntryBlock) with format := .UDMF }
       else { format := .Doom, name := name, marker_index := m, last_index := m }) j first rest with ⟨res, todo'⟩
    rw [hml] at hdrop hsome
    simp only at hdrop hsome
    subst hdrop
    rcases res with _ | ⟨b', last⟩
    · left; rfl
    · right
      refine ⟨_, rfl, ?_⟩
      obtain ⟨hb, hcase⟩ := hsome b' last rfl
      -- the UDMF branch never succeeds
      have htm : first.name ≠ str "TEXTMAP" := by
        intro htm
        rw [mapLumpOrder, mapLoop, htm, if_neg (by decide), if_pos rfl] at hml
        simp at hml
      rw [if_neg htm] at hb
      rw [order_names] at hsub
      have hall : ∀ n ∈ namesOf (((j, first) :: rest).take k), n ∈ standardLumps := fun n h => hsub.subset h
      have hk1 : 1 ≤ k := by
        rcases k with _ | k
        · exfalso
          have hreq : ¬ str "THINGS" ∈ namesOf (((j, first) :: rest).take 0) := by simp [namesOf]
          rcases hcase with ⟨h, _⟩ | ⟨_, h⟩
          · omega
          · exact hreq (h (str "THINGS") (by simp [mapLumpOrder]))
        · omega
      refine ⟨?_, ?_, hsub, ?_, ?_, ?_, ?_⟩
      · show _ = some b'.name
        rw [hn, hb, (applyClaims_marker _ _).2]
      · show b'.marker_index = m
        rw [hb, (applyClaims_marker _ _).1]
      · rw [setLastIndex_lumps, hb]
        apply applyClaims_lumps _ _ _ hsub
        intro n hn
        simp only [standardLumps, List.mem_cons, List.not_mem_nil, or_false] at hn
        rcases hn with rfl | rfl | rfl | rfl | rfl | rfl | rfl | rfl | rfl | rfl | rfl <;> rfl
      · show b'.textmap_index = none
        rw [hb]; exact applyClaims_textmap _ _ hall
      · show b'.format = _
        rw [hb]; exact applyClaims_format _ _ hall
      · rcases hcase with ⟨h1, h2, ls1, hpre, hs1, hr1⟩ | ⟨hp, hr⟩
        · left
          have hfull : ((j, first) :: rest).take k = (j, first) :: rest := by
            apply List.take_of_length_le; simp; omega
          rw [hfull] at hs1 hr1
          refine ⟨by simpa using h1, hk1, h2, ls1.map (·.1), ?_, hs1, ?_⟩
          · rw [← order_names]; exact hpre.map _
          · intro r hr hm
            obtain ⟨⟨r', q⟩, hq, rfl⟩ := List.mem_map.mp hm
            have hin : (r', q) ∈ mapLumpOrder := hpre.subset hq
            have hreq := (required_iff r').mpr hr
            have : q = true := by
              simp only [mapLumpOrder, List.mem_cons, List.not_mem_nil, or_false, Prod.mk.injEq] at hin
              simp only [requiredLumps, List.mem_cons, List.not_mem_nil, or_false] at hr
              rcases hin with ⟨rfl, rfl⟩ | ⟨rfl, rfl⟩ | ⟨rfl, rfl⟩ | ⟨rfl, rfl⟩ | ⟨rfl, rfl⟩ | ⟨rfl, rfl⟩ |
                ⟨rfl, rfl⟩ | ⟨rfl, rfl⟩ | ⟨rfl, rfl⟩ | ⟨rfl, rfl⟩ | ⟨rfl, rfl⟩ <;> first | rfl | (exfalso; revert hr; decide)
            subst this
            exact hr1 r' hq
        · right
          exact ⟨hp, fun r hr' => hr r ((required_iff r).mpr hr')⟩

/-- A marker followed by a complete map always gives a block. -/
theorem wadNext_map_complete {m : Nat} {e : DirEntry} {todo : List (Nat × DirEntry)} {name : MapName}
    (hn : mapNameOf e.name = some name) (hc : CompleteMap (namesOf todo)) :
    (wadNext ((m, e) :: todo)).1 ≠ none := by
  rcases todo with _ | ⟨⟨j, first⟩, rest⟩
  · obtain ⟨k, _, h⟩ := hc
    have := h (str "THINGS") (by simp [requiredLumps])
    simp [namesOf] at this
  · obtain ⟨k, hsub, hreq⟩ := hc
    obtain ⟨p, hp⟩ := mapLoop_some_of mapLumpOrder (by rw [order_names]; exact standardLumps_nodup)
      (if first.name = str "TEXTMAP" then
        { ({ format := .Doom, name := name, marker_index := m, last_index := m } : MapEntryBlock) with format := .UDMF }
       else { format := .Doom, name := name, marker_index := m, last_index := m }) j first rest
      (Or.inl ⟨k, by rw [order_names]; exact hsub, fun r hr => hreq r ((required_iff r).mp hr)⟩)
    simp only [wadNext, hn]
    rcases hml : mapLoop mapLumpOrder
      (if first.name = str "TEXTMAP" then
        { ({ format := .Doom, name := name, marker_index := m, last_index := m } : MapEntryBlock) with format := .UDMF }
       else { format := .Doom, name := name, marker_index := m, last_index := m }) j first rest with ⟨res, todo'⟩
    rw [hml] at hp
    simp only at hp
    subst hp
    simp

end Idc
