import Verif.Model.Tables
import Verif.Props.FullMap
/-!
# Stock tables: C47, C48
-/

namespace Idc

theorem lookup_go_some {n : UInt32} : ∀ {l : List ActorType} {a : ActorType},
    lookupThingType.go n l = some a → a ∈ l ∧ a.doomednum = some n := by
  intro l
  induction l with
  | nil => intro a h; cases h
  | cons t ts ih =>
    intro a h
    unfold lookupThingType.go at h
    rcases hd : t.doomednum with _ | den
    · rw [hd] at h
      exact ⟨List.mem_cons_of_mem _ (ih h).1, (ih h).2⟩
    · rw [hd] at h
      dsimp only at h
      split at h
      · cases h; subst_vars; exact ⟨List.mem_cons_self .., hd⟩
      · exact ⟨List.mem_cons_of_mem _ (ih h).1, (ih h).2⟩

theorem lookup_go_none {n : UInt32} : ∀ {l : List ActorType},
    lookupThingType.go n l = none → ∀ a ∈ l, a.doomednum ≠ some n := by
  intro l
  induction l with
  | nil => intro _ a h; cases h
  | cons t ts ih =>
    intro h a ha
    unfold lookupThingType.go at h
    rcases hd : t.doomednum with _ | den
    · rw [hd] at h
      rcases List.mem_cons.mp ha with rfl | ha
      · rw [hd]; simp
      · exact ih h a ha
    · rw [hd] at h
      dsimp only at h
      split at h
      · cases h
      · rename_i hne
        rcases List.mem_cons.mp ha with rfl | ha
        · rw [hd]; simpa using hne
        · exact ih h a ha

/-- The whole table: no two actors share an editor number, and all numbers are below 2^15. -/
theorem actors_table : (doom2Actors.filterMap (·.doomednum)).Nodup ∧ (∀ a ∈ doom2Actors, ∀ d, a.doomednum = some d → d.toNat < 32768) ∧
    doom2Actors.length = 137 := by
  have h : (doom2Actors.filterMap (·.doomednum)).Nodup ∧ (∀ d ∈ doom2Actors.filterMap (·.doomednum), d.toNat < 32768) ∧
      doom2Actors.length = 137 := by decide +kernel
  refine ⟨h.1, ?_, h.2.2⟩
  intro a ha d hd
  exact h.2.1 d (List.mem_filterMap.mpr ⟨a, ha, hd⟩)

theorem nodup_filterMap_unique {α β : Type} (f : α → Option β) : ∀ (l : List α), (l.filterMap f).Nodup →
    ∀ a ∈ l, ∀ b ∈ l, ∀ d, f a = some d → f b = some d → a = b := by
  intro l
  induction l with
  | nil => intro _ a ha; cases ha
  | cons x xs ih =>
    intro hn a ha b hb d h1 h2
    rcases hx : f x with _ | e
    · rw [List.filterMap_cons_none hx] at hn
      rcases List.mem_cons.mp ha with rfl | ha
      · rw [hx] at h1; cases h1
      · rcases List.mem_cons.mp hb with rfl | hb
        · rw [hx] at h2; cases h2
        · exact ih hn a ha b hb d h1 h2
    · rw [List.filterMap_cons_some hx, List.nodup_cons] at hn
      rcases List.mem_cons.mp ha with rfl | _
      · rcases List.mem_cons.mp hb with rfl | hb
        · rfl
        · rw [hx] at h1; cases h1
          exact absurd (List.mem_filterMap.mpr ⟨b, hb, h2⟩) hn.1
      · rename_i ha'
        rcases List.mem_cons.mp hb with rfl | hb
        · have : e = d := by rw [hx] at h2; exact Option.some.inj h2
          subst this
          exact absurd (List.mem_filterMap.mpr ⟨a, ha', h1⟩) hn.1
        · exact ih hn.2 a ha' b hb d h1 h2

/-- **C47**: `lookup_thing_type(n)` is the one actor of the stock table with that number; in particular it
is `None` exactly if no actor has it. -/
theorem C47_lookup (n : UInt32) (a : ActorType) :
    lookupThingType n = some a ↔ a ∈ doom2Actors ∧ a.doomednum = some n := by
  constructor
  · exact fun h => lookup_go_some h
  · rintro ⟨h1, h2⟩
    rcases h : lookupThingType n with _ | b
    · exact absurd h2 (lookup_go_none h a h1)
    · obtain ⟨h3, h4⟩ := lookup_go_some h
      rw [nodup_filterMap_unique (·.doomednum) doom2Actors actors_table.1 b h3 a h1 n h4 h2]

/-- **C47**: at most one actor has a number. -/
theorem C47_unique (n : UInt32) (a b : ActorType) (ha : a ∈ doom2Actors) (hb : b ∈ doom2Actors)
    (h1 : a.doomednum = some n) (h2 : b.doomednum = some n) : a = b :=
  nodup_filterMap_unique (·.doomednum) doom2Actors actors_table.1 a ha b hb n h1 h2

/-- **C47**: the numbers are those of the game: 3004 is the zombieman, 2035 the barrel, 9 the shotgun guy. -/
theorem C47_lookup_examples : (lookupThingType 3004).map (·.zdoom_actor_class) = some "ZombieMan" ∧
    (lookupThingType 2035).map (·.zdoom_actor_class) = some "ExplosiveBarrel" ∧
    (lookupThingType 9).map (·.zdoom_actor_class) = some "ShotgunGuy" := by decide +kernel

/-- **C47**: a thing whose number is negative in the map file never matches an actor. -/
theorem C47_negative {F : Type} [FloatOps F] (b : BareDoomMap) (m : FullMap F) (hm : FullMap.fromBare b = .ok m) (k : Nat)
    (t : Thing F) (c : BareDoomThing) (hc : b.things[k]? = some c) (ht : m.things[k]? = some t) (hn : c.doomednum.toInt < 0) :
    lookupThingType t.doomednum = none := by
  have : t.doomednum = i16AsU32 c.doomednum := by
    rw [fromBare_eq] at hm
    cases hm
    simp only [List.getElem?_map, hc, Option.map_some, Option.some.injEq] at ht
    subst ht; rfl
  rcases h : lookupThingType t.doomednum with _ | a
  · rfl
  · obtain ⟨h1, h2⟩ := lookup_go_some h
    have h3 := actors_table.2.1 a h1 _ h2
    rw [this] at h3
    exfalso
    have h4 : 2 ^ 31 ≤ (i16AsU32 c.doomednum).toNat := by
      have := i16AsU32_toNat c.doomednum
      have := Int16.le_toInt c.doomednum
      omega
    omega

/-- A lump name: one to eight printable ASCII characters, no lower case letters. -/
def ValidName (s : String) : Prop :=
  1 ≤ (str s).length ∧ (str s).length ≤ 8 ∧ ∀ b ∈ str s, 33 ≤ b.toNat ∧ b.toNat ≤ 95

instance (s : String) : Decidable (ValidName s) := by unfold ValidName; infer_instance

/-- A number for a string, to compare strings quickly. -/
def nameCode (s : String) : Nat := (str s).foldl (fun n b => n * 256 + b.toNat) 0

theorem table_check : ∀ t ∈ [doom1Flats, doom1Textures, doom2Flats, doom2Textures], (t.map nameCode).Nodup ∧ ∀ s ∈ t, ValidName s := by
  decide +kernel

/-- **C48**: every stock table consists of valid lump names, none twice. -/
theorem C48_tables : ∀ t ∈ [doom1Flats, doom1Textures, doom2Flats, doom2Textures], t.Nodup ∧ ∀ s ∈ t, ValidName s := by
  intro t ht
  obtain ⟨h1, h2⟩ := table_check t ht
  exact ⟨h1.of_map, h2⟩

/-- **C48**: the tables have the declared sizes. -/
theorem C48_sizes : doom1Flats.length = 107 ∧ doom1Textures.length = 125 ∧ doom2Flats.length = 147 ∧ doom2Textures.length = 428 := by
  decide +kernel

/-- **C48**: every Doom flat exists in Doom II. -/
theorem C48_flats_kept : doom1Flats <+: doom2Flats := by decide +kernel

end Idc
