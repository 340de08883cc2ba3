import Verif.Props.TidyEvents
import Mathlib.Dynamics.PeriodicPts.Defs
/-!
# The walks along the outlines of a net, for C76
-/

namespace Idc

open Net Function

variable {G : Net}

namespace Net

/-- Where the walk came from. -/
def prev (G : Net) (x : EndId) : EndId := opp (G.mate x)

theorem prev_lt {x : EndId} (h : x.1 < G.N) : (G.prev x).1 < G.N := G.mate_lt h

theorem prev_next {x : EndId} (h : x.1 < G.N) : G.prev (G.next x) = x := by
  unfold prev
  rw [G.next_eq, G.mate_mate (x := opp x) h, opp_opp]

theorem next_prev {x : EndId} (h : x.1 < G.N) : G.next (G.prev x) = x := by
  unfold prev
  rw [G.next_eq, opp_opp, G.mate_mate h]

theorem iter_lt {x : EndId} (h : x.1 < G.N) (k : Nat) : (G.next^[k] x).1 < G.N := by
  induction k with
  | zero => exact h
  | succ k ih => rw [iterate_succ_apply']; exact G.next_lt _ ih

theorem iter_inj {k : Nat} : ∀ {x y : EndId}, x.1 < G.N → y.1 < G.N → G.next^[k] x = G.next^[k] y → x = y := by
  induction k with
  | zero => intro x y _ _ h; exact h
  | succ k ih =>
    intro x y hx hy h
    rw [iterate_succ_apply, iterate_succ_apply] at h
    have := ih (G.next_lt x hx) (G.next_lt y hy) h
    rw [← G.prev_next hx, this, G.prev_next hy]

theorem periodic {x : EndId} (h : x.1 < G.N) : x ∈ periodicPts G.next := by
  have hfin : ¬ Injective fun k : ℕ => (((⟨(G.next^[k] x).1, G.iter_lt h k⟩ : Fin G.N), decide ((G.next^[k] x).2 = .left)) : Fin G.N × Bool) :=
    not_injective_infinite_finite _
  unfold Injective at hfin
  push Not at hfin
  obtain ⟨a, b, hab, hne⟩ := hfin
  simp only [Prod.mk.injEq, Fin.mk.injEq, decide_eq_decide] at hab
  have hab' : G.next^[a] x = G.next^[b] x := by
    refine Prod.ext hab.1 ?_
    have := hab.2
    rcases h1 : (G.next^[a] x).2 <;> rcases h2 : (G.next^[b] x).2 <;> simp_all
  have main : ∀ a b, a < b → G.next^[a] x = G.next^[b] x → x ∈ periodicPts G.next := by
    intro a b hlt e
    refine mk_mem_periodicPts (n := b - a) (by omega) ?_
    have : b = a + (b - a) := by omega
    rw [this, iterate_add_apply] at e
    exact (iter_inj h (G.iter_lt h _) e).symm
  rcases lt_or_gt_of_ne hne with hlt | hlt
  · exact main a b hlt hab'
  · exact main b a hlt hab'.symm

variable (G) in
/-- How many steps the walk takes. -/
noncomputable def period (x : EndId) : Nat := minimalPeriod G.next x

theorem period_pos {x : EndId} (h : x.1 < G.N) : 0 < G.period x := minimalPeriod_pos_of_mem_periodicPts (periodic h)

variable (G) in
/-- The walk from an endpoint, until it is back. -/
noncomputable def orbit (x : EndId) : List EndId := (List.range (G.period x)).map fun k => G.next^[k] x

theorem orbit_length (x : EndId) : (G.orbit x).length = G.period x := by simp [orbit]

theorem orbit_get {x : EndId} {k : Nat} (h : k < G.period x) : (G.orbit x)[k]? = some (G.next^[k] x) := by
  unfold orbit
  rw [List.getElem?_map, List.getElem?_range h]
  rfl

theorem mem_orbit {x y : EndId} (h : x.1 < G.N) : y ∈ G.orbit x ↔ ∃ k, y = G.next^[k] x := by
  unfold orbit
  rw [List.mem_map]
  constructor
  · rintro ⟨k, _, rfl⟩; exact ⟨k, rfl⟩
  · rintro ⟨k, rfl⟩
    refine ⟨k % G.period x, List.mem_range.2 (Nat.mod_lt _ (period_pos h)), ?_⟩
    exact iterate_mod_minimalPeriod_eq

theorem iter_period (x : EndId) : G.next^[G.period x] x = x := iterate_minimalPeriod

theorem orbit_nodup (x : EndId) : (G.orbit x).Nodup := by
  unfold orbit
  refine List.Nodup.map_on ?_ List.nodup_range
  intro a ha b hb e
  exact iterate_injOn_Iio_minimalPeriod (f := G.next) (x := x) (List.mem_range.1 ha) (List.mem_range.1 hb) e

theorem orbit_lt {x y : EndId} (h : x.1 < G.N) (hy : y ∈ G.orbit x) : y.1 < G.N := by
  obtain ⟨k, rfl⟩ := (mem_orbit h).1 hy
  exact G.iter_lt h k

theorem self_mem_orbit {x : EndId} (h : x.1 < G.N) : x ∈ G.orbit x := (mem_orbit h).2 ⟨0, rfl⟩

theorem next_mem_orbit {x y : EndId} (h : x.1 < G.N) (hy : y ∈ G.orbit x) : G.next y ∈ G.orbit x := by
  obtain ⟨k, rfl⟩ := (mem_orbit h).1 hy
  exact (mem_orbit h).2 ⟨k + 1, by rw [iterate_succ_apply']⟩

theorem orbit_symm {x y : EndId} (h : x.1 < G.N) (hy : y ∈ G.orbit x) : x ∈ G.orbit y := by
  have hyN := orbit_lt h hy
  unfold orbit at hy
  rw [List.mem_map] at hy
  obtain ⟨k, hk, rfl⟩ := hy
  have hk := List.mem_range.1 hk
  refine (mem_orbit hyN).2 ⟨G.period x - k, ?_⟩
  rw [← iterate_add_apply, Nat.sub_add_cancel hk.le, iter_period]

theorem orbit_trans {x y z : EndId} (h : x.1 < G.N) (hy : y ∈ G.orbit x) (hz : z ∈ G.orbit y) : z ∈ G.orbit x := by
  obtain ⟨a, ha⟩ := (mem_orbit (orbit_lt h hy)).1 hz
  obtain ⟨b, rfl⟩ := (mem_orbit h).1 hy
  exact (mem_orbit h).2 ⟨a + b, by rw [ha, iterate_add_apply]⟩

theorem prev_mem_orbit {x : EndId} (h : x.1 < G.N) : G.prev x ∈ G.orbit x := by
  refine orbit_symm (prev_lt h) ?_
  rw [mem_orbit (prev_lt h)]
  exact ⟨1, by rw [iterate_one, next_prev h]⟩

theorem opp_ne (x : EndId) : opp x ≠ x := by
  obtain ⟨i, e⟩ := x
  cases e <;> exact fun h => absurd (congrArg Prod.snd h) (by simp [opp, SegmentEnd.other])

/-- The walk in the other direction never meets this one. -/
theorem opp_not_orbit {x : EndId} (h : x.1 < G.N) : opp x ∉ G.orbit x := by
  intro hm
  obtain ⟨k, hk⟩ := (mem_orbit h).1 hm
  have : ∀ (n k : Nat), k = n → ∀ x : EndId, x.1 < G.N → opp x ≠ G.next^[k] x := by
    intro n
    induction n using Nat.strong_induction_on with
    | _ n ih =>
      rintro k rfl x hx e
      match k, ih, e with
      | 0, _, e => exact opp_ne x e
      | 1, _, e =>
        rw [iterate_one, G.next_eq] at e
        exact G.mate_ne (x := opp x) hx (congrArg Prod.fst e).symm
      | k + 2, ih, e =>
        -- one step from both sides
        refine ih k (by omega) k rfl (G.next x) (G.next_lt x hx) ?_
        rw [← iterate_succ_apply, ← G.prev_next (x := G.next^[k + 1] x) (G.iter_lt hx _), ← iterate_succ_apply' G.next, ← e]
        unfold prev
        rw [G.next_eq]
  exact this k k rfl x h hk

theorem opp_not_mem_orbit {x y : EndId} (h : x.1 < G.N) (hy : y ∈ G.orbit x) : opp y ∉ G.orbit x := by
  intro ho
  exact opp_not_orbit (orbit_lt h hy) (orbit_trans (orbit_lt h hy) (orbit_symm h hy) ho)

/-- A walk passes every corner once. -/
theorem orbit_pt_inj {x y z : EndId} (h : x.1 < G.N) (hy : y ∈ G.orbit x) (hz : z ∈ G.orbit x) (e : G.pt y = G.pt z) : y = z := by
  have hyN := orbit_lt h hy
  have hzN := orbit_lt h hz
  rcases G.at_corner hzN hyN e with e | e
  · exact e
  · exfalso
    -- the walk to z came from the other end of y
    have h1 : G.prev z ∈ G.orbit x := orbit_trans h hz (prev_mem_orbit hzN)
    unfold prev at h1
    rw [← e] at h1
    exact opp_not_mem_orbit h hy h1

/-! ### The first endpoint of a walk -/

variable (G) in
/-- The endpoint of a walk that the sweep reaches first. -/
def Leader (x : EndId) : Prop := x.1 < G.N ∧ ∀ y ∈ G.orbit x, G.key x ≤ G.key y

theorem Leader.left {x : EndId} (h : G.Leader x) : x.2 = .left := by
  obtain ⟨i, e⟩ := x
  cases e
  · rfl
  · exfalso
    have hx : i < G.N := h.1
    have := h.2 _ (next_mem_orbit hx (self_mem_orbit hx))
    refine absurd this (not_le.2 (key_lt_of_leftOf ?_))
    rw [G.pt_next (x := (i, .right)) hx]
    exact G.wf i hx

theorem Leader.mate {x : EndId} (h : G.Leader x) : (G.mate x).2 = .left := by
  rcases hm : G.mate x with ⟨j, e⟩
  cases e
  · rfl
  · exfalso
    have := h.2 _ (prev_mem_orbit h.1)
    refine absurd this (not_le.2 (key_lt_of_leftOf ?_))
    unfold prev
    rw [hm, ← G.mate_pt h.1, hm]
    have hj : j < G.N := by have := G.mate_lt h.1; rw [hm] at this; exact this
    exact G.wf j hj

theorem Leader.unique {x y : EndId} (h : G.Leader x) (h' : G.Leader y) (hy : y ∈ G.orbit x) : x = y :=
  key_inj h.1 h'.1 (le_antisymm (h.2 y hy) (h'.2 x (orbit_symm h.1 hy)))

theorem exists_leader {x : EndId} (h : x.1 < G.N) : ∃ y ∈ G.orbit x, G.Leader y := by
  obtain ⟨y, hy, hle⟩ : ∃ y ∈ G.orbit x, ∀ z ∈ G.orbit x, G.key y ≤ G.key z := by
    have hne : (G.orbit x).toFinset.Nonempty := ⟨x, List.mem_toFinset.2 (self_mem_orbit h)⟩
    obtain ⟨y, hy, hle⟩ := (G.orbit x).toFinset.exists_min_image G.key hne
    exact ⟨y, List.mem_toFinset.1 hy, fun z hz => hle z (List.mem_toFinset.2 hz)⟩
  exact ⟨y, hy, orbit_lt h hy, fun z hz => hle z (orbit_trans h hy hz)⟩

/-- Everything else on the walk is further right. -/
theorem Leader.leftOf {x y : EndId} (h : G.Leader x) (hy : y ∈ G.orbit x) (hne : y ≠ x) : LeftOf (G.pt x) (G.pt y) := by
  have hp : G.pt x ≠ G.pt y := fun e => hne (orbit_pt_inj h.1 (self_mem_orbit h.1) hy e).symm
  rcases LeftOf.total hp with h1 | h1
  · exact h1
  · exact absurd (h.2 y hy) (not_le.2 (key_lt_of_leftOf h1))

end Net

end Idc
