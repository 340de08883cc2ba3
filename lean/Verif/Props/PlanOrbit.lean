import Verif.Props.PlanRot
import Mathlib.Dynamics.PeriodicPts.Defs
/-!
# Walks along the edges, cut where they return to their leftmost corner, for C81
-/

namespace Idc

open Net Function

namespace Plan

variable {G : Plan}

theorem iter_top {x : EndId} (h : G.Top x.1) (k : ℕ) : G.Top (G.next^[k] x).1 := by
  induction k with
  | zero => exact h
  | succ k ih => rw [iterate_succ_apply']; exact next_top ih

theorem iter_inj {k : ℕ} : ∀ {x y : EndId}, G.Top x.1 → G.Top y.1 → G.next^[k] x = G.next^[k] y → x = y := by
  induction k with
  | zero => intro x y _ _ h; exact h
  | succ k ih =>
    intro x y hx hy h
    rw [iterate_succ_apply, iterate_succ_apply] at h
    exact next_inj hx hy (ih (next_top hx) (next_top hy) h)

theorem periodic {x : EndId} (h : G.Top x.1) : x ∈ periodicPts G.next := by
  have hfin : ¬ Injective fun k : ℕ => (((⟨(G.next^[k] x).1, (iter_top h k).1⟩ : {i // i ∈ G.S}), decide ((G.next^[k] x).2 = .left)) : {i // i ∈ G.S} × Bool) :=
    not_injective_infinite_finite _
  unfold Injective at hfin
  push Not at hfin
  obtain ⟨a, b, hab, hne⟩ := hfin
  simp only [Prod.mk.injEq, Subtype.mk.injEq, decide_eq_decide] at hab
  have hab' : G.next^[a] x = G.next^[b] x := by
    refine Prod.ext hab.1 ?_
    have := hab.2
    rcases h1 : (G.next^[a] x).2 <;> rcases h2 : (G.next^[b] x).2 <;> simp_all
  have main : ∀ a b, a < b → G.next^[a] x = G.next^[b] x → x ∈ periodicPts G.next := by
    intro a b hlt e
    refine mk_mem_periodicPts (n := b - a) (by omega) ?_
    have : b = a + (b - a) := by omega
    rw [this, iterate_add_apply] at e
    exact (iter_inj h (iter_top h _) e).symm
  rcases lt_or_gt_of_ne hne with hlt | hlt
  · exact main a b hlt hab'
  · exact main b a hlt hab'.symm

theorem period_pos {x : EndId} (h : G.Top x.1) : 0 < minimalPeriod G.next x := minimalPeriod_pos_of_mem_periodicPts (periodic h)

/-- A walk gets back. -/
theorem iter_back {x : EndId} (h : G.Top x.1) (k : ℕ) : ∃ n, G.next^[n] (G.next^[k] x) = x := by
  have hp := period_pos h
  refine ⟨minimalPeriod G.next x * (k + 1) - k, ?_⟩
  rw [← iterate_add_apply, Nat.sub_add_cancel (by nlinarith), iterate_mul]
  exact iterate_fixed iterate_minimalPeriod _

theorem iter_F {x : EndId} (h : G.Top x.1) (k m : ℕ) : G.F (G.next^[k] x) m = G.F x m := by
  induction k with
  | zero => rfl
  | succ k ih => rw [iterate_succ_apply', F_next (iter_top h k), ih]

theorem iter_pt {x : EndId} (h : G.Top x.1) (k : ℕ) : G.pt (G.next^[k + 1] x) = G.pt (opp (G.next^[k] x)) := by
  rw [iterate_succ_apply', next_pt (iter_top h k)]

theorem iter_ne_opp {x : EndId} (h : G.Top x.1) (k n : ℕ) : G.next^[k] x ≠ opp (G.next^[n] x) := by
  intro e
  have h1 := iter_F h k (G.poly (G.next^[n] x).1)
  rw [e] at h1
  refine F_ne (iter_top h n) ?_
  rw [h1, iter_F h n]

/-! ### Starts -/

variable (G) in
/-- An endpoint at the leftmost corner of its walk. -/
def Start (x : EndId) : Prop := G.Top x.1 ∧ ∀ k, G.time (G.pt x) ≤ G.time (G.pt (G.next^[k] x))

theorem Start.left {x : EndId} (h : G.Start x) : x.2 = .left := by
  obtain ⟨i, e⟩ := x
  cases e
  · rfl
  · exfalso
    have := h.2 1
    rw [iter_pt h.1 0] at this
    have h2 : G.b i ≤ G.a i := this
    linarith [G.a_lt_b h.1.1]

theorem Start.iter {x : EndId} (h : G.Start x) {k : ℕ} (hk : G.pt (G.next^[k] x) = G.pt x) : G.Start (G.next^[k] x) := by
  refine ⟨iter_top h.1 k, fun n => ?_⟩
  rw [hk, ← iterate_add_apply]
  exact h.2 _

theorem Start.same_pt {x : EndId} (h : G.Start x) {k : ℕ} (h' : G.Start (G.next^[k] x)) : G.pt (G.next^[k] x) = G.pt x := by
  obtain ⟨n, hn⟩ := iter_back h.1 k
  refine G.time_inj (iter_top h.1 k).1 h.1.1 (le_antisymm ?_ (h.2 k))
  have := h'.2 n
  rwa [hn] at this

theorem exists_return {x : EndId} (h : G.Top x.1) : ∃ k, 0 < k ∧ G.pt (G.next^[k] x) = G.pt x :=
  ⟨_, period_pos h, by rw [iterate_minimalPeriod]⟩

open Classical in
variable (G) in
/-- The number of steps until the walk is back at the corner. -/
noncomputable def len (x : EndId) : ℕ := if h : ∃ k, 0 < k ∧ G.pt (G.next^[k] x) = G.pt x then Nat.find h else 0

theorem len_spec {x : EndId} (h : G.Top x.1) : 0 < G.len x ∧ G.pt (G.next^[G.len x] x) = G.pt x ∧ ∀ k, 0 < k → k < G.len x → G.pt (G.next^[k] x) ≠ G.pt x := by
  classical
  have hl : G.len x = Nat.find (exists_return h) := dif_pos (exists_return h)
  rw [hl]
  refine ⟨(Nat.find_spec (exists_return h)).1, (Nat.find_spec (exists_return h)).2, fun k h0 hk e => ?_⟩
  exact Nat.find_min (exists_return h) hk ⟨h0, e⟩

theorem len_le {x : EndId} (h : G.Top x.1) : G.len x ≤ minimalPeriod G.next x := by
  by_contra hn
  exact (len_spec h).2.2 _ (period_pos h) (not_le.1 hn) (by rw [iterate_minimalPeriod])

variable (G) in
/-- The walk from an endpoint, until it is back at the corner. -/
noncomputable def arc (x : EndId) : List EndId := (List.range (G.len x)).map fun k => G.next^[k] x

theorem mem_arc {x y : EndId} : y ∈ G.arc x ↔ ∃ k < G.len x, G.next^[k] x = y := by
  unfold arc
  rw [List.mem_map]
  simp only [List.mem_range]

theorem iter_inj_lt {x : EndId} (h : G.Top x.1) {j k : ℕ} (hj : j < G.len x) (hk : k < G.len x) (e : G.next^[j] x = G.next^[k] x) : j = k :=
  iterate_injOn_Iio_minimalPeriod (f := G.next) (x := x) (lt_of_lt_of_le hj (len_le h)) (lt_of_lt_of_le hk (len_le h)) e

theorem arc_nodup {x : EndId} (h : G.Top x.1) : (G.arc x).Nodup := by
  unfold arc
  refine List.Nodup.map_on ?_ List.nodup_range
  intro a ha b hb e
  exact iter_inj_lt h (List.mem_range.1 ha) (List.mem_range.1 hb) e

theorem self_mem_arc {x : EndId} (h : G.Top x.1) : x ∈ G.arc x := mem_arc.2 ⟨0, (len_spec h).1, rfl⟩

theorem arc_top {x y : EndId} (h : G.Top x.1) (hy : y ∈ G.arc x) : G.Top y.1 := by
  obtain ⟨k, _, rfl⟩ := mem_arc.1 hy
  exact iter_top h k

theorem arc_F {x y : EndId} (h : G.Top x.1) (hy : y ∈ G.arc x) (m : ℕ) : G.F y m = G.F x m := by
  obtain ⟨k, _, rfl⟩ := mem_arc.1 hy
  exact iter_F h k m

theorem arc_opp {x y z : EndId} (h : G.Top x.1) (hy : y ∈ G.arc x) (hz : z ∈ G.arc x) : y ≠ opp z := by
  obtain ⟨k, _, rfl⟩ := mem_arc.1 hy
  obtain ⟨n, _, rfl⟩ := mem_arc.1 hz
  exact iter_ne_opp h k n

theorem arc_pt {x y : EndId} (h : G.Top x.1) (hy : y ∈ G.arc x) (e : G.pt y = G.pt x) : y = x := by
  obtain ⟨k, hk, rfl⟩ := mem_arc.1 hy
  rcases Nat.eq_zero_or_pos k with rfl | h0
  · rfl
  · exact absurd e ((len_spec h).2.2 k h0 hk)

theorem arc_time {x y : EndId} (h : G.Start x) (hy : y ∈ G.arc x) (hne : y ≠ x) : G.time (G.pt x) < G.time (G.pt y) := by
  have hp : G.pt y ≠ G.pt x := fun e => hne (arc_pt h.1 hy e)
  have ht := arc_top h.1 hy
  obtain ⟨k, hk, rfl⟩ := mem_arc.1 hy
  exact lt_of_le_of_ne (h.2 k) fun e => hp (G.time_inj ht.1 h.1.1 e.symm)

/-- Every endpoint is on one such walk. -/
theorem exists_start {y : EndId} (h : G.Top y.1) : ∃ x, G.Start x ∧ y ∈ G.arc x := by
  classical
  -- the leftmost corner
  obtain ⟨m, hm⟩ : ∃ m, ∀ k, G.time (G.pt (G.next^[m] y)) ≤ G.time (G.pt (G.next^[k] y)) := by
    obtain ⟨m, _, hm⟩ := Finset.exists_min_image (Finset.range (minimalPeriod G.next y)) (fun k => G.time (G.pt (G.next^[k] y))) ⟨0, Finset.mem_range.2 (period_pos h)⟩
    refine ⟨m, fun k => ?_⟩
    have := hm (k % minimalPeriod G.next y) (Finset.mem_range.2 (Nat.mod_lt _ (period_pos h)))
    rwa [iterate_mod_minimalPeriod_eq] at this
  set s := G.next^[m] y with hs
  have hst : G.Start s := ⟨iter_top h m, fun k => by rw [hs, ← iterate_add_apply]; exact hm _⟩
  obtain ⟨n, hn⟩ := iter_back h m
  rw [← hs] at hn
  -- the last time there
  obtain ⟨k, hk, hmax⟩ := Finset.exists_max_image ((Finset.range (n + 1)).filter fun k => G.pt (G.next^[k] s) = G.pt s) id
    ⟨0, Finset.mem_filter.2 ⟨Finset.mem_range.2 (by omega), rfl⟩⟩
  obtain ⟨hk1, hk2⟩ := Finset.mem_filter.1 hk
  have hk1 := Finset.mem_range.1 hk1
  have hst2 := hst.iter hk2
  refine ⟨G.next^[k] s, hst2, mem_arc.2 ⟨n - k, ?_, ?_⟩⟩
  · by_contra hle
    have hl := len_spec hst2.1
    have : k + G.len (G.next^[k] s) ∈ (Finset.range (n + 1)).filter fun k => G.pt (G.next^[k] s) = G.pt s := by
      refine Finset.mem_filter.2 ⟨Finset.mem_range.2 (by omega), ?_⟩
      rw [add_comm, iterate_add_apply, hl.2.1, hk2]
    have := hmax _ this
    simp only [id_eq] at this
    omega
  · rw [← iterate_add_apply, Nat.sub_add_cancel (by omega), hn]

theorem arc_unique {x y z : EndId} (hx : G.Start x) (hy : G.Start y) (h1 : z ∈ G.arc x) (h2 : z ∈ G.arc y) : x = y := by
  obtain ⟨j, hj, e1⟩ := mem_arc.1 h1
  obtain ⟨k, hk, e2⟩ := mem_arc.1 h2
  have main : ∀ {x y : EndId} {j k : ℕ}, G.Start x → G.Start y → k < G.len y → j ≤ k → G.next^[j] x = G.next^[k] y → x = y := by
    intro x y j k hx hy hk hle e
    have hd : x = G.next^[k - j] y := by
      have : k = j + (k - j) := by omega
      rw [this, iterate_add_apply] at e
      exact iter_inj hx.1 (iter_top hy.1 _) e
    have hp := hy.same_pt (k := k - j) (hd ▸ hx)
    rcases Nat.eq_zero_or_pos (k - j) with h0 | h0
    · rw [h0] at hd; exact hd
    · exact absurd hp ((len_spec hy.1).2.2 _ h0 (by omega))
  rcases le_total j k with h | h
  · exact main hx hy hk h (e1.trans e2.symm)
  · exact (main hy hx hj h (e2.trans e1.symm)).symm

/-! ### The last edge -/

variable (G) in
/-- The last edge of the walk. -/
noncomputable def last (x : EndId) : EndId := G.next^[G.len x - 1] x

theorem last_mem {x : EndId} (h : G.Top x.1) : G.last x ∈ G.arc x := mem_arc.2 ⟨G.len x - 1, by have := (len_spec h).1; omega, rfl⟩

theorem last_pt {x : EndId} (h : G.Top x.1) : G.pt (opp (G.last x)) = G.pt x := by
  have hl := len_spec h
  unfold last
  rw [← iter_pt h, Nat.sub_add_cancel hl.1, hl.2.1]

theorem last_ne {x : EndId} (h : G.Top x.1) : opp (G.last x) ≠ x := fun e => arc_opp h (self_mem_arc h) (last_mem h) e.symm

theorem Start.last_right {x : EndId} (h : G.Start x) : (G.last x).2 = .right := by
  have hm := last_mem h.1
  have hp := last_pt h.1
  have ht := arc_top h.1 hm
  have htime : G.time (G.pt x) ≤ G.time (G.pt (G.last x)) := h.2 _
  rcases hl : G.last x with ⟨j, e⟩
  rw [hl] at hp ht htime
  cases e
  · exfalso
    have h1 : G.time (G.pt x) = G.b j := by rw [← hp]; rfl
    have h2 : G.time (G.pt (j, .left)) = G.a j := rfl
    have := G.a_lt_b ht.1
    dsimp only at this
    linarith
  · rfl

theorem arc_getLast {x : EndId} (h : G.Top x.1) : (G.arc x).getLast? = some (G.last x) := by
  have hl := (len_spec h).1
  unfold arc last
  obtain ⟨n, hn⟩ : ∃ n, G.len x = n + 1 := ⟨G.len x - 1, by omega⟩
  rw [hn, List.range_succ, List.map_append]
  simp

end Plan

end Idc
