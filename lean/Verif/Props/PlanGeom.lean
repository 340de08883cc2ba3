import Verif.Props.TidyEvents
import Verif.Props.LoopParity
import Mathlib.Algebra.BigOperators.Group.Finset.Basic
/-!
# Geometry of outlines that share edges and corners, for C81

Segments that do not cross: two of them have only ends in common, or have both ends in common and belong to different
polygons.  Any number of segments may meet in a corner.
-/

namespace Idc

/-- Segments that meet only in their ends, or coincide.  The edges of the polygons `rem` are to be left out of the result. -/
structure Plan where
  S : Finset ℕ
  lp : ℕ → Pt ℝ
  rp : ℕ → Pt ℝ
  poly : ℕ → ℕ
  n : ℕ
  rem : ℕ → Prop
  eps : ℝ
  wf : ∀ i ∈ S, LeftOf (lp i) (rp i)
  sep : Separate (fun q => ∃ i ∈ S, EndOf (lp i, rp i) q) fun e => ∃ i ∈ S, e = (lp i, rp i)
  poly_lt : ∀ i ∈ S, poly i < n
  eps_lt : ∀ i ∈ S, ∀ j ∈ S, ∀ p q, EndOf (lp i, rp i) p → EndOf (lp j, rp j) q → LeftOf p q → shearX eps p < shearX eps q
  apart : ∀ i ∈ S, ∀ j ∈ S, i ≠ j → (lp i = lp j ∧ rp i = rp j ∧ poly i ≠ poly j) ∨
    ∀ q, CommonPoint (lp i, rp i) (lp j, rp j) q → EndOf (lp i, rp i) q ∧ EndOf (lp j, rp j) q
  angles : ∀ i ∈ S, ∀ j ∈ S, ParallelEdges (lp i, rp i) (lp j, rp j) ∨ ¬ NearlyParallel (lp i, rp i) (lp j, rp j)
  distances : ∀ i ∈ S, ∀ j ∈ S, ParallelEdges (lp i, rp i) (lp j, rp j) →
    OnLine (lp i, rp i) (lp j) ∨ ClearlyOff (lp i, rp i) (lp i) (lp j)
  even : ∀ (m : ℕ) (W : Pt ℝ → ZMod 2), ∑ i ∈ S with poly i = m, (W (lp i) + W (rp i)) = 0

namespace Plan

variable (G : Plan)

/-- The point of an endpoint. -/
def pt (x : EndId) : Pt ℝ := match x.2 with
  | .left => G.lp x.1
  | .right => G.rp x.1

/-- Two segments with the same ends. -/
def Same (i j : ℕ) : Prop := G.lp i = G.lp j ∧ G.rp i = G.rp j

variable {G} in
theorem Same.symm {i j : ℕ} (h : G.Same i j) : G.Same j i := ⟨h.1.symm, h.2.symm⟩

variable {G} in
theorem Same.trans {i j k : ℕ} (h : G.Same i j) (h' : G.Same j k) : G.Same i k := ⟨h.1.trans h'.1, h.2.trans h'.2⟩

theorem Same.refl (i : ℕ) : G.Same i i := ⟨rfl, rfl⟩

theorem pt_endOf (x : EndId) : EndOf (G.lp x.1, G.rp x.1) (G.pt x) := by
  obtain ⟨i, e⟩ := x
  cases e
  · exact Or.inl rfl
  · exact Or.inr rfl

/-- The time at which the sweep line passes a point. -/
noncomputable def time (p : Pt ℝ) : ℝ := shearX G.eps p

theorem time_lt {x y : EndId} (hx : x.1 ∈ G.S) (hy : y.1 ∈ G.S) (h : LeftOf (G.pt x) (G.pt y)) : G.time (G.pt x) < G.time (G.pt y) :=
  G.eps_lt x.1 hx y.1 hy _ _ (G.pt_endOf x) (G.pt_endOf y) h

theorem time_inj {x y : EndId} (hx : x.1 ∈ G.S) (hy : y.1 ∈ G.S) (h : G.time (G.pt x) = G.time (G.pt y)) : G.pt x = G.pt y := by
  by_contra hn
  rcases LeftOf.total hn with h1 | h1
  · have := G.time_lt hx hy h1; linarith
  · have := G.time_lt hy hx h1; linarith

theorem leftOf_iff {x y : EndId} (hx : x.1 ∈ G.S) (hy : y.1 ∈ G.S) : LeftOf (G.pt x) (G.pt y) ↔ G.time (G.pt x) < G.time (G.pt y) := by
  refine ⟨G.time_lt hx hy, fun h => ?_⟩
  rcases LeftOf.total (p := G.pt x) (q := G.pt y) (fun e => by rw [e] at h; exact lt_irrefl _ h) with h1 | h1
  · exact h1
  · have := G.time_lt hy hx h1; linarith

/-- When a segment starts. -/
noncomputable def a (i : Nat) : ℝ := G.time (G.lp i)
/-- When a segment ends. -/
noncomputable def b (i : Nat) : ℝ := G.time (G.rp i)

theorem a_lt_b {i : Nat} (h : i ∈ G.S) : G.a i < G.b i := G.time_lt (x := (i, .left)) (y := (i, .right)) h h (G.wf i h)

/-- The sheared segment. -/
noncomputable def sh (i : Nat) : SweepSegment ℝ Unit := ⟨shearPt G.eps (G.lp i), shearPt G.eps (G.rp i), false, i, 0, ()⟩

/-- The height of a segment at a time. -/
noncomputable def h (i : Nat) (t : ℝ) : ℝ := (G.sh i).heightAt t

theorem h_left (i : Nat) : G.h i (G.a i) = (G.lp i).y := heightAt_left (G.sh i)
theorem h_right {i : Nat} (hi : i ∈ G.S) : G.h i (G.b i) = (G.rp i).y := heightAt_right (G.sh i) (G.a_lt_b hi)

theorem h_linear (i : Nat) : ∃ m c : ℝ, ∀ t, G.h i t = m * t + c := by
  refine ⟨((G.rp i).y - (G.lp i).y) / (G.b i - G.a i), (G.lp i).y - G.a i * (((G.rp i).y - (G.lp i).y) / (G.b i - G.a i)), fun t => ?_⟩
  show (G.lp i).y + (t - G.a i) * (((G.rp i).y - (G.lp i).y) / (G.b i - G.a i)) = _
  ring

variable {G} in
theorem Same.a {i j : ℕ} (h : G.Same i j) : G.a i = G.a j := by unfold Plan.a; rw [h.1]
variable {G} in
theorem Same.b {i j : ℕ} (h : G.Same i j) : G.b i = G.b j := by unfold Plan.b; rw [h.2]
variable {G} in
theorem Same.h {i j : ℕ} (h : G.Same i j) (t : ℝ) : G.h i t = G.h j t := by
  unfold Plan.h SweepSegment.heightAt sh
  dsimp only
  rw [h.1, h.2]

/-- The area is the height over the segment, times its duration. -/
theorem area_h {i : Nat} (hi : i ∈ G.S) (p : Pt ℝ) : triangleSignedArea (G.lp i) (G.rp i) p = (G.b i - G.a i) * (p.y - G.h i (G.time p)) := by
  have := area_height (G.sh i) (G.a_lt_b hi) (shearPt G.eps p)
  rw [show triangleSignedArea (G.sh i).left_point (G.sh i).right_point (shearPt G.eps p) =
    triangleSignedArea (shearPt G.eps (G.lp i)) (shearPt G.eps (G.rp i)) (shearPt G.eps p) from rfl, shear_area] at this
  exact this

theorem area_h' {i : Nat} (hi : i ∈ G.S) (p : Pt ℝ) : triangleSignedArea (G.rp i) (G.lp i) p = (G.b i - G.a i) * (G.h i (G.time p) - p.y) := by
  have := G.area_h hi p
  simp only [triangleSignedArea, FloatOps.sub, FloatOps.mul] at this ⊢
  linarith

/-- The point of a segment at a time. -/
noncomputable def at_ (i : Nat) (t : ℝ) : Pt ℝ := ⟨t - G.eps * G.h i t, G.h i t⟩

theorem at_on {i : Nat} (hi : i ∈ G.S) {t : ℝ} (h1 : G.a i ≤ t) (h2 : t ≤ G.b i) : OnSegment (G.lp i, G.rp i) (G.at_ i t) := by
  have h0 := G.a_lt_b hi
  have hd : G.b i - G.a i ≠ 0 := by linarith
  refine ⟨(t - G.a i) / (G.b i - G.a i), div_nonneg (by linarith) (by linarith), (div_le_one (by linarith)).2 (by linarith), ?_, ?_⟩
  · show t - G.eps * G.h i t = (G.lp i).x + (t - G.a i) / (G.b i - G.a i) * ((G.rp i).x - (G.lp i).x)
    have e1 : (G.lp i).x = G.a i - G.eps * (G.lp i).y := by unfold Plan.a Plan.time shearX; ring
    have e2 : (G.rp i).x = G.b i - G.eps * (G.rp i).y := by unfold Plan.b Plan.time shearX; ring
    rw [e1, e2]
    show t - G.eps * ((G.lp i).y + (t - G.a i) * (((G.rp i).y - (G.lp i).y) / (G.b i - G.a i))) = _
    field_simp
    ring
  · show (G.lp i).y + (t - G.a i) * (((G.rp i).y - (G.lp i).y) / (G.b i - G.a i)) = (G.lp i).y + (t - G.a i) / (G.b i - G.a i) * ((G.rp i).y - (G.lp i).y)
    ring

theorem time_at (i : Nat) (t : ℝ) : G.time (G.at_ i t) = t := by
  unfold time shearX at_
  ring

/-- A point is determined by its time and its height. -/
theorem pt_eq_of {p q : Pt ℝ} (ht : G.time p = G.time q) (hy : p.y = q.y) : p = q := by
  refine pt_ext ?_ hy
  unfold time shearX at ht
  rw [hy] at ht
  linarith

theorem apart' {i j : ℕ} (hi : i ∈ G.S) (hj : j ∈ G.S) (hs : ¬ G.Same i j) {q : Pt ℝ} (hq : CommonPoint (G.lp i, G.rp i) (G.lp j, G.rp j) q) :
    EndOf (G.lp i, G.rp i) q ∧ EndOf (G.lp j, G.rp j) q := by
  rcases G.apart i hi j hj (fun e => hs (e ▸ Same.refl G i)) with h | h
  · exact absurd ⟨h.1, h.2.1⟩ hs
  · exact h q hq

/-- Coinciding segments belong to different polygons. -/
theorem poly_ne {i j : ℕ} (hi : i ∈ G.S) (hj : j ∈ G.S) (hij : i ≠ j) (hs : G.Same i j) : G.poly i ≠ G.poly j := by
  rcases G.apart i hi j hj hij with h | h
  · exact h.2.2
  · exfalso
    have hab := G.a_lt_b hi
    have h1 := G.at_on hi (t := (G.a i + G.b i) / 2) (by linarith) (by linarith)
    have h2 := G.at_on hj (t := (G.a i + G.b i) / 2) (by rw [← hs.a]; linarith) (by rw [← hs.b]; linarith)
    have e : G.at_ j ((G.a i + G.b i) / 2) = G.at_ i ((G.a i + G.b i) / 2) := by unfold at_; rw [hs.h]
    rw [e] at h2
    have ht := G.time_at i ((G.a i + G.b i) / 2)
    rcases (h _ ⟨h1, h2⟩).1 with e | e
    · rw [e] at ht
      have : G.a i = (G.a i + G.b i) / 2 := ht
      linarith
    · rw [e] at ht
      have : G.b i = (G.a i + G.b i) / 2 := ht
      linarith

/-- Two segments that do not coincide have the same height only at an end of both. -/
theorem meet {i j : Nat} (hi : i ∈ G.S) (hj : j ∈ G.S) (hij : ¬ G.Same i j) {t : ℝ} (hi1 : G.a i ≤ t) (hi2 : t ≤ G.b i) (hj1 : G.a j ≤ t) (hj2 : t ≤ G.b j)
    (he : G.h i t = G.h j t) : (t = G.a i ∨ t = G.b i) ∧ (t = G.a j ∨ t = G.b j) := by
  have e : G.at_ i t = G.at_ j t := by unfold at_; rw [he]
  have := G.apart' hi hj hij (q := G.at_ i t) ⟨G.at_on hi hi1 hi2, e ▸ G.at_on hj hj1 hj2⟩
  obtain ⟨h1, h2⟩ := this
  constructor
  · rcases h1 with h1 | h1
    · left; rw [← G.time_at i t, h1]; rfl
    · right; rw [← G.time_at i t, h1]; rfl
  · rcases h2 with h1 | h1
    · left; rw [← G.time_at i t, h1]; rfl
    · right; rw [← G.time_at i t, h1]; rfl

/-- Segments that pass the sweep line do so in the same order all the time. -/
theorem order_const {i j : Nat} (hi : i ∈ G.S) (hj : j ∈ G.S) {t u : ℝ} (ht1 : G.a i ≤ t) (ht2 : t ≤ G.b i) (ht3 : G.a j ≤ t) (ht4 : t ≤ G.b j)
    (hu1 : G.a i ≤ u) (hu2 : u ≤ G.b i) (hu3 : G.a j ≤ u) (hu4 : u ≤ G.b j) (h1 : G.h i t < G.h j t) : G.h i u ≤ G.h j u := by
  have hij : ¬ G.Same i j := fun hs => by rw [hs.h] at h1; exact lt_irrefl _ h1
  by_contra hn
  rw [not_le] at hn
  obtain ⟨m, c, hm⟩ := G.h_linear i
  obtain ⟨m', c', hm'⟩ := G.h_linear j
  have hd : ∀ z, G.h j z - G.h i z = (m' - m) * z + (c' - c) := fun z => by rw [hm, hm']; ring
  have dt := hd t
  have du := hd u
  have hmm : m' - m ≠ 0 := by
    intro h0
    rw [h0] at dt du
    linarith
  set z := -(c' - c) / (m' - m) with hz
  have hz0 : G.h i z = G.h j z := by
    have := hd z
    rw [hz, mul_div_cancel₀ _ hmm, ← hz] at this
    linarith
  have key : (t < z ∧ z < u) ∨ (u < z ∧ z < t) := by
    rcases lt_or_gt_of_ne hmm with hneg | hpos
    · left
      rw [hz, lt_div_iff_of_neg hneg, div_lt_iff_of_neg hneg]
      constructor <;> linarith
    · right
      rw [hz, lt_div_iff₀ hpos, div_lt_iff₀ hpos]
      constructor <;> linarith
  have hz1 : G.a i < z ∧ z < G.b i ∧ G.a j < z ∧ z < G.b j := by
    rcases key with ⟨k1, k2⟩ | ⟨k1, k2⟩
    · exact ⟨by linarith, by linarith, by linarith, by linarith⟩
    · exact ⟨by linarith, by linarith, by linarith, by linarith⟩
  have := G.meet hi hj hij hz1.1.le hz1.2.1.le hz1.2.2.1.le hz1.2.2.2.le hz0
  rcases this.1 with h | h <;> rw [h] at hz1 <;> [exact lt_irrefl _ hz1.1; exact lt_irrefl _ hz1.2.1]

/-- Strictly, away from the ends. -/
theorem order_lift {i j : Nat} (hi : i ∈ G.S) (hj : j ∈ G.S) {t u : ℝ} (i1 : G.a i ≤ t) (i2 : t ≤ G.b i) (j1 : G.a j ≤ t) (j2 : t ≤ G.b j)
    (i3 : G.a i < u) (i4 : u < G.b i) (j3 : G.a j < u) (j4 : u < G.b j) (h1 : G.h i t < G.h j t) : G.h i u < G.h j u := by
  have hij : ¬ G.Same i j := fun hs => by rw [hs.h] at h1; exact lt_irrefl _ h1
  refine lt_of_le_of_ne (G.order_const hi hj i1 i2 j1 j2 i3.le i4.le j3.le j4.le h1) ?_
  intro e
  rcases (G.meet hi hj hij i3.le i4.le j3.le j4.le e).1 with h | h <;> linarith

/-- Segments with the same height inside coincide. -/
theorem same_of_h {i j : Nat} (hi : i ∈ G.S) (hj : j ∈ G.S) {t : ℝ} (i1 : G.a i < t) (i2 : t < G.b i) (j1 : G.a j ≤ t) (j2 : t ≤ G.b j)
    (h1 : G.h i t = G.h j t) : G.Same i j := by
  by_contra hs
  rcases (G.meet hi hj hs i1.le i2.le j1 j2 h1).1 with h | h <;> linarith

/-- A corner that is on a segment is one of its ends. -/
theorem end_of_on {i : ℕ} (hi : i ∈ G.S) {x : EndId} (hx : x.1 ∈ G.S) (h1 : G.a i ≤ G.time (G.pt x)) (h2 : G.time (G.pt x) ≤ G.b i)
    (h3 : G.h i (G.time (G.pt x)) = (G.pt x).y) : G.pt x = G.lp i ∨ G.pt x = G.rp i := by
  have hat : G.at_ i (G.time (G.pt x)) = G.pt x := G.pt_eq_of (G.time_at _ _) h3
  have hon := G.at_on hi h1 h2
  rw [hat] at hon
  by_cases hs : G.Same i x.1
  · obtain ⟨j, e⟩ := x
    cases e
    · exact Or.inl hs.1.symm
    · exact Or.inr hs.2.symm
  · refine (G.apart' hi hx hs ⟨hon, ?_⟩).1
    obtain ⟨j, e⟩ := x
    cases e
    · exact Net.onSegment_left (G.lp j, G.rp j)
    · exact Net.onSegment_right (G.lp j, G.rp j)

/-- No corner is inside a segment. -/
theorem h_ne {i : ℕ} (hi : i ∈ G.S) {x : EndId} (hx : x.1 ∈ G.S) (h1 : G.a i < G.time (G.pt x)) (h2 : G.time (G.pt x) < G.b i) :
    G.h i (G.time (G.pt x)) ≠ (G.pt x).y := by
  intro h3
  rcases G.end_of_on hi hx h1.le h2.le h3 with e | e
  · rw [e] at h1; exact lt_irrefl _ h1
  · rw [e] at h2; exact lt_irrefl _ h2

/-! ### Times without events -/

/-- No corner is on the sweep line. -/
def Quiet (t : ℝ) : Prop := ∀ i ∈ G.S, G.a i ≠ t ∧ G.b i ≠ t

/-- Just after a time nothing happens. -/
theorem exists_after (T : ℝ) : ∃ t, T < t ∧ ∀ i ∈ G.S, (T < G.a i → t < G.a i) ∧ (T < G.b i → t < G.b i) := by
  have key : ∀ F : Finset ℝ, ∃ t, T < t ∧ ∀ v ∈ F, T < v → t < v := by
    intro F
    induction F using Finset.induction_on with
    | empty => exact ⟨T + 1, by linarith, by simp⟩
    | insert v F _ ih =>
      obtain ⟨t, h1, h2⟩ := ih
      by_cases hv : T < v
      · refine ⟨Min.min t ((T + v) / 2), lt_min h1 (by linarith), ?_⟩
        intro w hw hT
        rcases Finset.mem_insert.1 hw with rfl | hw
        · have := min_le_right t ((T + w) / 2); linarith
        · have := min_le_left t ((T + v) / 2); have := h2 w hw hT; linarith
      · refine ⟨t, h1, ?_⟩
        intro w hw hT
        rcases Finset.mem_insert.1 hw with rfl | hw
        · exact absurd hT hv
        · exact h2 w hw hT
  classical
  obtain ⟨t, h1, h2⟩ := key (G.S.image G.a ∪ G.S.image G.b)
  refine ⟨t, h1, fun i hi => ⟨h2 _ ?_, h2 _ ?_⟩⟩
  · exact Finset.mem_union_left _ (Finset.mem_image_of_mem _ hi)
  · exact Finset.mem_union_right _ (Finset.mem_image_of_mem _ hi)

/-- Just before a time nothing happens. -/
theorem exists_before (T : ℝ) : ∃ t, t < T ∧ ∀ i ∈ G.S, (G.a i < T → G.a i < t) ∧ (G.b i < T → G.b i < t) := by
  have key : ∀ F : Finset ℝ, ∃ t, t < T ∧ ∀ v ∈ F, v < T → v < t := by
    intro F
    induction F using Finset.induction_on with
    | empty => exact ⟨T - 1, by linarith, by simp⟩
    | insert v F _ ih =>
      obtain ⟨t, h1, h2⟩ := ih
      by_cases hv : v < T
      · refine ⟨Max.max t ((T + v) / 2), max_lt h1 (by linarith), ?_⟩
        intro w hw hT
        rcases Finset.mem_insert.1 hw with rfl | hw
        · have := le_max_right t ((T + w) / 2); linarith
        · have := le_max_left t ((T + v) / 2); have := h2 w hw hT; linarith
      · refine ⟨t, h1, ?_⟩
        intro w hw hT
        rcases Finset.mem_insert.1 hw with rfl | hw
        · exact absurd hT hv
        · exact h2 w hw hT
  classical
  obtain ⟨t, h1, h2⟩ := key (G.S.image G.a ∪ G.S.image G.b)
  refine ⟨t, h1, fun i hi => ⟨h2 _ ?_, h2 _ ?_⟩⟩
  · exact Finset.mem_union_left _ (Finset.mem_image_of_mem _ hi)
  · exact Finset.mem_union_right _ (Finset.mem_image_of_mem _ hi)

/-- A time just after the start of a segment. -/
noncomputable def tau (i : ℕ) : ℝ := Classical.choose (G.exists_after (G.a i))

theorem a_lt_tau (i : ℕ) : G.a i < G.tau i := (Classical.choose_spec (G.exists_after (G.a i))).1

theorem tau_lt {i : ℕ} {x : EndId} (hx : x.1 ∈ G.S) (h : G.a i < G.time (G.pt x)) : G.tau i < G.time (G.pt x) := by
  have := (Classical.choose_spec (G.exists_after (G.a i))).2 x.1 hx
  obtain ⟨j, e⟩ := x
  cases e
  · exact this.1 h
  · exact this.2 h

theorem tau_lt_b {i : ℕ} (hi : i ∈ G.S) : G.tau i < G.b i := G.tau_lt (x := (i, .right)) hi (G.a_lt_b hi)

theorem tau_quiet (i : ℕ) : G.Quiet (G.tau i) := by
  intro j hj
  constructor
  · intro e
    have h1 := G.tau_lt (i := i) (x := (j, .left)) hj (by show G.a i < G.a j; rw [e]; exact G.a_lt_tau i)
    have : G.tau i < G.a j := h1
    linarith
  · intro e
    have h1 := G.tau_lt (i := i) (x := (j, .right)) hj (by show G.a i < G.b j; rw [e]; exact G.a_lt_tau i)
    have : G.tau i < G.b j := h1
    linarith

/-- Alive just after the start of `i`. -/
theorem alive_tau {i k : ℕ} (hk : k ∈ G.S) : (G.a k < G.tau i ∧ G.tau i < G.b k) ↔ (G.a k ≤ G.a i ∧ G.a i < G.b k) := by
  constructor
  · rintro ⟨h1, h2⟩
    refine ⟨?_, lt_trans (G.a_lt_tau i) h2⟩
    by_contra hn
    rw [not_le] at hn
    have : G.tau i < G.a k := G.tau_lt (x := (k, .left)) hk hn
    linarith
  · rintro ⟨h1, h2⟩
    exact ⟨lt_of_le_of_lt h1 (G.a_lt_tau i), G.tau_lt (x := (k, .right)) hk h2⟩

end Plan

end Idc
