import Verif.Spec.Holes
import Verif.Props.Shape
/-!
# C53: `compute_holes` builds a consistent hole forest
-/

namespace Idc

open FloatOps

set_option linter.unusedSectionVars false

/-! ### The list implementation of the containers meets the contract -/

theorem insertSorted_perm {α : Type} {cmp : α → α → Res Ordering} {x : α} : ∀ {l l' : List α},
    insertSorted cmp x l = .ok l' → l'.Perm (x :: l) := by
  intro l
  induction l with
  | nil => intro l' h; simp only [insertSorted, Res.ok.injEq] at h; subst h; exact List.Perm.refl _
  | cons y l ih =>
    intro l' h
    unfold insertSorted at h
    obtain ⟨c, hc, h⟩ := Res.bind_eq_ok h
    by_cases hlt : c = .lt
    · rw [if_pos hlt] at h; cases h; exact List.Perm.refl _
    · rw [if_neg hlt] at h
      obtain ⟨r, hr, h⟩ := Res.bind_eq_ok h
      cases h
      exact ((ih hr).cons y).trans (List.Perm.swap _ _ _)

theorem insertionSort_perm {α : Type} {cmp : α → α → Res Ordering} : ∀ {l done l' : List α},
    insertionSort cmp l done = .ok l' → l'.Perm (l ++ done) := by
  intro l
  induction l with
  | nil => intro done l' h; simp only [insertionSort, Res.ok.injEq] at h; subst h; exact List.Perm.refl _
  | cons x l ih =>
    intro done l' h
    unfold insertionSort at h
    obtain ⟨d, hd, h⟩ := Res.bind_eq_ok h
    have h1 := ih h
    have h2 := insertSorted_perm hd
    exact h1.trans ((h2.append_left l).trans List.perm_middle)

theorem linearSearch_spec {α : Type} {cmp : α → α → Res Ordering} {x : α} : ∀ {l : List α} {i j : Nat} {b : Bool},
    linearSearch cmp x i l = .ok (b, j) → i ≤ j ∧ j ≤ i + l.length ∧ (b = true → ∃ y, l[j - i]? = some y ∧ cmp y x = .ok .eq) := by
  intro l
  induction l with
  | nil =>
    intro i j b h
    simp only [linearSearch, Res.ok.injEq, Prod.mk.injEq] at h
    obtain ⟨rfl, rfl⟩ := h
    simp
  | cons y l ih =>
    intro i j b h
    unfold linearSearch at h
    obtain ⟨c, hc, h⟩ := Res.bind_eq_ok h
    rcases c with _ | _ | _
    · obtain ⟨h1, h2, h3⟩ := ih h
      refine ⟨by omega, by simp only [List.length_cons]; omega, fun hb => ?_⟩
      obtain ⟨z, hz, hz'⟩ := h3 hb
      refine ⟨z, ?_, hz'⟩
      rw [show j - i = (j - (i + 1)) + 1 by omega, List.getElem?_cons_succ]; exact hz
    · cases h
      exact ⟨le_refl _, by omega, fun _ => ⟨y, by simp, hc⟩⟩
    · cases h
      exact ⟨le_refl _, by omega, fun hb => by cases hb⟩

theorem listLib_ok : listLib.Ok where
  sort_perm cmp l l' h := by simpa using insertionSort_perm h
  push_perm cmp x l l' h := insertSorted_perm h
  pop_some cmp l l' x h := by
    cases l with
    | nil => cases h
    | cons y l => cases h; exact List.Perm.refl _
  pop_none cmp l h := by
    cases l with
    | nil => rfl
    | cons y l => cases h
  search_found cmp x l i h := by
    obtain ⟨_, _, h3⟩ := linearSearch_spec h
    simpa using h3 rfl
  search_missing cmp x l i h := by
    obtain ⟨_, h2, _⟩ := linearSearch_spec h
    omega
  insert_elems cmp x l := by
    induction l with
    | nil => intro l' h; cases h; exact Or.inl (List.Perm.refl _)
    | cons y l ih =>
      intro l' h
      change setInsertList cmp x (y :: l) = _ at h
      unfold setInsertList at h
      obtain ⟨c, hc, h⟩ := Res.bind_eq_ok h
      rcases c with _ | _ | _
      · cases h; exact Or.inl (List.Perm.refl _)
      · cases h; exact Or.inr ⟨List.Perm.refl _, y, by simp, hc⟩
      · obtain ⟨r, hr, h⟩ := Res.bind_eq_ok h
        cases h
        rcases ih r hr with h1 | ⟨h1, z, hz, hz'⟩
        · exact Or.inl ((h1.cons y).trans (List.Perm.swap _ _ _))
        · exact Or.inr ⟨h1.cons y, z, List.mem_cons_of_mem _ hz, hz'⟩
  remove_elems cmp x l := by
    induction l with
    | nil => intro l' h; cases h; exact Or.inl (List.Perm.refl _)
    | cons y l ih =>
      intro l' h
      change setRemoveList cmp x (y :: l) = _ at h
      unfold setRemoveList at h
      obtain ⟨c, hc, h⟩ := Res.bind_eq_ok h
      by_cases he : c = .eq
      · rw [if_pos he] at h; cases h; exact Or.inr ⟨y, List.Perm.refl _, by rw [hc, he]⟩
      · rw [if_neg he] at h
        obtain ⟨r, hr, h⟩ := Res.bind_eq_ok h
        cases h
        rcases ih r hr with h1 | ⟨z, h1, hz⟩
        · exact Or.inl (h1.cons y)
        · exact Or.inr ⟨z, (h1.cons y).trans (List.Perm.swap _ _ _), hz⟩
  prev_elem cmp x l y h := by
    have : ∀ (l : List _) (prev : Option _), setPrevList cmp x prev l = .ok (some y) →
        (y ∈ l ∧ cmp x y = .ok .gt) ∨ prev = some y := by
      intro l
      induction l with
      | nil => intro prev h; simp only [setPrevList, Res.ok.injEq] at h; exact Or.inr h
      | cons z l ih =>
        intro prev h
        unfold setPrevList at h
        obtain ⟨c, hc, h⟩ := Res.bind_eq_ok h
        by_cases hg : c = .gt
        · rw [if_pos hg] at h
          rcases ih _ h with ⟨h1, h2⟩ | h1
          · exact Or.inl ⟨List.mem_cons_of_mem _ h1, h2⟩
          · cases h1
            exact Or.inl ⟨by simp, by rw [hc, hg]⟩
        · rw [if_neg hg] at h
          cases h; exact Or.inr rfl
    rcases this l none h with h1 | h1
    · exact h1
    · cases h1

/-! ### Updating contours -/

variable {F : Type} [FloatOps F]

theorem cached_clockwise {c : Contour F} {b : Bool} (h : c.is_clockwise = some b) : c.clockwise = .ok (b, c) := by
  unfold Contour.clockwise; rw [h]

theorem cached_counterclockwise {c : Contour F} {b : Bool} (h : c.is_clockwise = some b) : c.counterclockwise = .ok (!b, c) := by
  unfold Contour.counterclockwise; rw [cached_clockwise h]; rfl

theorem setCcw_cached {c : Contour F} (h : c.is_clockwise = some false) : c.setCounterclockwise = .ok c := by
  unfold Contour.setCounterclockwise; rw [cached_clockwise h]; rfl

theorem setCw_cached {c : Contour F} (h : c.is_clockwise = some false) : c.setClockwise = .ok c.changeOrientation := by
  unfold Contour.setClockwise; rw [cached_counterclockwise h]; rfl

theorem setCcw_spec {c c' : Contour F} (h : c.setCounterclockwise = .ok c') :
    c'.is_clockwise = some false ∧ c'.holes = c.holes ∧ c'.external = c.external ∧
    (c'.points = c.points ∨ c'.points = c.points.reverse) := by
  unfold Contour.setCounterclockwise at h
  obtain ⟨⟨r, d⟩, hr, h⟩ := Res.bind_eq_ok h
  unfold Contour.clockwise at hr
  rcases hc : c.is_clockwise with _ | b
  · rw [hc] at hr
    obtain ⟨a, ha, hr⟩ := Res.bind_eq_ok hr
    cases hr
    dsimp only at h
    cases hlt : lt a (ofInt 0) <;> rw [hlt] at h <;> cases h
    · exact ⟨rfl, rfl, rfl, Or.inl rfl⟩
    · exact ⟨rfl, rfl, rfl, Or.inr rfl⟩
  · rw [hc] at hr
    cases hr
    dsimp only at h
    cases r <;> cases h
    · exact ⟨hc, rfl, rfl, Or.inl rfl⟩
    · exact ⟨by simp [Contour.changeOrientation, hc], rfl, rfl, Or.inr rfl⟩

theorem index_eq_ok {α : Type} {l : List α} {i : Nat} {a : α} (h : index l i = .ok a) : l[i]? = some a := by
  unfold index at h
  rcases hl : l[i]? with _ | b <;> rw [hl] at h
  · cases h
  · cases h; rfl

theorem modify_eq_ok {cs cs' : List (Contour F)} {i : Nat} {f : Contour F → Res (Contour F)} (h : modifyContour cs i f = .ok cs') :
    ∃ c c', cs[i]? = some c ∧ f c = .ok c' ∧ cs' = cs.set i c' := by
  unfold modifyContour at h
  obtain ⟨c, hc, h⟩ := Res.bind_eq_ok h
  obtain ⟨c', hc', h⟩ := Res.bind_eq_ok h
  cases h
  exact ⟨c, c', index_eq_ok hc, hc', rfl⟩

theorem getElem?_set_of {α : Type} {l : List α} {i j : Nat} {a b : α} (h : l[i]? = some b) :
    (l.set i a)[j]? = if j = i then some a else l[j]? := by
  have hi : i < l.length := by
    rcases Nat.lt_or_ge i l.length with h' | h'
    · exact h'
    · rw [List.getElem?_eq_none h'] at h; cases h
  rw [List.getElem?_set]
  by_cases hij : i = j
  · subst hij; simp [hi]
  · rw [if_neg hij, if_neg (fun h => hij h.symm)]

/-- What `makeHole` does to two different contours whose orientation is cached. -/
theorem makeHole_ok {st st' : HoleState F} {id parent : Nat} {c p : Contour F} {b : Bool} (hne : id ≠ parent)
    (hc : st.contours[id]? = some c) (hp : st.contours[parent]? = some p) (hcc : c.is_clockwise = some false)
    (hpc : p.is_clockwise = some b) (h : makeHole st id parent = .ok st') :
    st'.active = st.active ∧ st'.processed = st.processed ∧ st'.nprocessed = st.nprocessed ∧
    st'.hole_of = st.hole_of.set id (some parent) ∧ st'.contours.length = st.contours.length ∧
    ∃ c', c'.is_clockwise = some (!b) ∧ c'.holes = c.holes ∧ c'.external = false ∧
      (c'.points = c.points ∨ c'.points = c.points.reverse) ∧
      ∀ j, st'.contours[j]? = if j = id then some c' else if j = parent then some (p.addHole id) else st.contours[j]? := by
  unfold makeHole at h
  dsimp only at h
  obtain ⟨cs1, h1, h⟩ := Res.bind_eq_ok h
  obtain ⟨x, x', hx, hx', rfl⟩ := modify_eq_ok h1
  rw [hc] at hx; cases hx; cases hx'
  obtain ⟨cs2, h2, h⟩ := Res.bind_eq_ok h
  obtain ⟨y, y', hy, hy', rfl⟩ := modify_eq_ok h2
  rw [getElem?_set_of hc, if_neg (fun h => hne h.symm), hp] at hy; cases hy; cases hy'
  have hg2 : ∀ j, ((st.contours.set id (c.setExternal false)).set parent (p.addHole id))[j]? =
      if j = parent then some (p.addHole id) else if j = id then some (c.setExternal false) else st.contours[j]? := by
    intro j
    rw [getElem?_set_of (by rw [getElem?_set_of hc, if_neg (fun h => hne h.symm)]; exact hp), getElem?_set_of hc]
  generalize hcs2 : (st.contours.set id (c.setExternal false)).set parent (p.addHole id) = cs2 at *
  have hl2 : cs2.length = st.contours.length := by rw [← hcs2]; simp
  obtain ⟨q, hq, h⟩ := Res.bind_eq_ok h
  have hq := index_eq_ok hq
  rw [hg2, if_pos rfl] at hq; cases hq
  rw [cached_counterclockwise (b := b) (by exact hpc)] at h
  simp only [Res.bind_ok] at h
  obtain ⟨cs3, h3, h⟩ := Res.bind_eq_ok h
  obtain ⟨z, z', hz, hz', rfl⟩ := modify_eq_ok h3
  rw [getElem?_set_of (by rw [hg2, if_pos rfl]), if_neg hne, hg2, if_neg hne, if_pos rfl] at hz
  cases hz
  cases h
  have hcc' : (c.setExternal false).is_clockwise = some false := hcc
  refine ⟨rfl, rfl, rfl, rfl, by simp [hl2], z', ?_⟩
  have hget : ∀ j, ((cs2.set parent (p.addHole id)).set id z')[j]? =
      if j = id then some z' else if j = parent then some (p.addHole id) else st.contours[j]? := by
    intro j
    rw [getElem?_set_of (b := c.setExternal false) (by
      rw [getElem?_set_of (by rw [hg2, if_pos rfl]), if_neg hne, hg2, if_neg hne, if_pos rfl]),
      getElem?_set_of (by rw [hg2, if_pos rfl]), hg2]
    by_cases h1 : j = id
    · simp [h1]
    · by_cases h2 : j = parent <;> simp [h1, h2]
  cases b
  · rw [Bool.not_false, if_pos rfl, setCw_cached hcc'] at hz'
    cases hz'
    exact ⟨by simp [Contour.changeOrientation, hcc'], rfl, rfl, Or.inr rfl, hget⟩
  · rw [Bool.not_true, if_neg (by simp), setCcw_cached hcc'] at hz'
    cases hz'
    exact ⟨hcc', rfl, rfl, Or.inl rfl, hget⟩

/-! ### The invariant of the loop -/

/-- The parent recorded so far. -/
def HoleState.parent (st : HoleState F) (i : Nat) : Option Nat := (st.hole_of[i]?).join

structure HoleInv (inp : List (Contour F)) (st : HoleState F) : Prop where
  len : st.contours.length = inp.length
  lenP : st.processed.length = inp.length
  lenH : st.hole_of.length = inp.length
  active : ∀ s ∈ st.active, st.processed[s.data.1]? = some true
  parents : ∀ i p, st.parent i = some p → st.processed[i]? = some true ∧ st.processed[p]? = some true
  acyclic : ∃ rank : Nat → Nat, (∀ i, st.processed[i]? = some true → rank i < st.nprocessed) ∧
    ∀ i p, st.parent i = some p → rank p < rank i
  external : ∀ (i : Nat) c, st.contours[i]? = some c → (c.external = true ↔ st.parent i = none)
  holes : ∀ (i : Nat) c, st.contours[i]? = some c → c.holes.Nodup ∧ ∀ j, j ∈ c.holes ↔ st.parent j = some i
  root : ∀ (i : Nat) c, st.contours[i]? = some c → st.parent i = none → c.is_clockwise = some false
  opposite : ∀ (i p : Nat) c d, st.contours[i]? = some c → st.parent i = some p → st.contours[p]? = some d →
    ∃ b, d.is_clockwise = some b ∧ c.is_clockwise = some (!b)
  points : ∀ (i : Nat) (c c₀ : Contour F), st.contours[i]? = some c → inp[i]? = some c₀ →
    c.points = c₀.points ∨ c.points = c₀.points.reverse

theorem HoleInv.cached {inp : List (Contour F)} {st : HoleState F} (h : HoleInv inp st) {i : Nat} {c : Contour F}
    (hc : st.contours[i]? = some c) : ∃ b, c.is_clockwise = some b := by
  rcases hp : st.parent i with _ | p
  · exact ⟨false, h.root i c hc hp⟩
  · have := (h.parents i p hp).2
    have hlt : p < st.contours.length := by
      rw [h.len, ← h.lenP]
      rcases Nat.lt_or_ge p st.processed.length with h' | h'
      · exact h'
      · rw [List.getElem?_eq_none h'] at this; cases this
    obtain ⟨b, _, hb⟩ := h.opposite i p c _ hc hp (List.getElem?_eq_getElem hlt)
    exact ⟨_, hb⟩

theorem lt_of_getElem? {α : Type} {l : List α} {i : Nat} {a : α} (h : l[i]? = some a) : i < l.length := by
  rcases Nat.lt_or_ge i l.length with h' | h'
  · exact h'
  · rw [List.getElem?_eq_none h'] at h; cases h

/-- Marking a contour as processed and making it a hole of one processed before keeps the invariant. -/
theorem HoleInv.makeHole {inp : List (Contour F)} {st st' : HoleState F} {id parent : Nat} {active : List (HoleSegment F)}
    (h : HoleInv inp st)
    (hun : st.processed[id]? = some false) (hpar : st.processed[parent]? = some true)
    (hact : ∀ s ∈ active, s.data.1 = id ∨ st.processed[s.data.1]? = some true)
    (hm : Idc.makeHole ⟨st.contours, active, st.processed.set id true, st.hole_of, st.nprocessed + 1⟩ id parent = .ok st') : HoleInv inp st' := by
  have hne : id ≠ parent := by rintro rfl; rw [hun] at hpar; cases hpar
  have hid : id < st.contours.length := by rw [h.len, ← h.lenP]; exact lt_of_getElem? hun
  have hpl : parent < st.contours.length := by rw [h.len, ← h.lenP]; exact lt_of_getElem? hpar
  have hc := List.getElem?_eq_getElem hid
  have hp := List.getElem?_eq_getElem hpl
  have hnop : st.parent id = none := by
    rcases hq : st.parent id with _ | q
    · rfl
    · rw [(h.parents id q hq).1] at hun; cases hun
  have hnoch : ∀ j, st.parent j ≠ some id := by
    intro j hj
    rw [(h.parents j id hj).2] at hun; cases hun
  have hcc := h.root id _ hc hnop
  obtain ⟨b, hpc⟩ := h.cached hp
  obtain ⟨h1, h2, h3, h4, h5, c', hc1, hc2, hc3, hc4, hget⟩ := makeHole_ok (st := ⟨st.contours, active, st.processed.set id true, st.hole_of, st.nprocessed + 1⟩) hne hc hp hcc hpc hm
  dsimp only at h1 h2 h3 h4 h5 hget
  have hpr : ∀ j, st'.processed[j]? = if j = id then some true else st.processed[j]? := by
    intro j; rw [h2, getElem?_set_of hun]
  have hholelen : id < st.hole_of.length := by rw [h.lenH, ← h.len]; exact hid
  have hpa : ∀ j, st'.parent j = if j = id then some parent else st.parent j := by
    intro j
    unfold HoleState.parent
    rw [h4, getElem?_set_of (List.getElem?_eq_getElem hholelen)]
    by_cases hj : j = id <;> simp [hj]
  constructor
  · rw [h5, h.len]
  · rw [h2]; simp [h.lenP]
  · rw [h4]; simp [h.lenH]
  · intro s hs
    rw [h1] at hs
    rw [hpr]
    rcases hact s hs with h' | h'
    · rw [if_pos h']
    · by_cases hj : s.data.1 = id
      · rw [if_pos hj]
      · rw [if_neg hj]; exact h'
  · intro i p hip
    rw [hpa] at hip
    rw [hpr, hpr]
    by_cases hi : i = id
    · rw [if_pos hi] at hip; cases hip
      rw [if_pos hi, if_neg (fun h => hne h.symm)]; exact ⟨rfl, hpar⟩
    · rw [if_neg hi] at hip
      obtain ⟨ha, hb⟩ := h.parents i p hip
      rw [if_neg hi]
      refine ⟨ha, ?_⟩
      split_ifs
      · rfl
      · exact hb
  · obtain ⟨rank, hr1, hr2⟩ := h.acyclic
    refine ⟨fun i => if i = id then st.nprocessed else rank i, ?_, ?_⟩
    · intro i hi
      rw [hpr] at hi
      dsimp only
      rw [h3]
      split_ifs with hii
      · omega
      · rw [if_neg hii] at hi; have := hr1 i hi; omega
    · intro i p hip
      rw [hpa] at hip
      dsimp only
      by_cases hi : i = id
      · rw [if_pos hi] at hip; cases hip
        rw [if_neg (fun h => hne h.symm), if_pos hi]
        exact hr1 _ hpar
      · rw [if_neg hi] at hip
        have hpid : p ≠ id := by rintro rfl; exact hnoch _ hip
        rw [if_neg hpid, if_neg hi]
        exact hr2 i p hip
  · intro i c hi
    rw [hget] at hi
    rw [hpa]
    by_cases hii : i = id
    · rw [if_pos hii] at hi; cases hi
      rw [if_pos hii, hc3]; simp
    · rw [if_neg hii] at hi
      rw [if_neg hii]
      by_cases hip : i = parent
      · rw [if_pos hip] at hi; cases hi
        rw [hip]; exact h.external parent st.contours[parent] hp
      · rw [if_neg hip] at hi
        exact h.external i c hi
  · intro i c hi
    rw [hget] at hi
    by_cases hii : i = id
    · rw [if_pos hii] at hi; cases hi
      rw [hc2]
      obtain ⟨ha, hb⟩ := h.holes id _ hc
      refine ⟨ha, fun j => ?_⟩
      rw [hb, hpa, hii]
      by_cases hj : j = id
      · rw [if_pos hj, hj, hnop]
        simp; exact fun h => hne h.symm
      · rw [if_neg hj]
    · rw [if_neg hii] at hi
      by_cases hip : i = parent
      · rw [if_pos hip] at hi; cases hi
        obtain ⟨ha, hb⟩ := h.holes parent _ hp
        unfold Contour.addHole
        dsimp only
        have hnm : id ∉ (st.contours[parent]).holes := by rw [hb, hnop]; simp
        refine ⟨?_, fun j => ?_⟩
        · rw [List.nodup_append]
          refine ⟨ha, by simp, ?_⟩
          intro x hx y hy
          rw [List.mem_singleton.mp hy]
          rintro rfl
          exact hnm hx
        · rw [List.mem_append, hb, List.mem_singleton, hpa]
          by_cases hj : j = id
          · simp [hj, hip]
          · simp [hj, hip]
      · rw [if_neg hip] at hi
        obtain ⟨ha, hb⟩ := h.holes i _ hi
        refine ⟨ha, fun j => ?_⟩
        rw [hb, hpa]
        by_cases hj : j = id
        · rw [if_pos hj, hj, hnop]; simp; exact fun h => hip h.symm
        · rw [if_neg hj]
  · intro i c hi hroot
    rw [hget] at hi
    rw [hpa] at hroot
    by_cases hii : i = id
    · rw [if_pos hii] at hroot; cases hroot
    · rw [if_neg hii] at hi hroot
      by_cases hip : i = parent
      · rw [if_pos hip] at hi; cases hi
        rw [hip] at hroot
        exact h.root parent st.contours[parent] hp hroot
      · rw [if_neg hip] at hi; exact h.root i c hi hroot
  · intro i p c d hi hip hd
    rw [hget] at hi hd
    rw [hpa] at hip
    by_cases hii : i = id
    · rw [if_pos hii] at hi hip; cases hi; cases hip
      rw [if_neg (fun h => hne h.symm), if_pos rfl] at hd; cases hd
      exact ⟨b, hpc, hc1⟩
    · rw [if_neg hii] at hi hip
      have hpid : p ≠ id := by rintro rfl; exact hnoch _ hip
      rw [if_neg hpid] at hd
      have key : ∀ {j : Nat} {x : Contour F}, (if j = parent then some ((st.contours[parent]).addHole id) else st.contours[j]?) = some x →
          ∃ y, st.contours[j]? = some y ∧ y.is_clockwise = x.is_clockwise := by
        intro j x hx
        by_cases hj : j = parent
        · rw [if_pos hj] at hx; cases hx
          exact ⟨st.contours[parent], by rw [hj]; exact hp, rfl⟩
        · rw [if_neg hj] at hx; exact ⟨x, hx, rfl⟩
      obtain ⟨ci, hci, e1⟩ := key hi
      obtain ⟨di, hdi, e2⟩ := key hd
      rw [← e1, ← e2]
      exact h.opposite i p ci di hci hip hdi
  · intro i c c₀ hi h0
    rw [hget] at hi
    by_cases hii : i = id
    · rw [if_pos hii] at hi; cases hi
      have := h.points id _ c₀ hc (by rw [← hii]; exact h0)
      rcases hc4 with e | e <;> rw [e] <;> rcases this with e' | e' <;> rw [e'] <;> simp
    · rw [if_neg hii] at hi
      by_cases hip : i = parent
      · rw [if_pos hip] at hi; cases hi
        exact h.points parent st.contours[parent] c₀ hp (by rw [← hip]; exact h0)
      · rw [if_neg hip] at hi; exact h.points i c c₀ hi h0

/-- Marking a contour as processed without a parent keeps the invariant. -/
theorem HoleInv.noHole {inp : List (Contour F)} {st : HoleState F} {id : Nat} {active : List (HoleSegment F)} {cs : List (Contour F)}
    (h : HoleInv inp st)
    (hun : st.processed[id]? = some false)
    (hact : ∀ s ∈ active, s.data.1 = id ∨ st.processed[s.data.1]? = some true)
    (hm : modifyContour st.contours id Contour.setCounterclockwise = .ok cs) :
    HoleInv inp ⟨cs, active, st.processed.set id true, st.hole_of, st.nprocessed + 1⟩ := by
  have hnop : st.parent id = none := by
    rcases hq : st.parent id with _ | q
    · rfl
    · rw [(h.parents id q hq).1] at hun; cases hun
  obtain ⟨c, c', hc, hc', rfl⟩ := modify_eq_ok hm
  rw [setCcw_cached (h.root id c hc hnop)] at hc'
  cases hc'
  have hsame : st.contours.set id c = st.contours := by
    apply List.ext_getElem?
    intro j
    rw [getElem?_set_of hc]
    by_cases hj : j = id <;> simp [hj, hc]
  rw [hsame]
  have hpr : ∀ j, (st.processed.set id true)[j]? = if j = id then some true else st.processed[j]? := by
    intro j; rw [getElem?_set_of hun]
  constructor
  · exact h.len
  · simp [h.lenP]
  · exact h.lenH
  · intro s hs
    dsimp only at hs ⊢
    rw [hpr]
    rcases hact s hs with h' | h'
    · rw [if_pos h']
    · split_ifs
      · rfl
      · exact h'
  · intro i p hip
    obtain ⟨ha, hb⟩ := h.parents i p hip
    dsimp only
    rw [hpr, hpr]
    constructor
    · split_ifs
      · rfl
      · exact ha
    · split_ifs
      · rfl
      · exact hb
  · obtain ⟨rank, hr1, hr2⟩ := h.acyclic
    refine ⟨fun i => if i = id then st.nprocessed else rank i, ?_, ?_⟩
    · intro i hi
      dsimp only at hi ⊢
      rw [hpr] at hi
      split_ifs with hii
      · omega
      · rw [if_neg hii] at hi; have := hr1 i hi; omega
    · intro i p hip
      dsimp only
      have hi : i ≠ id := by
        rintro rfl
        have : st.parent i = some p := hip
        rw [hnop] at this; cases this
      have hp : p ≠ id := by
        rintro rfl
        rw [(h.parents i p hip).2] at hun; cases hun
      rw [if_neg hi, if_neg hp]
      exact hr2 i p hip
  · exact h.external
  · exact h.holes
  · exact h.root
  · exact h.opposite
  · exact h.points

theorem segment_cmp_self (s : HoleSegment F) : SweepSegment.cmp s s = .ok .eq := by
  unfold SweepSegment.cmp; rw [if_pos rfl]

theorem holeStep_inv {lib : Lib} (hl : lib.Ok) {inp : List (Contour F)} {st st' : HoleState F} {s : HoleSegment F} {e : SegmentEnd}
    (h : HoleInv inp st) (hs : holeStep lib st s e = .ok st') : HoleInv inp st' := by
  unfold holeStep at hs
  cases e with
  | right =>
    obtain ⟨active, ha, hs⟩ := Res.bind_eq_ok hs
    cases hs
    refine ⟨h.len, h.lenP, h.lenH, ?_, h.parents, h.acyclic, h.external, h.holes, h.root, h.opposite, h.points⟩
    intro x hx
    apply h.active
    rcases hl.remove_elems _ _ _ _ ha with h1 | ⟨y, h1, _⟩
    · exact h1.mem_iff.mp hx
    · exact h1.mem_iff.mpr (List.mem_cons_of_mem _ hx)
  | left =>
    obtain ⟨active, ha, hs⟩ := Res.bind_eq_ok hs
    dsimp only at hs
    have hmem : ∀ x ∈ active, x = s ∨ x ∈ st.active := by
      intro x hx
      rcases hl.insert_elems _ _ _ _ ha with h1 | ⟨h1, _⟩
      · exact List.mem_cons.mp (h1.mem_iff.mp hx)
      · exact Or.inr (h1.mem_iff.mp hx)
    obtain ⟨p, hp, hs⟩ := Res.bind_eq_ok hs
    have hp := index_eq_ok hp
    cases p with
    | true =>
      rw [if_pos rfl] at hs
      cases hs
      refine ⟨h.len, h.lenP, h.lenH, ?_, h.parents, h.acyclic, h.external, h.holes, h.root, h.opposite, h.points⟩
      intro x hx
      rcases hmem x hx with rfl | hx
      · exact hp
      · exact h.active x hx
    | false =>
      rw [if_neg (by simp)] at hs
      have hact : ∀ x ∈ active, x.data.1 = s.data.1 ∨ st.processed[x.data.1]? = some true := by
        intro x hx
        rcases hmem x hx with rfl | hx
        · exact Or.inl rfl
        · exact Or.inr (h.active x hx)
      obtain ⟨prev, hprev, hs⟩ := Res.bind_eq_ok hs
      cases prev with
      | none =>
        obtain ⟨cs, hcs, hs⟩ := Res.bind_eq_ok hs
        cases hs
        exact h.noHole hp hact hcs
      | some prev =>
        dsimp only at hs
        have hpp : st.processed[prev.data.1]? = some true := by
          obtain ⟨hm, hgt⟩ := hl.prev_elem _ _ _ _ hprev
          rcases hmem prev hm with rfl | hx
          · rw [segment_cmp_self] at hgt; cases hgt
          · exact h.active prev hx
        by_cases hf : (!prev.faces_outwards) = true
        · rw [if_pos hf] at hs
          exact h.makeHole hp hpp hact hs
        · rw [if_neg hf] at hs
          obtain ⟨q, hq, hs⟩ := Res.bind_eq_ok hs
          have hq := index_eq_ok hq
          cases q with
          | some parent =>
            have : st.parent prev.data.1 = some parent := by
              unfold HoleState.parent
              rw [hq]; rfl
            exact h.makeHole hp (h.parents _ _ this).2 hact hs
          | none =>
            obtain ⟨cs, hcs, hs⟩ := Res.bind_eq_ok hs
            cases hs
            exact h.noHole hp hact hcs

theorem holeLoop_inv {lib : Lib} (hl : lib.Ok) {inp : List (Contour F)} : ∀ {l : List (HoleSegment F × SegmentEnd)} {st st' : HoleState F},
    HoleInv inp st → holeLoop lib l st = .ok st' → HoleInv inp st' := by
  intro l
  induction l with
  | nil => intro st st' h hs; cases hs; exact h
  | cons x l ih =>
    intro st st' h hs
    obtain ⟨s, e⟩ := x
    unfold holeLoop at hs
    split_ifs at hs
    · cases hs; exact h
    · obtain ⟨st1, h1, hs⟩ := Res.bind_eq_ok hs
      exact ih (holeStep_inv hl h h1) hs

theorem holeSegments_spec : ∀ {cs : List (Contour F)} {i : Nat} {done cs' : List (Contour F)} {segs segs' : List (HoleSegment F)},
    holeSegments i cs done segs = .ok (cs', segs') →
    ∃ new, cs' = done ++ new ∧ new.length = cs.length ∧
      ∀ (j : Nat) c c', cs[j]? = some c → new[j]? = some c' → c'.is_clockwise = some false ∧ c'.holes = c.holes ∧
        c'.external = c.external ∧ (c'.points = c.points ∨ c'.points = c.points.reverse) := by
  intro cs
  induction cs with
  | nil => intro i done cs' segs segs' h; cases h; exact ⟨[], by simp, rfl, by simp⟩
  | cons c cs ih =>
    intro i done cs' segs segs' h
    unfold holeSegments at h
    obtain ⟨d, hd, h⟩ := Res.bind_eq_ok h
    obtain ⟨edges, he, h⟩ := Res.bind_eq_ok h
    obtain ⟨segs1, hs1, h⟩ := Res.bind_eq_ok h
    obtain ⟨new, h1, h2, h3⟩ := ih h
    refine ⟨d :: new, by rw [h1]; simp, by simp [h2], ?_⟩
    intro j x x' hx hx'
    cases j with
    | zero =>
      simp only [List.getElem?_cons_zero, Option.some.injEq] at hx hx'
      subst hx; subst hx'
      exact setCcw_spec hd
    | succ j => exact h3 j x x' (by simpa using hx) (by simpa using hx')

/-- **C53**: if `compute_holes` returns, on contours without holes that are marked external, the result
is a forest of the same contours. -/
theorem C53_hole_forest (lib : Lib) (hl : lib.Ok) (p p' : Polygon F) (hfresh : ∀ c ∈ p.contours, c.Fresh)
    (h : p.computeHoles lib = .ok p') : ∃ parent, IsHoleForest p.contours p'.contours parent := by
  obtain ⟨cs⟩ := p
  dsimp only at *
  have hinv : ∀ (cs cs' : List (Contour F)) (st : HoleState F), HoleInv cs st → cs' = st.contours →
      ∃ parent, IsHoleForest cs cs' parent := by
    rintro cs cs' st hi rfl
    refine ⟨st.parent, hi.len, ?_, ?_, hi.external, hi.holes, ?_, ?_, hi.points⟩
    · intro i p hp
      obtain ⟨h1, h2⟩ := hi.parents i p hp
      have h1 := lt_of_getElem? h1
      have h2 := lt_of_getElem? h2
      rw [hi.lenP, ← hi.len] at h1 h2
      exact ⟨h1, h2⟩
    · obtain ⟨rank, _, hr⟩ := hi.acyclic
      exact ⟨rank, hr⟩
    · intro i c hc hp; exact cached_clockwise (hi.root i c hc hp)
    · intro i p c d hc hp hd
      obtain ⟨b, h1, h2⟩ := hi.opposite i p c d hc hp hd
      exact ⟨b, cached_clockwise h1, cached_clockwise h2⟩
  have hinit : ∀ (cs cs' : List (Contour F)), cs'.length = cs.length → (∀ c ∈ cs, c.Fresh) →
      (∀ (j : Nat) c c', cs[j]? = some c → cs'[j]? = some c' → c'.is_clockwise = some false ∧ c'.holes = c.holes ∧
        c'.external = c.external ∧ (c'.points = c.points ∨ c'.points = c.points.reverse)) →
      HoleInv cs ⟨cs', [], List.replicate cs'.length false, List.replicate cs'.length none, 0⟩ := by
    intro cs cs' hlen hf hspec
    have hpar : ∀ i, HoleState.parent ⟨cs', [], List.replicate cs'.length false, List.replicate cs'.length none, 0⟩ i = none := by
      intro i
      unfold HoleState.parent
      dsimp only
      rw [List.getElem?_replicate]
      split_ifs <;> rfl
    have hget : ∀ (i : Nat) (c : Contour F), cs'[i]? = some c → c.is_clockwise = some false ∧ c.holes = [] ∧ c.external = true := by
      intro i c hc
      have hi := lt_of_getElem? hc
      rw [hlen] at hi
      obtain ⟨h1, h2, h3, _⟩ := hspec i _ c (List.getElem?_eq_getElem hi) hc
      obtain ⟨f1, f2⟩ := hf _ (List.getElem_mem hi)
      exact ⟨h1, by rw [h2, f1], by rw [h3, f2]⟩
    constructor
    · exact hlen
    · simpa using hlen
    · simpa using hlen
    · intro s hs; cases hs
    · intro i p hp; rw [hpar] at hp; cases hp
    · refine ⟨fun _ => 0, ?_, ?_⟩
      · intro i hi
        dsimp only at hi
        rw [List.getElem?_replicate] at hi
        split_ifs at hi
        cases hi
      · intro i p hp; rw [hpar] at hp; cases hp
    · intro i c hc; rw [hpar]; simp [(hget i c hc).2.2]
    · intro i c hc; rw [(hget i c hc).2.1]; simp [hpar]
    · intro i c hc _; exact (hget i c hc).1
    · intro i p c d _ hp; rw [hpar] at hp; cases hp
    · intro i c c₀ hc h0; exact (hspec i c₀ c h0 hc).2.2.2
  unfold Polygon.computeHoles at h
  dsimp only at h
  split at h
  · cases h
    refine ⟨fun _ => none, rfl, by simp, ⟨fun _ => 0, by simp⟩, ?_, ?_, ?_, ?_, ?_⟩ <;> simp
  · rename_i c
    obtain ⟨⟨cw, d⟩, hcw, h⟩ := Res.bind_eq_ok h
    have hset : c.setCounterclockwise = .ok (if cw then d.changeOrientation else d) := by
      unfold Contour.setCounterclockwise
      rw [hcw]; rfl
    cases h
    apply hinv [c] _ _ (hinit [c] [if cw then d.changeOrientation else d] rfl hfresh ?_) rfl
    intro j x x' hx hx'
    cases j with
    | zero =>
      simp only [List.getElem?_cons_zero, Option.some.injEq] at hx hx'
      subst hx; subst hx'
      exact setCcw_spec hset
    | succ j => simp at hx
  · obtain ⟨⟨cs', segs⟩, hs, h⟩ := Res.bind_eq_ok h
    obtain ⟨endpoints, he, h⟩ := Res.bind_eq_ok h
    obtain ⟨st, hst, h⟩ := Res.bind_eq_ok h
    cases h
    obtain ⟨new, h1, h2, h3⟩ := holeSegments_spec hs
    rw [List.nil_append] at h1
    subst h1
    exact hinv cs _ st (holeLoop_inv hl (hinit cs cs' h2 hfresh h3) hst) rfl

end Idc
