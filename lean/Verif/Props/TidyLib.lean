import Verif.Spec.Tidy
import Verif.Props.Holes
/-!
# The contract of the containers used by C76 can be met
-/

namespace Idc

theorem insertSorted_ok {α : Type} {cmp : α → α → Res Ordering} {x : α} : ∀ {l : List α}, (∀ y ∈ l, ∃ o, cmp x y = .ok o) →
    ∃ l', insertSorted cmp x l = .ok l'
  | [], _ => ⟨_, rfl⟩
  | y :: l, h => by
    obtain ⟨o, ho⟩ := h y (by simp)
    obtain ⟨l', hl⟩ := insertSorted_ok (l := l) fun z hz => h z (by simp [hz])
    unfold insertSorted
    rw [ho]
    simp only [Res.bind_ok]
    split
    · exact ⟨_, rfl⟩
    · rw [hl]; exact ⟨_, rfl⟩

theorem TotalPreorderOn.mono {α : Type} {P Q : α → Prop} {cmp : α → α → Res Ordering} (h : TotalPreorderOn P cmp) (hq : ∀ a, Q a → P a) : TotalPreorderOn Q cmp where
  total a b ha hb := h.total a b (hq a ha) (hq b hb)
  trans a b c o₁ o₂ o₃ ha hb hc := h.trans a b c o₁ o₂ o₃ (hq a ha) (hq b hb) (hq c hc)

theorem insertSorted_sorted {α : Type} {cmp : α → α → Res Ordering} {x : α} : ∀ {l : List α}, TotalPreorderOn (· ∈ x :: l) cmp →
    l.Pairwise (fun a b => cmp a b ≠ .ok .gt) → ∃ l', insertSorted cmp x l = .ok l' ∧ l'.Perm (x :: l) ∧ l'.Pairwise fun a b => cmp a b ≠ .ok .gt
  | [], _, _ => ⟨[x], rfl, List.Perm.refl _, by simp⟩
  | y :: l, h, hs => by
    obtain ⟨o, h1, h2⟩ := h.total x y (by simp) (by simp)
    unfold insertSorted
    rw [h1]
    simp only [Res.bind_ok]
    rw [List.pairwise_cons] at hs
    split
    · rename_i ho
      subst ho
      refine ⟨_, rfl, List.Perm.refl _, ?_⟩
      rw [List.pairwise_cons, List.pairwise_cons]
      refine ⟨?_, hs.1, hs.2⟩
      intro z hz
      rcases List.mem_cons.1 hz with rfl | hz
      · rw [h1]; intro e; cases e
      · obtain ⟨o₂, k1, _⟩ := h.total y z (by simp) (by simp [hz])
        obtain ⟨o₃, k3, _⟩ := h.total x z (by simp) (by simp [hz])
        have := h.trans x y z _ _ _ (by simp) (by simp) (by simp [hz]) h1 k1 k3 (by decide) (fun e => hs.1 z hz (by rw [k1, e]))
        rw [k3]
        intro e
        cases e
        exact this.1 rfl
    · rename_i ho
      obtain ⟨l', e, hp, hso⟩ := insertSorted_sorted (x := x) (l := l) (h.mono fun a ha => by
        simp only [List.mem_cons] at ha ⊢; tauto) hs.2
      rw [e]
      refine ⟨_, rfl, (hp.cons y).trans (List.Perm.swap x y l), ?_⟩
      rw [List.pairwise_cons]
      refine ⟨?_, hso⟩
      intro z hz
      rcases List.mem_cons.1 (hp.mem_iff.1 hz) with rfl | hz
      · rw [h2]
        intro e
        cases o
        · exact ho rfl
        · cases e
        · cases e
      · exact hs.1 z hz

theorem insertionSort_ok {α : Type} {cmp : α → α → Res Ordering} : ∀ {l done : List α}, (∀ a ∈ l ++ done, ∀ b ∈ l ++ done, ∃ o, cmp a b = .ok o) →
    ∃ l', insertionSort cmp l done = .ok l'
  | [], done, _ => ⟨done, rfl⟩
  | x :: l, done, h => by
    obtain ⟨d, hd⟩ := insertSorted_ok (cmp := cmp) (x := x) (l := done) fun y hy => h x (by simp) y (by simp [hy])
    have hp := insertSorted_perm hd
    unfold insertionSort
    rw [hd]
    refine insertionSort_ok (l := l) (done := d) fun a ha b hb => h a ?_ b ?_
    · simp only [List.mem_append, hp.mem_iff, List.mem_cons] at ha ⊢; tauto
    · simp only [List.mem_append, hp.mem_iff, List.mem_cons] at hb ⊢; tauto

theorem insertionSort_sorted {α : Type} {cmp : α → α → Res Ordering} : ∀ {l done : List α}, TotalPreorderOn (· ∈ l ++ done) cmp →
    done.Pairwise (fun a b => cmp a b ≠ .ok .gt) →
    ∃ l', insertionSort cmp l done = .ok l' ∧ l'.Perm (l ++ done) ∧ l'.Pairwise fun a b => cmp a b ≠ .ok .gt
  | [], done, _, hd => ⟨done, rfl, List.Perm.refl _, hd⟩
  | x :: l, done, h, hs => by
    obtain ⟨d, hd, hp, hso⟩ := insertSorted_sorted (cmp := cmp) (x := x) (l := done) (h.mono fun a ha => by
      simp only [List.mem_cons, List.mem_append] at ha ⊢; tauto) hs
    unfold insertionSort
    rw [hd]
    obtain ⟨l', e, hp', hs'⟩ := insertionSort_sorted (l := l) (done := d) (h.mono fun a ha => by
      simp only [List.mem_append, hp.mem_iff, List.mem_cons] at ha ⊢; tauto) hso
    refine ⟨l', e, hp'.trans ?_, hs'⟩
    refine (hp.append_left l).trans ?_
    exact List.perm_middle

theorem linearSearch_parts {α : Type} {cmp : α → α → Res Ordering} {x : α} : ∀ (l₁ l₂ : List α) (i : Nat), (∀ y ∈ l₁, cmp y x = .ok .lt) →
    linearSearch cmp x i (l₁ ++ l₂) = linearSearch cmp x (i + l₁.length) l₂
  | [], _, _, _ => rfl
  | y :: l₁, l₂, i, h => by
    rw [List.cons_append, linearSearch, h y (by simp)]
    simp only [Res.bind_ok]
    rw [linearSearch_parts l₁ l₂ (i + 1) fun z hz => h z (by simp [hz]), List.length_cons]
    congr 1
    omega

/-- The simple implementation meets the contract. -/
theorem listLib_lawful : listLib.Lawful where
  sort_returns cmp l h := insertionSort_ok (by simpa using h)
  sort_sorts cmp l h := by
    obtain ⟨l', h1, h2, h3⟩ := insertionSort_sorted (cmp := cmp) (l := l) (done := []) (by simpa using h) List.Pairwise.nil
    exact ⟨l', h1, by simpa using h2, h3⟩
  search_missing cmp x l₁ l₂ h1 h2 := by
    show linearSearch cmp x 0 (l₁ ++ l₂) = _
    rw [linearSearch_parts l₁ l₂ 0 h1, Nat.zero_add]
    cases l₂ with
    | nil => rfl
    | cons y l => rw [linearSearch, h2 y (by simp)]; rfl
  search_found cmp x y l₁ l₂ h1 h2 h3 := by
    show linearSearch cmp x 0 (l₁ ++ y :: l₂) = _
    rw [linearSearch_parts l₁ _ 0 h1, Nat.zero_add, linearSearch, h2]
    rfl
  heap := by
    refine ⟨fun {α} cmp l => l.Pairwise fun a b => cmp a b ≠ .ok .gt, ?_, ?_, ?_, ?_, ?_⟩
    · intro α cmp; exact List.Pairwise.nil
    · intro α cmp cmp' l h hp
      exact List.Pairwise.imp_of_mem (fun {a b} ha hb k => by rw [← h a ha b hb]; exact k) hp
    · intro α cmp x l h hp
      exact insertSorted_sorted h hp
    · intro α cmp; rfl
    · intro α cmp l hne h hp
      cases l with
      | nil => exact absurd rfl hne
      | cons x l =>
        rw [List.pairwise_cons] at hp
        exact ⟨x, l, rfl, List.Perm.refl _, hp.2, hp.1⟩

end Idc
