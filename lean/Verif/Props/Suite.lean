import Verif.Spec.Suite
import Verif.Props.Room
/-!
# C94: the polygons of two rooms
-/

namespace Idc

theorem suite_walk_step {vertices : List (Pt ℝ)} {byVertex : List (ℕ × List ℕ)} {i fuel prev next e₁ e₂ o : ℕ} {es : List ℕ} {edges : List Edge} {outline : List (Pt ℝ)} {p a pp q : Pt ℝ} {d₁ ed : Edge}
    (hN : vertices[next]? = some p) (hF : outline[0]? = some a) (hne : p ≠ a) (hP : vertices[prev]? = some pp) (hE : entryGet byVertex next = some es) (hes : es = [e₁, e₂] ∨ es = [e₂, e₁])
    (h1 : edges[e₁]? = some d₁) (hd : d₁.done = true) (hi : i ≠ e₂) (h2 : edges[e₂]? = some ed) (hd2 : ed.done = false) (hv : (if ed.v0 = next then ed.v1 else ed.v0) = o) (hq : vertices[o]? = some q) :
    walkOutline vertices byVertex i (fuel + 1) edges outline prev next =
      walkOutline vertices byVertex i fuel (edges.set e₂ { ed with done := true }) (outline ++ [p]) next o := by
  subst hv
  obtain ⟨c1, e1, f1⟩ := consider_first (vertices := vertices) (edges := edges) (i := i) (nextV := next) (e := e₂) (nextP := p) (cur := p.sub pp) (q := q)
    (c := ⟨FloatOps.nan, none, false⟩) (ed := ed) rfl rfl hi h2 hd2 hq
  have skip : ∀ c, considerEdge vertices edges i next p (p.sub pp) c e₁ = .ok c := fun c => by
    unfold considerEdge
    split
    · rfl
    · have : index edges e₁ = .ok d₁ := by unfold index; rw [h1]
      rw [this, Res.bind_ok, if_pos hd]
  have i1 : index vertices next = .ok p := by unfold index; rw [hN]
  have i2 : index outline 0 = .ok a := by unfold index; rw [hF]
  have i3 : index vertices prev = .ok pp := by unfold index; rw [hP]
  have i4 : indexMut edges e₂ (fun x => { x with done := true }) = .ok (edges.set e₂ { ed with done := true }) := by unfold indexMut; rw [h2]
  have hb : p.beq a = false := Idc.beq_false_iff.2 hne
  have hloop : forEach (considerEdge vertices edges i next p (p.sub pp)) es ⟨FloatOps.nan, none, false⟩ = .ok c1 := by
    rcases hes with rfl | rfl
    · simp only [forEach, skip, Res.bind_ok, e1]
    · simp only [forEach, skip, Res.bind_ok, e1]
  rw [walkOutline, i1, Res.bind_ok, i2, Res.bind_ok, hb]
  simp only [Bool.false_eq_true, if_false]
  rw [i3, Res.bind_ok, hE]
  simp only [unwrap, Res.bind_ok]
  rw [hloop, Res.bind_ok, f1]
  simp only
  rw [i4, Res.bind_ok]

theorem suite_outline_left {a b c d e f : Pt ℝ} (hb : b ≠ a) (hc : c ≠ a) (hf : f ≠ a) (fuel : ℕ) :
    outlineLoop [a, b, c, d, e, f] [(0, [0, 2]), (1, [0, 1]), (2, [1, 3]), (5, [2, 3])] (fuel + 4) (List.range 4)
      [⟨0, 1, false⟩, ⟨1, 2, false⟩, ⟨5, 0, false⟩, ⟨2, 5, false⟩] [] = .ok [[a, b, c, f]] := by
  have w : walkOutline [a, b, c, d, e, f] [(0, [0, 2]), (1, [0, 1]), (2, [1, 3]), (5, [2, 3])] 0 (fuel + 4) [⟨0, 1, true⟩, ⟨1, 2, false⟩, ⟨5, 0, false⟩, ⟨2, 5, false⟩] [a] 0 1 =
      .ok ([⟨0, 1, true⟩, ⟨1, 2, true⟩, ⟨5, 0, true⟩, ⟨2, 5, true⟩], [a, b, c, f]) := by
    rw [show fuel + 4 = ((fuel + 1) + 1 + 1) + 1 from rfl,
      suite_walk_step (p := b) (a := a) (pp := a) (q := c) (e₁ := 0) (e₂ := 1) (o := 2) (d₁ := ⟨0, 1, true⟩) (ed := ⟨1, 2, false⟩) rfl rfl hb rfl rfl (.inl rfl) rfl rfl (by decide) rfl rfl rfl rfl,
      suite_walk_step (p := c) (a := a) (pp := b) (q := f) (e₁ := 1) (e₂ := 3) (o := 5) (d₁ := ⟨1, 2, true⟩) (ed := ⟨2, 5, false⟩) rfl rfl hc rfl rfl (.inl rfl) rfl rfl (by decide) rfl rfl rfl rfl,
      suite_walk_step (p := f) (a := a) (pp := c) (q := a) (e₁ := 3) (e₂ := 2) (o := 0) (d₁ := ⟨2, 5, true⟩) (ed := ⟨5, 0, false⟩) rfl rfl hf rfl rfl (.inr rfl) rfl rfl (by decide) rfl rfl rfl rfl, walkOutline]
    have : a.beq a = true := Idc.beq_iff.2 rfl
    simp [index, this]
  have : List.range 4 = [0, 1, 2, 3] := rfl
  rw [this]
  simp only [outlineLoop, index, indexMut, List.getElem?_cons_zero, List.getElem?_cons_succ, List.set_cons_zero, Res.bind_ok, Bool.false_eq_true, if_false]
  rw [w, Res.bind_ok]
  simp

theorem suite_outline_right {a b c d e f : Pt ℝ} (hd : d ≠ c) (he : e ≠ c) (hf : f ≠ c) (fuel : ℕ) :
    outlineLoop [a, b, c, d, e, f] [(2, [0, 3]), (3, [0, 1]), (4, [1, 2]), (5, [2, 3])] (fuel + 4) (List.range 4)
      [⟨2, 3, false⟩, ⟨3, 4, false⟩, ⟨4, 5, false⟩, ⟨2, 5, false⟩] [] = .ok [[c, d, e, f]] := by
  have w : walkOutline [a, b, c, d, e, f] [(2, [0, 3]), (3, [0, 1]), (4, [1, 2]), (5, [2, 3])] 0 (fuel + 4) [⟨2, 3, true⟩, ⟨3, 4, false⟩, ⟨4, 5, false⟩, ⟨2, 5, false⟩] [c] 2 3 =
      .ok ([⟨2, 3, true⟩, ⟨3, 4, true⟩, ⟨4, 5, true⟩, ⟨2, 5, true⟩], [c, d, e, f]) := by
    rw [show fuel + 4 = ((fuel + 1) + 1 + 1) + 1 from rfl,
      suite_walk_step (p := d) (a := c) (pp := c) (q := e) (e₁ := 0) (e₂ := 1) (o := 4) (d₁ := ⟨2, 3, true⟩) (ed := ⟨3, 4, false⟩) rfl rfl hd rfl rfl (.inl rfl) rfl rfl (by decide) rfl rfl rfl rfl,
      suite_walk_step (p := e) (a := c) (pp := d) (q := f) (e₁ := 1) (e₂ := 2) (o := 5) (d₁ := ⟨3, 4, true⟩) (ed := ⟨4, 5, false⟩) rfl rfl he rfl rfl (.inl rfl) rfl rfl (by decide) rfl rfl rfl rfl,
      suite_walk_step (p := f) (a := c) (pp := e) (q := c) (e₁ := 2) (e₂ := 3) (o := 2) (d₁ := ⟨4, 5, true⟩) (ed := ⟨2, 5, false⟩) rfl rfl hf rfl rfl (.inl rfl) rfl rfl (by decide) rfl rfl rfl rfl, walkOutline]
    have : c.beq c = true := Idc.beq_iff.2 rfl
    simp [index, this]
  have : List.range 4 = [0, 1, 2, 3] := rfl
  rw [this]
  simp only [outlineLoop, index, indexMut, List.getElem?_cons_zero, List.getElem?_cons_succ, List.set_cons_zero, Res.bind_ok, Bool.false_eq_true, if_false]
  rw [w, Res.bind_ok]
  simp

section

variable {F : Type} [FloatOps F]

omit [FloatOps F] in
theorem pushLine_other {m : FullMap F} {s h : ℕ} {t : EdgeTable} {l : Line} {sd : Side} (hb : l.back = none) (hf : l.front = some h) (hs : m.sides[h]? = some sd)
    (he : sd.sector ≠ s) : pushLineEdges m s t l = .ok t := by
  have i1 : index m.sides h = .ok sd := by unfold index; rw [hs]
  unfold pushLineEdges
  rw [hf, hb]
  simp only [Res.mapOption, i1, Res.bind_ok, Res.pure_eq, Bool.false_eq_true, if_false, pushSideEdge, he]

omit [FloatOps F] in
theorem pushLine_two {m : FullMap F} {s h h' : ℕ} {t : EdgeTable} {l : Line} {sd sd' : Side} {p q : Pt F} (hf : l.front = some h) (hb : l.back = some h') (hs : m.sides[h]? = some sd)
    (hs' : m.sides[h']? = some sd') (hne : sd.sector ≠ sd'.sector) (he : sd.sector = s ∨ sd'.sector = s) (hp : m.vertices[l.start]? = some p) (hq : m.vertices[l.stop]? = some q) :
    pushLineEdges m s t l = .ok ⟨t.edges ++ [⟨l.start, l.stop, false⟩], entryPush (entryPush t.byVertex l.start t.edges.length) l.stop t.edges.length⟩ := by
  have i1 : index m.sides h = .ok sd := by unfold index; rw [hs]
  have i1' : index m.sides h' = .ok sd' := by unfold index; rw [hs']
  have i2 : index m.vertices l.start = .ok p := by unfold index; rw [hp]
  have i3 : index m.vertices l.stop = .ok q := by unfold index; rw [hq]
  have hn : (sd.sector == sd'.sector) = false := by simpa using hne
  unfold pushLineEdges
  rw [hf, hb]
  rcases he with he | he
  · subst he
    have : sd'.sector ≠ sd.sector := Ne.symm hne
    simp only [Res.mapOption, i1, i1', Res.bind_ok, Res.pure_eq, hn, Bool.false_eq_true, if_false, pushSideEdge, this, if_true, i2, i3, List.length_append, List.length_singleton,
      Nat.add_sub_cancel]
  · subst he
    simp only [Res.mapOption, i1, i1', Res.bind_ok, Res.pure_eq, hn, Bool.false_eq_true, if_false, pushSideEdge, hne, if_true, i2, i3, List.length_append, List.length_singleton,
      Nat.add_sub_cancel]

end

end Idc
