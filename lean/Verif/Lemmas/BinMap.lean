import Verif.Model.Archive
import Verif.Lemmas.Bytes
import Verif.Spec.BinMap

namespace Idc

/-- `p` reads a fixed-size record: if there are `n` bytes and they are valid it succeeds with `f`,
otherwise it is a recoverable error or out of input. -/
def Rec {α : Type} (p : Parser α) (n : Nat) (okp : Bytes → Prop) (f : Bytes → α) : Prop :=
  ∀ i : Bytes, (n ≤ i.length → okp i → p i = .ok (i.drop n) (f i)) ∧
    (¬ (n ≤ i.length ∧ okp i) → (∃ k, p i = .err (.incomplete k)) ∨ ∃ c, p i = .err (.error c))

theorem Rec.bind {α β : Type} {p : Parser α} {q : α → Parser β} {n m : Nat} {okp okq : Bytes → Prop}
    {f : Bytes → α} {g : α → Bytes → β} (hp : Rec p n okp f) (hq : ∀ a, Rec (q a) m okq (g a)) :
    Rec (p >>= q) (n + m) (fun i => okp i ∧ okq (i.drop n)) (fun i => g (f i) (i.drop n)) := by
  intro i
  constructor
  · rintro hl ⟨h1, h2⟩
    rw [Parser.bind_def, (hp i).1 (by omega) h1]
    dsimp only
    rw [((hq (f i)) (i.drop n)).1 (by simp; omega) h2]
    simp
  · intro h
    by_cases h1 : n ≤ i.length ∧ okp i
    · rw [Parser.bind_def, (hp i).1 h1.1 h1.2]
      dsimp only
      apply ((hq (f i)) (i.drop n)).2
      rintro ⟨h2, h3⟩
      apply h
      simp only [List.length_drop] at h2
      exact ⟨by omega, h1.2, h3⟩
    · rcases (hp i).2 h1 with ⟨k, hk⟩ | ⟨c, hc⟩
      · exact .inl ⟨k, by rw [Parser.bind_def, hk]⟩
      · exact .inr ⟨c, by rw [Parser.bind_def, hc]⟩

theorem Rec.pure {α : Type} (a : α) : Rec (pure a : Parser α) 0 (fun _ => True) (fun _ => a) := by
  intro i
  refine ⟨fun _ _ => by simp [Parser.pure_def], fun h => absurd ⟨Nat.zero_le _, trivial⟩ h⟩

theorem Rec.congr {α : Type} {p : Parser α} {n n' : Nat} {okp okp' : Bytes → Prop} {f f' : Bytes → α}
    (h : Rec p n okp f) (hn : n = n') (ho : ∀ i, okp i ↔ okp' i) (hf : ∀ i, f i = f' i) : Rec p n' okp' f' := by
  subst hn
  have : okp = okp' := funext fun i => propext (ho i)
  have : f = f' := funext hf
  subst_vars
  exact h

theorem rec_leI16 : Rec leI16 2 (fun _ => True) (fun i => Int16.ofInt (i16At i 0)) := by
  intro i
  rw [leI16_spec]
  refine ⟨fun h _ => by rw [if_neg (by omega)], fun h => .inl ⟨2, if_pos (Nat.lt_of_not_le fun hh => h ⟨hh, trivial⟩)⟩⟩

theorem rec_leU16 : Rec leU16 2 (fun _ => True) (fun i => UInt16.ofNat (u16At i 0)) := by
  intro i
  rw [leU16_spec]
  refine ⟨fun h _ => by rw [if_neg (by omega)], fun h => .inl ⟨2, if_pos (Nat.lt_of_not_le fun hh => h ⟨hh, trivial⟩)⟩⟩

theorem rec_leU8 : Rec leU8 1 (fun _ => True) (fun i => UInt8.ofNat (byteAt i 0)) := by
  intro i
  rw [leU8_spec]
  refine ⟨fun h _ => by rw [if_neg (by omega)], fun h => .inl ⟨1, if_pos (Nat.lt_of_not_le fun hh => h ⟨hh, trivial⟩)⟩⟩

theorem rec_ascii (w : Nat) : Rec (fixedLengthAscii w) w (fun i => Printable (nameAt i 0 w)) (fun i => nameAt i 0 w) := by
  intro i
  refine ⟨fun h hp => fixedLengthAscii_ok h hp, fun h => ?_⟩
  by_cases hl : i.length < w
  · exact .inl ⟨w, fixedLengthAscii_short hl⟩
  · obtain ⟨b, bs, hb⟩ := fixedLengthAscii_bad (len := w) (i := i) (by omega) (fun hp => h ⟨by omega, hp⟩)
    exact .inr ⟨_, hb⟩

theorem rec_hexenArgs : Rec hexenArgs 5 (fun _ => True) (fun i => bytesAt i 0 5) := by
  intro i
  rcases i with _ | ⟨a, _ | ⟨b, _ | ⟨c, _ | ⟨d, _ | ⟨e, r⟩⟩⟩⟩⟩
  all_goals simp [hexenArgs, count, leU8, bytesAt]

/-- Reading from a suffix is reading at an offset. -/
def DropOk {α : Sort u} (f : Bytes → Nat → α) : Prop := ∀ b n o, f (b.drop n) o = f b (n + o)

theorem many0_rec {α : Type} {p : Parser α} {n : Nat} {okp : Bytes → Nat → Prop} {f : Bytes → Nat → α}
    (hn : 0 < n) (hp : Rec p n (okp · 0) (f · 0)) (hok : DropOk okp) (hf : DropOk f) (b : Bytes) :
    ∃ k, LongestRun n okp b k ∧ many0 (complete p) b = .ok (b.drop (k * n)) (records n f b k) := by
  induction hb : b.length using Nat.strongRecOn generalizing b with
  | ind L ih =>
    subst hb
    by_cases h : n ≤ b.length ∧ okp b 0
    · obtain ⟨k, hk, hm⟩ := ih (b.drop n).length (by simp; omega) (b.drop n) rfl
      have e : ∀ j, n + j * n = (j + 1) * n := fun j => by rw [Nat.succ_mul]; omega
      refine ⟨k + 1, ⟨?_, ?_, ?_⟩, ?_⟩
      · intro j hj
        rcases j with _ | j
        · simpa using h.1
        · have := hk.fits j (by omega)
          rw [List.length_drop] at this
          rw [Nat.succ_mul]; omega
      · intro j hj
        rcases j with _ | j
        · simpa using h.2
        · have := hk.valid j (by omega)
          rwa [hok, e] at this
      · intro hh
        apply hk.stops
        rw [List.length_drop, hok, e]
        exact ⟨by have := hh.1; rw [Nat.succ_mul] at this; omega, hh.2⟩
      · unfold many0
        have hc : complete p b = .ok (b.drop n) (f b 0) := by simp [complete, (hp b).1 h.1 h.2]
        rw [hc]
        simp only
        rw [dif_pos (by simp; omega), hm]
        simp only [records]
        rw [List.range_succ_eq_map, List.map_cons, List.map_map]
        congr 1
        · rw [List.drop_drop, e]
        · congr 1
          · simp
          · apply List.map_congr_left
            intro j _
            simp only [Function.comp]
            rw [hf b n (j * n), e]
    · refine ⟨0, ⟨by intro j hj; omega, by intro j hj; omega, by simpa using h⟩, ?_⟩
      unfold many0
      rcases (hp b).2 h with ⟨k, hk⟩ | ⟨c, hc⟩
      · have : complete p b = .err (.error (.code b .complete)) := by simp [complete, hk]
        rw [this]; simp [records]
      · have : complete p b = .err (.error c) := by simp [complete, hc]
        rw [this]; simp [records]

theorem longestRun_true {b : Bytes} {n k : Nat} (hn : 0 < n) (h : LongestRun n (fun _ _ => True) b k) :
    k = b.length / n := by
  have h1 := h.stops
  simp only [and_true, Nat.not_le] at h1
  have h2 : k * n ≤ b.length := by
    rcases k with _ | k
    · simp
    · exact h.fits k (by omega)
  apply Eq.symm
  apply Nat.div_eq_of_lt_le
  · rw [Nat.mul_comm] at h2; rw [Nat.mul_comm]; exact h2
  · exact h1

theorem longestRun_unique {b : Bytes} {n k k' : Nat} {okp : Bytes → Nat → Prop} (h : LongestRun n okp b k)
    (h' : LongestRun n okp b k') : k = k' := by
  apply Nat.le_antisymm
  · exact Nat.le_of_not_lt fun hlt => h'.stops ⟨h.fits k' hlt, h.valid k' hlt⟩
  · exact Nat.le_of_not_lt fun hlt => h.stops ⟨h'.fits k hlt, h'.valid k hlt⟩

/-! ### The record parsers -/

theorem rec_doomThing : Rec doomThing 10 (fun _ => True) (doomThingAt · 0) := by
  unfold doomThing
  refine ((rec_leI16.bind fun x => rec_leI16.bind fun y => rec_leI16.bind fun a => rec_leI16.bind fun d =>
    rec_leU16.bind fun fl => Rec.pure _)).congr (by rfl) (by simp) ?_
  intro i; simp [doomThingAt]

theorem rec_hexenThing : Rec hexenThing 20 (fun _ => True) (hexenThingAt · 0) := by
  unfold hexenThing
  refine ((rec_leI16.bind fun _ => rec_leI16.bind fun _ => rec_leI16.bind fun _ => rec_leI16.bind fun _ =>
    rec_leI16.bind fun _ => rec_leI16.bind fun _ => rec_leU16.bind fun _ => rec_leU8.bind fun _ =>
    rec_hexenArgs.bind fun _ => Rec.pure _)).congr (by rfl) (by simp) ?_
  intro i; simp [hexenThingAt]

theorem rec_doomLine : Rec doomLine 14 (fun _ => True) (doomLineAt · 0) := by
  unfold doomLine
  refine ((rec_leI16.bind fun _ => rec_leI16.bind fun _ => rec_leI16.bind fun _ => rec_leI16.bind fun _ =>
    rec_leI16.bind fun _ => rec_leI16.bind fun _ => rec_leI16.bind fun _ => Rec.pure _)).congr (by rfl) (by simp) ?_
  intro i; simp [doomLineAt]

theorem rec_hexenLine : Rec hexenLine 16 (fun _ => True) (hexenLineAt · 0) := by
  unfold hexenLine
  refine ((rec_leI16.bind fun _ => rec_leI16.bind fun _ => rec_leI16.bind fun _ => rec_leU8.bind fun _ =>
    rec_hexenArgs.bind fun _ => rec_leI16.bind fun _ => rec_leI16.bind fun _ => Rec.pure _)).congr (by rfl) (by simp) ?_
  intro i; simp [hexenLineAt]

theorem rec_side : Rec side 30 (SideOk · 0) (sideAt · 0) := by
  unfold side
  refine ((rec_leI16.bind fun _ => rec_leI16.bind fun _ => (rec_ascii 8).bind fun _ => (rec_ascii 8).bind fun _ =>
    (rec_ascii 8).bind fun _ => rec_leI16.bind fun _ => Rec.pure _)).congr (by rfl) ?_ ?_
  · intro i; simp [SideOk]
  · intro i; simp [sideAt]

theorem rec_vertex : Rec vertex 4 (fun _ => True) (vertexAt · 0) := by
  unfold vertex
  refine ((rec_leI16.bind fun _ => rec_leI16.bind fun _ => Rec.pure _)).congr (by rfl) (by simp) ?_
  intro i; simp [vertexAt]

theorem rec_sector : Rec sector 26 (SectorOk · 0) (sectorAt · 0) := by
  unfold sector
  refine ((rec_leI16.bind fun _ => rec_leI16.bind fun _ => (rec_ascii 8).bind fun _ => (rec_ascii 8).bind fun _ =>
    rec_leI16.bind fun _ => rec_leI16.bind fun _ => rec_leI16.bind fun _ => Rec.pure _)).congr (by rfl) ?_ ?_
  · intro i; simp [SectorOk]
  · intro i; simp [sectorAt]

end Idc
