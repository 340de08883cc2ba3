import Verif.Spec.Bytes
import Verif.Model.Nom
import Verif.Model.Wad
/-! Lemmas linking the nom primitives to positional reading. -/

namespace Idc

theorem byteAt_lt (b : Bytes) (i : Nat) : byteAt b i < 256 := by
  unfold byteAt; exact UInt8.toNat_lt _

theorem u16At_lt (b : Bytes) (i : Nat) : u16At b i < 65536 := by
  have h1 := byteAt_lt b i; have h2 := byteAt_lt b (i+1); unfold u16At; omega

theorem u32At_lt (b : Bytes) (i : Nat) : u32At b i < 4294967296 := by
  have h1 := byteAt_lt b i; have h2 := byteAt_lt b (i+1)
  have h3 := byteAt_lt b (i+2); have h4 := byteAt_lt b (i+3); unfold u32At; omega

@[simp] theorem byteAt_drop (b : Bytes) (n i : Nat) : byteAt (b.drop n) i = byteAt b (n + i) := by
  simp [byteAt]

@[simp] theorem u16At_drop (b : Bytes) (n i : Nat) : u16At (b.drop n) i = u16At b (n + i) := by
  simp [u16At, Nat.add_assoc]

@[simp] theorem i16At_drop (b : Bytes) (n i : Nat) : i16At (b.drop n) i = i16At b (n + i) := by
  simp [i16At]

@[simp] theorem u32At_drop (b : Bytes) (n i : Nat) : u32At (b.drop n) i = u32At b (n + i) := by
  simp [u32At, Nat.add_assoc]

@[simp] theorem i32At_drop (b : Bytes) (n i : Nat) : i32At (b.drop n) i = i32At b (n + i) := by
  simp [i32At]

@[simp] theorem bytesAt_drop (b : Bytes) (n i w : Nat) :
    bytesAt (b.drop n) i w = bytesAt b (n + i) w := by
  simp [bytesAt]

@[simp] theorem nameAt_drop (b : Bytes) (n i w : Nat) :
    nameAt (b.drop n) i w = nameAt b (n + i) w := by
  simp [nameAt]

theorem leU8_spec (i : Bytes) :
    leU8 i = if i.length < 1 then .err (.incomplete 1) else .ok (i.drop 1) (UInt8.ofNat (byteAt i 0)) := by
  rcases i with _ | ⟨a, r⟩ <;> simp [leU8, byteAt]

theorem leU16_spec (i : Bytes) :
    leU16 i = if i.length < 2 then .err (.incomplete 2) else .ok (i.drop 2) (UInt16.ofNat (u16At i 0)) := by
  rcases i with _ | ⟨a, _ | ⟨b, r⟩⟩ <;> simp [leU16, u16At, byteAt]

theorem toInt_u16At (i : Bytes) (k : Nat) : (UInt16.ofNat (u16At i k)).toInt16 = Int16.ofInt (i16At i k) := by
  have h := u16At_lt i k
  unfold i16At
  apply Int16.toInt_inj.mp
  rw [Int16.toInt_ofInt]
  show (BitVec.toInt _) = _
  simp only [UInt16.toInt16, Int16.toBitVec, UInt16.ofNat]
  rw [BitVec.toInt_eq_toNat_bmod, BitVec.toNat_ofNat]
  generalize u16At i k = v at *
  simp only [Int.bmod_def, Int16.size]
  split <;> omega

theorem toInt_u32At (i : Bytes) (k : Nat) : (UInt32.ofNat (u32At i k)).toInt32 = Int32.ofInt (i32At i k) := by
  have h := u32At_lt i k
  unfold i32At
  apply Int32.toInt_inj.mp
  rw [Int32.toInt_ofInt]
  show (BitVec.toInt _) = _
  simp only [UInt32.toInt32, Int32.toBitVec, UInt32.ofNat]
  rw [BitVec.toInt_eq_toNat_bmod, BitVec.toNat_ofNat]
  generalize u32At i k = v at *
  simp only [Int.bmod_def, Int32.size]
  split <;> omega

theorem leI16_spec (i : Bytes) :
    leI16 i = if i.length < 2 then .err (.incomplete 2) else .ok (i.drop 2) (Int16.ofInt (i16At i 0)) := by
  rw [← toInt_u16At]
  rcases i with _ | ⟨a, _ | ⟨b, r⟩⟩ <;> simp [leI16, u16At, byteAt]

theorem leU32_spec (i : Bytes) :
    leU32 i = if i.length < 4 then .err (.incomplete 4) else .ok (i.drop 4) (UInt32.ofNat (u32At i 0)) := by
  rcases i with _ | ⟨a, _ | ⟨b, _ | ⟨c, _ | ⟨d, r⟩⟩⟩⟩ <;> simp [leU32, u32At, byteAt]

theorem leI32_spec (i : Bytes) :
    leI32 i = if i.length < 4 then .err (.incomplete 4) else .ok (i.drop 4) (Int32.ofInt (i32At i 0)) := by
  rw [← toInt_u32At]
  rcases i with _ | ⟨a, _ | ⟨b, _ | ⟨c, _ | ⟨d, r⟩⟩⟩⟩ <;> simp [leI32, u32At, byteAt]

@[simp] theorem i16At_range (i : Bytes) (k : Nat) : -32768 ≤ i16At i k ∧ i16At i k ≤ 32767 := by
  have h := u16At_lt i k; unfold i16At; split <;> omega

@[simp] theorem toInt_ofInt_i16At (i : Bytes) (k : Nat) : (Int16.ofInt (i16At i k)).toInt = i16At i k := by
  have h := i16At_range i k
  rw [Int16.toInt_ofInt, Int.bmod_def]; simp only [Int16.size]; split <;> omega

theorem i32At_range (i : Bytes) (k : Nat) : -2147483648 ≤ i32At i k ∧ i32At i k ≤ 2147483647 := by
  have h := u32At_lt i k; unfold i32At; split <;> omega

@[simp] theorem toInt_ofInt_i32At (i : Bytes) (k : Nat) : (Int32.ofInt (i32At i k)).toInt = i32At i k := by
  have h := i32At_range i k
  rw [Int32.toInt_ofInt, Int.bmod_def]; simp only [Int32.size]; split <;> omega

@[simp] theorem toNat_ofNat_u32At (i : Bytes) (k : Nat) : (UInt32.ofNat (u32At i k)).toNat = u32At i k := by
  have h := u32At_lt i k
  simp; omega

@[simp] theorem toNat_ofNat_u16At (i : Bytes) (k : Nat) : (UInt16.ofNat (u16At i k)).toNat = u16At i k := by
  have h := u16At_lt i k
  simp; omega

/-! ### fixed_length_ascii -/

theorem asciiGo_spec (orig : Bytes) (len : Nat) (before : Bytes) (k : Nat) (l : Bytes)
    (hk : k ≤ l.length) :
    (Printable ((l.take k).takeWhile fun c => c != 0) →
      asciiGo orig len before k l = .ok (orig.drop len) (before ++ (l.take k).takeWhile fun c => c != 0)) ∧
    (¬ Printable ((l.take k).takeWhile fun c => c != 0) →
      ∃ b bs, asciiGo orig len before k l = .err (.error (.code (b :: bs) (.custom 0)))) := by
  induction k generalizing before l with
  | zero => simp [asciiGo, Printable]
  | succ k ih =>
    rcases l with _ | ⟨b, bs⟩
    · simp at hk
    · simp only [List.length_cons, Nat.add_le_add_iff_right] at hk
      unfold asciiGo
      by_cases hb : b = 0
      · subst hb; simp [Printable]
      · have hb' : (b != 0) = true := by simp [hb]
        simp only [hb, if_false, List.take_succ_cons, List.takeWhile_cons, hb', if_true]
        by_cases hp : 32 ≤ b.toNat ∧ b.toNat ≤ 126
        · simp only [hp, and_self, if_true]
          have := ih (before ++ [b]) bs hk
          constructor
          · intro h
            rw [this.1 (fun c hc => h c (List.mem_cons_of_mem _ hc))]
            simp
          · intro h
            apply this.2
            intro hh; apply h
            intro c hc
            rcases List.mem_cons.mp hc with rfl | hc
            · exact hp
            · exact hh c hc
        · rw [if_neg hp]
          constructor
          · intro h; exact absurd (h b (by simp)) hp
          · intro _; exact ⟨b, bs, rfl⟩

theorem fixedLengthAscii_short {len : Nat} {i : Bytes} (h : i.length < len) :
    fixedLengthAscii len i = .err (.incomplete len) := by
  simp [fixedLengthAscii, h]

theorem fixedLengthAscii_ok {len : Nat} {i : Bytes} (h : len ≤ i.length)
    (hp : Printable (nameAt i 0 len)) :
    fixedLengthAscii len i = .ok (i.drop len) (nameAt i 0 len) := by
  unfold fixedLengthAscii
  rw [if_neg (by omega)]
  have := (asciiGo_spec i len [] len i h).1
  simp only [nameAt, bytesAt, List.drop_zero] at hp ⊢
  simpa using this hp

theorem fixedLengthAscii_bad {len : Nat} {i : Bytes} (h : len ≤ i.length)
    (hp : ¬ Printable (nameAt i 0 len)) :
    ∃ b bs, fixedLengthAscii len i = .err (.error (.code (b :: bs) (.custom 0))) := by
  unfold fixedLengthAscii
  rw [if_neg (by omega)]
  have := (asciiGo_spec i len [] len i h).2
  simp only [nameAt, bytesAt, List.drop_zero] at hp ⊢
  exact this hp

end Idc
