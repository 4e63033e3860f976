/-!
# `lib/definitions.[ch]` and `get_bit` of `lib/utils.c`

Words are arrays of 32 C `int`s, one per bit. This file models the C loops
literally, with undefined behaviour as the outcome `none`, and relates them to
`BitVec 32`, which the rest of the model uses for words.
-/
namespace Mpp

/-- A C `int` (32-bit two's complement; read through `BitVec.toInt`). -/
abbrev CInt := BitVec 32

/-- A word all of whose bits are 0 or 1, packed. -/
abbrev W := BitVec 32

/-- `definitions.h:15-17` (`typedef struct { int bits[WORD_SIZE_BIT]; } Word;`). -/
structure CWord where
  bits : Fin 32 → CInt

@[ext] theorem CWord.ext {a b : CWord} (h : ∀ i, a.bits i = b.bits i) : a = b := by
  cases a; cases b; simp only [CWord.mk.injEq]; funext i; exact h i

/-- `v << 1` on a C `int`: undefined when `v` is negative or the result is not representable. -/
def shl1 (v : CInt) : Option CInt :=
  if v.toInt < 0 ∨ 2 * v.toInt ≥ 2 ^ 31 then none else some (v <<< 1)

/-- Loop of `word_to_int` (`definitions.c:19-21`); `n` is `i + 1`, the number of bits left. -/
def wordToIntLoop (w : CWord) : Nat → CInt → Option CInt
  | 0, v => some v
  | n + 1, v =>
    match shl1 v with
    | none => none
    | some s => wordToIntLoop w n (s ||| w.bits (Fin.ofNat 32 n))

/-- `word_to_int` (`definitions.c:17-24`). -/
def cWordToInt (w : CWord) : Option CInt := wordToIntLoop w 31 (w.bits 31)

/-- `get_bit` (`utils.c:38-40`); arithmetic right shift, defined for `k < 32`. -/
def getBit (n : CInt) (k : Nat) : CInt := (n.sshiftRight k) &&& 1

/-- `initialize_word` (`definitions.c:53-57`). -/
def initializeWord (value : CInt) : CWord := ⟨fun _ => value⟩

/-- `w.bits[i] = v` for a constant `i < 32`. -/
def CWord.set (w : CWord) (i : Fin 32) (v : CInt) : CWord :=
  ⟨fun j => if j = i then v else w.bits j⟩

/-- Loop of `int_to_word` (`definitions.c:29-31`): `n` iterations left, at index `32 - n`. -/
def intToWordLoop (value : CInt) : Nat → CWord → CWord
  | 0, w => w
  | n + 1, w => intToWordLoop value n (w.set (Fin.ofNat 32 (31 - n)) (getBit value (31 - n)))

/-- `int_to_word` (`definitions.c:26-34`). -/
def cIntToWord (value : CInt) : CWord := intToWordLoop value 32 (initializeWord 0)

/-- Loop of `get_used_bits` (`definitions.c:37-41`), index `n - 1` next. -/
def usedBitsLoop (w : CWord) : Nat → Nat
  | 0 => 0
  | n + 1 => if w.bits (Fin.ofNat 32 n) = 1 then n + 1 else usedBitsLoop w n

/-- `get_used_bits` (`definitions.c:36-44`). -/
def cUsedBits (w : CWord) : Nat := usedBitsLoop w 32

/-! ## Packed words -/

/-- The array of ints that a packed word stands for. -/
def unpack (v : W) : CWord := ⟨fun i => if v.getLsbD i then 1 else 0⟩

/-- Packed `word_to_int`: undefined when bit 31 is set. -/
def wordToInt (w : W) : Option CInt := if w.msb then none else some w

/-- Packed `get_used_bits`. -/
def usedBits (w : W) : Nat := if w = 0 then 0 else Nat.log2 w.toNat + 1

/-- Packed `w.bits[i] = b`. -/
def setBit (w : W) (i : Nat) (b : Bool) : W :=
  if b then w ||| (1#32 <<< i) else w &&& ~~~(1#32 <<< i)

theorem getLsbD_setBit (w : W) (i : Nat) (b : Bool) (j : Nat) (hi : i < 32) :
    (setBit w i b).getLsbD j = if j = i then b else w.getLsbD j := by
  unfold setBit
  have h1 : (1#32 <<< i).getLsbD j = decide (j = i) := by
    simp only [BitVec.getLsbD_shiftLeft, BitVec.getLsbD_one]
    by_cases h : j = i
    · subst h; simp [hi]
    · simp only [h, decide_false]
      by_cases h2 : j < i
      · simp [h2]
      · have : j - i ≠ 0 := by omega
        simp [this]
  by_cases hj : j < 32
  · cases b
    · simp only [Bool.false_eq_true, if_false, BitVec.getLsbD_and, BitVec.getLsbD_not, h1, hj,
        decide_true, Bool.true_and]
      by_cases h : j = i <;> simp [h]
    · simp only [if_true, BitVec.getLsbD_or, h1]
      by_cases h : j = i <;> simp [h]
  · have hne : j ≠ i := by omega
    simp only [hne, if_false]
    rw [BitVec.getLsbD_of_ge _ _ (by omega), BitVec.getLsbD_of_ge _ _ (by omega)]

/-! ## The packed operations agree with the C loops -/

theorem usedBits_le (w : W) (k : Nat) : usedBits w ≤ k ↔ w.toNat < 2 ^ k := by
  unfold usedBits
  split
  · rename_i h; subst h; simp [Nat.two_pow_pos]
  · rename_i h
    have h0 : w.toNat ≠ 0 := by
      intro e; apply h; apply BitVec.eq_of_toNat_eq; simpa using e
    rw [← Nat.log2_lt h0]; omega

theorem getBit_eq (v : CInt) (k : Nat) (hk : k < 32) :
    getBit v k = if v.getLsbD k then 1 else 0 := by
  unfold getBit
  apply BitVec.eq_of_getLsbD_eq
  intro j hj
  simp only [BitVec.getLsbD_and, BitVec.getLsbD_sshiftRight]
  by_cases h0 : j = 0
  · subst h0
    cases hb : v.getLsbD k <;> simp_all
  · cases hb : v.getLsbD k <;> simp [h0]

theorem intToWordLoop_bits (v : CInt) (n : Nat) (hn : n ≤ 32) (w : CWord) (i : Fin 32) :
    (intToWordLoop v n w).bits i = if 32 - n ≤ i.val then getBit v i else w.bits i := by
  induction n generalizing w with
  | zero => simp [intToWordLoop]; omega
  | succ n ih =>
    rw [intToWordLoop, ih (by omega)]
    have e : (Fin.ofNat 32 (31 - n)).val = 31 - n := by simp; omega
    simp only [CWord.set]
    by_cases h1 : 32 - n ≤ i.val
    · simp [h1]; omega
    · by_cases h2 : i = Fin.ofNat 32 (31 - n)
      · have : i.val = 31 - n := by rw [h2, e]
        rw [if_neg h1, if_pos h2, if_pos (by omega), this]
      · have : i.val ≠ 31 - n := by
          intro h; apply h2; apply Fin.ext; rw [e, h]
        simp only [h1, h2, if_false]
        rw [if_neg (by omega)]

/-- `int_to_word` on the array representation is packing. -/
theorem cIntToWord_eq (v : CInt) : cIntToWord v = unpack v := by
  apply CWord.ext
  intro i
  rw [cIntToWord, intToWordLoop_bits _ _ (Nat.le_refl _)]
  simp [unpack, getBit_eq v i.val i.isLt]

theorem shl1_eq (v : CInt) : shl1 v = if v.toNat < 2 ^ 30 then some (v <<< 1) else none := by
  unfold shl1
  have := v.isLt
  by_cases h : v.toNat < 2 ^ 30
  · have ht : v.toInt = v.toNat := by rw [BitVec.toInt_eq_toNat_cond]; split <;> omega
    rw [if_neg (by omega), if_pos h]
  · by_cases h2 : v.toNat < 2 ^ 31
    · have ht : v.toInt = v.toNat := by rw [BitVec.toInt_eq_toNat_cond]; split <;> omega
      rw [if_pos (by omega), if_neg h]
    · have ht : v.toInt = v.toNat - 2 ^ 32 := by
        rw [BitVec.toInt_eq_toNat_cond]; split <;> omega
      rw [if_pos (by omega), if_neg h]

theorem shift_in (v : W) (n : Nat) :
    ((v >>> (n + 1)) <<< 1 ||| (if v.getLsbD n then 1 else 0) : W) = v >>> n := by
  apply BitVec.eq_of_getLsbD_eq
  intro j hj
  simp only [BitVec.getLsbD_or, BitVec.getLsbD_shiftLeft, BitVec.getLsbD_ushiftRight]
  cases j with
  | zero => cases v.getLsbD n <;> simp
  | succ j =>
    have : n + 1 + j = n + (j + 1) := by omega
    cases hb : v.getLsbD n <;> simp [this, BitVec.getLsbD_one] <;> omega

theorem wordToIntLoop_ok (v : W) (n : Nat) (hn : n ≤ 31) (h : v.msb = false) :
    wordToIntLoop (unpack v) n (v >>> n) = some v := by
  induction n with
  | zero => simp [wordToIntLoop]
  | succ n ih =>
    rw [wordToIntLoop, shl1_eq]
    have hv : v.toNat < 2 ^ 31 := by
      have := BitVec.msb_eq_decide v; rw [h] at this; simp at this; exact this
    have : (v >>> (n + 1)).toNat < 2 ^ 30 := by
      rw [BitVec.toNat_ushiftRight, Nat.shiftRight_eq_div_pow, Nat.div_lt_iff_lt_mul (Nat.two_pow_pos _)]
      calc v.toNat < 2 ^ 31 := hv
        _ ≤ 2 ^ 30 * 2 ^ (n + 1) := by
          rw [← Nat.pow_add]; exact Nat.pow_le_pow_right (by omega) (by omega)
    rw [if_pos this]
    simp only [unpack]
    have e : (Fin.ofNat 32 n).val = n := by simp; omega
    rw [e, shift_in v n]
    exact ih (by omega)

theorem wordToIntLoop_ub (v : W) (n : Nat) (hn : n ≤ 31) (h0 : 0 < n) (h : v.msb = true) :
    wordToIntLoop (unpack v) n (v >>> n) = none := by
  induction n with
  | zero => omega
  | succ n ih =>
    rw [wordToIntLoop, shl1_eq]
    by_cases hs : (v >>> (n + 1)).toNat < 2 ^ 30
    · rw [if_pos hs]
      simp only [unpack]
      have e : (Fin.ofNat 32 n).val = n := by simp; omega
      rw [e, shift_in v n]
      by_cases hn0 : n = 0
      · subst hn0
        exfalso
        have hv : 2 ^ 31 ≤ v.toNat := by
          have := BitVec.msb_eq_decide v; rw [h] at this; simpa using this
        rw [BitVec.toNat_ushiftRight, Nat.shiftRight_eq_div_pow] at hs
        omega
      · exact ih (by omega) (by omega)
    · rw [if_neg hs]

/-- `word_to_int` on the array representation: the packed value, undefined exactly when bit 31
is set. -/
theorem cWordToInt_unpack (v : W) : cWordToInt (unpack v) = wordToInt v := by
  have hm : (unpack v).bits 31 = v >>> 31 := by
    have h0 : (v >>> (31 + 1) : W) = 0 := by
      apply BitVec.eq_of_getLsbD_eq
      intro j hj
      simp [BitVec.getLsbD_ushiftRight]
    have := shift_in v 31
    rw [h0] at this
    rw [← this]
    show (if v.getLsbD 31 then (1 : W) else 0) = _
    simp
  rw [cWordToInt, hm, wordToInt]
  cases h : v.msb
  · simpa using wordToIntLoop_ok v 31 (by omega) h
  · simpa using wordToIntLoop_ub v 31 (by omega) (by omega) h

theorem usedBitsLoop_spec (v : W) (n : Nat) (hn : n ≤ 32) :
    usedBitsLoop (unpack v) n ≤ n ∧
    (∀ j, usedBitsLoop (unpack v) n ≤ j → j < n → v.getLsbD j = false) ∧
    (∀ k, usedBitsLoop (unpack v) n = k + 1 → v.getLsbD k = true) := by
  induction n with
  | zero => simp [usedBitsLoop]
  | succ n ih =>
    have e : (Fin.ofNat 32 n).val = n := by simp; omega
    have hb : (unpack v).bits (Fin.ofNat 32 n) = if v.getLsbD n then 1 else 0 := by
      simp only [unpack]; rw [e]
    rw [usedBitsLoop, hb]
    cases h : v.getLsbD n
    · simp only [Bool.false_eq_true, if_false]
      rw [if_neg (by decide)]
      obtain ⟨a, b, c⟩ := ih (by omega)
      refine ⟨by omega, ?_, c⟩
      intro j h1 h2
      by_cases hj : j = n
      · rw [hj]; exact h
      · exact b j h1 (by omega)
    · simp only [if_true]
      refine ⟨Nat.le_refl _, by omega, ?_⟩
      intro k hk
      have : k = n := by omega
      rw [this]; exact h

/-- `get_used_bits` on the array representation. -/
theorem cUsedBits_unpack (v : W) : cUsedBits (unpack v) = usedBits v := by
  obtain ⟨a, b, c⟩ := usedBitsLoop_spec v 32 (Nat.le_refl _)
  have h1 : usedBits v ≤ cUsedBits (unpack v) := by
    rw [usedBits_le]
    apply Nat.lt_pow_two_of_testBit
    intro i hi
    rw [BitVec.testBit_toNat]
    by_cases hi32 : i < 32
    · exact b i hi hi32
    · exact BitVec.getLsbD_of_ge _ _ (by omega)
  apply Nat.le_antisymm _ h1
  cases hu : cUsedBits (unpack v) with
  | zero => omega
  | succ k =>
    have hk := c k hu
    by_cases hlt : usedBits v ≤ k
    · rw [usedBits_le] at hlt
      have := Nat.testBit_lt_two_pow hlt
      rw [BitVec.testBit_toNat, hk] at this
      cases this
    · omega

end Mpp
