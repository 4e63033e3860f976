import Verif.Utils
/-!
# Property C72: the helpers of `lib/utils.c`
-/
namespace Mpp

theorem numDigitsLoop_spec (n : Int) (c : Nat) : ∃ d, numDigitsLoop n c = c + d ∧ n.natAbs < 10 ^ d ∧
    (n ≠ 0 → 0 < d ∧ 10 ^ (d - 1) ≤ n.natAbs) := by
  induction h : n.natAbs using Nat.strongRecOn generalizing n c with
  | ind m ih =>
    subst h
    rw [numDigitsLoop]
    by_cases hn : n = 0
    · subst hn
      exact ⟨0, by simp, by decide, fun h => absurd rfl h⟩
    · rw [if_neg hn]
      have e : (n.tdiv 10).natAbs = n.natAbs / 10 := Int.natAbs_tdiv _ _
      obtain ⟨d, h1, h2, h3⟩ := ih _ (by rw [e]; exact Nat.div_lt_self (by omega) (by decide)) (n.tdiv 10) (c + 1) rfl
      refine ⟨d + 1, by rw [h1]; omega, ?_, fun _ => ⟨by omega, ?_⟩⟩
      · rw [e] at h2
        rw [Nat.pow_succ]
        omega
      · show 10 ^ d ≤ _
        by_cases h0 : n.tdiv 10 = 0
        · rw [h0] at h1
          have : d = 0 := by
            rw [numDigitsLoop, if_pos rfl] at h1; omega
          subst this
          show 1 ≤ _
          omega
        · obtain ⟨p, q⟩ := h3 h0
          rw [e] at q
          obtain ⟨d', rfl⟩ : ∃ d', d = d' + 1 := ⟨d - 1, by omega⟩
          rw [Nat.pow_succ]
          have : d' + 1 - 1 = d' := rfl
          rw [this] at q
          omega

/-- **C72.** `get_num_digits` counts the decimal digits of every number but 0. -/
theorem C72_digits_partial (n : Int) (hn : n ≠ 0) :
    0 < getNumDigits n ∧ 10 ^ (getNumDigits n - 1) ≤ n.natAbs ∧ n.natAbs < 10 ^ getNumDigits n := by
  obtain ⟨d, h1, h2, h3⟩ := numDigitsLoop_spec n 0
  have : getNumDigits n = d := by rw [getNumDigits, h1]; omega
  rw [this]
  exact ⟨(h3 hn).1, (h3 hn).2, h2⟩

example : getNumDigits (-2147483648) = 10 := by decide +kernel

/-- **C72, false.** 0 has no digits. -/
theorem C72_digits_wrong : getNumDigits 0 = 0 := by decide +kernel

/-- **C72.** `random_int(min, max)` with a positive `max` gives one of the `max` numbers from `min` on,
each of them for some result of `rand()`. -/
theorem C72_random {min max : Int} (hm : -2147483648 ≤ min) (hx : 0 < max) (hs : min + max ≤ 2147483648) :
    (∀ r, 0 ≤ r → ∃ v, randomIn r min max = some v ∧ min ≤ v ∧ v < min + max) ∧
      ∀ v, min ≤ v → v < min + max → randomIn (v - min) min max = some v := by
  refine ⟨fun r hr => ?_, fun v h1 h2 => ?_⟩
  · have a := Int.tmod_nonneg max hr
    have b := Int.tmod_lt_of_pos r hx
    refine ⟨r.tmod max + min, ?_, by omega, by omega⟩
    rw [randomIn, if_neg (by omega), asInt, if_pos (by omega)]
  · rw [randomIn, if_neg (by omega), Int.tmod_eq_of_lt (by omega) (by omega), asInt, if_pos (by omega)]
    congr 1
    omega

/-- **C72, false.** So `max` is no upper bound if `min` is more than 1, and is never reached if `min`
is 0, as for the cells of memory. -/
theorem C72_random_wrong : randomIn 9 5 10 = some 14 ∧ ∀ r : Int, 0 ≤ r → randomIn r 0 255 ≠ some 255 := by
  refine ⟨by decide, fun r hr => ?_⟩
  obtain ⟨v, e, _, h⟩ := (C72_random (min := 0) (max := 255) (by decide) (by decide) (by decide)).1 r hr
  rw [e]
  intro c
  have := Option.some.inj c
  omega

theorem intLog10_le (x : Nat) (h : 0 < x) : 10 ^ intLog10 x ≤ x ∧ x < 10 ^ (intLog10 x + 1) := by
  induction x using Nat.strongRecOn with
  | ind x ih =>
    rw [intLog10]
    split
    · exact ⟨by omega, by simpa⟩
    · obtain ⟨a, b⟩ := ih (x / 10) (by omega) (by omega)
      rw [Nat.pow_succ] at b ⊢
      rw [Nat.pow_succ]
      rw [Nat.pow_succ]
      omega

theorem decimal_length {n k : Nat} (h : n < 10 ^ (k + 1)) : (decimal n).length ≤ k + 1 := by
  induction k generalizing n with
  | zero => rw [decimal, if_pos (by simpa using h)]; simp
  | succ k ih =>
    rw [decimal]
    split
    · simp
    · rw [List.length_append]
      have := ih (n := n / 10) (by rw [Nat.pow_succ] at h; omega)
      simp only [List.length_cons, List.length_nil]
      omega

/-- The number written with these digits. -/
def readDecimal (s : List Char) : Nat := s.foldl (fun n c => n * 10 + (c.toNat - 48)) 0

theorem digit_toNat : ∀ d < 10, (Char.ofNat (48 + d)).toNat = 48 + d := by decide

theorem decimal_spec (n : Nat) : readDecimal (decimal n) = n ∧ (∀ c ∈ decimal n, '0' ≤ c ∧ c ≤ '9') ∧
    ((decimal n).head? = some '0' → n = 0) := by
  have dig : ∀ d < 10, '0' ≤ Char.ofNat (48 + d) ∧ Char.ofNat (48 + d) ≤ '9' ∧ (Char.ofNat (48 + d) = '0' → d = 0) := by
    decide
  induction n using Nat.strongRecOn with
  | ind n ih =>
    rw [decimal]
    split
    · rename_i h
      refine ⟨?_, ?_, ?_⟩
      · simp only [readDecimal, List.foldl_cons, List.foldl_nil]
        rw [digit_toNat n h]; omega
      · intro c hc
        rw [List.mem_singleton.1 hc]
        exact ⟨(dig n h).1, (dig n h).2.1⟩
      · intro e
        exact (dig n h).2.2 (by simpa using e)
    · rename_i h
      obtain ⟨a, b, c⟩ := ih (n / 10) (by omega)
      refine ⟨?_, ?_, ?_⟩
      · rw [readDecimal, List.foldl_append]
        simp only [List.foldl_cons, List.foldl_nil]
        rw [digit_toNat _ (by omega)]
        show readDecimal (decimal (n / 10)) * 10 + _ = n
        rw [a]; omega
      · intro x hx
        rcases List.mem_append.1 hx with hx | hx
        · exact b x hx
        · rw [List.mem_singleton.1 hx]
          exact ⟨(dig _ (by omega)).1, (dig _ (by omega)).2.1⟩
      · intro e
        have ne : decimal (n / 10) ≠ [] := by
          rw [decimal]; split <;> simp
        have := c (by
          cases hd : decimal (n / 10) with
          | nil => exact absurd hd ne
          | cons x xs => rw [hd] at e; exact e)
        omega

/-- **C72.** `num_to_str` gives the digits of every number from 0 to 2147483646, without leading zeros,
and stays within its buffer. -/
theorem C72_string_partial (n : Nat) (h : n < 2147483647) : ∃ s, numToStr n = some s ∧ readDecimal s = n ∧
    (∀ c ∈ s, '0' ≤ c ∧ c ≤ '9') ∧ s ≠ [] ∧ (s.head? = some '0' → s = ['0']) := by
  obtain ⟨d1, d2, d3⟩ := decimal_spec n
  refine ⟨decimal n, ?_, d1, d2, ?_, ?_⟩
  · rw [numToStr, asInt, if_pos (by omega)]
    simp only
    rw [if_neg (by omega)]
    have e : ((n : Int) + 1).toNat = n + 1 := by omega
    have l := intLog10_le (n + 1) (by omega)
    have len := decimal_length (n := n) (k := intLog10 (n + 1)) (by omega)
    rw [e, Int.toNat_natCast, snprintfD, if_neg (by omega), if_pos (by omega), if_pos (by omega)]
  · rw [decimal]; split <;> simp
  · intro e
    rw [d3 e]
    decide +kernel

example : numToStr 999 = some "999".toList ∧ numToStr 1000 = some "1000".toList := by decide +kernel

/-- **C72, false.** For all other numbers its behaviour is undefined. -/
theorem C72_string_wrong (n : Int) (h : n < 0 ∨ 2147483647 ≤ n) : numToStr n = none := by
  rw [numToStr, asInt]
  by_cases hn : -2147483648 ≤ n + 1 ∧ n + 1 ≤ 2147483647
  · rw [if_pos hn]
    simp only
    rw [if_pos (by omega)]
  · rw [if_neg hn]

/-- **C72.** `get_bit` gives the binary digits, also of negative numbers in two's complement. -/
theorem C72_bit (n : CInt) (k : Nat) (hk : k < 32) : getBit n k = if n.toNat.testBit k then 1 else 0 := by
  rw [getBit_eq n k hk, BitVec.testBit_toNat]

end Mpp
