import Verif.Front.Table
import Mathlib.Data.List.Induction
/-!
# Hexadecimal numbers
-/
namespace Mpp.Front

theorem digitValue_eq (c : Char) : digitValue c = hexDigit c := by
  by_cases h : c ∈ "0123456789abcdefABCDEF".toList
  · revert c
    decide +kernel
  · have h1 : digitValue c = none := by
      have a : c ∉ "0123456789abcdef".toList := fun h' => h (by simp at h' ⊢; tauto)
      have b : c ∉ "0123456789ABCDEF".toList := fun h' => h (by simp at h' ⊢; tauto)
      simp only [digitValue]
      rw [List.idxOf?_eq_none_iff.2 a, List.idxOf?_eq_none_iff.2 b]; rfl
    rw [h1]
    symm
    by_contra h2
    apply h
    have e : ∀ a b : Char, a ≤ b ↔ a.toNat ≤ b.toNat := fun a b => Iff.rfl
    have hc : (48 ≤ c.toNat ∧ c.toNat ≤ 57) ∨ (97 ≤ c.toNat ∧ c.toNat ≤ 102) ∨
        (65 ≤ c.toNat ∧ c.toNat ≤ 70) := by
      simp only [hexDigit, e] at h2
      by_contra h3
      apply h2
      rw [if_neg, if_neg, if_neg] <;> simp <;> omega
    have hn : c.toNat ∈ ("0123456789abcdefABCDEF".toList.map Char.toNat) := by
      simp
      omega
    obtain ⟨d, hd, he⟩ := List.mem_map.1 hn
    rw [toNat_inj] at he
    exact he ▸ hd

theorem parseHexFrom_append {s : Str} {c : Char} {d : Nat} (hs : checkIsHex s = true)
    (hc : hexDigit c = some d) (acc : Nat) :
    parseHexFrom acc (s ++ [c]) = 16 * parseHexFrom acc s + d := by
  induction s generalizing acc with
  | nil => simp [parseHexFrom, hc]
  | cons a s ih =>
    simp only [checkIsHex, List.all_cons, Bool.and_eq_true] at hs
    obtain ⟨e, he⟩ := Option.isSome_iff_exists.1 hs.1
    simp only [List.cons_append, parseHexFrom, he]
    exact ih hs.2 _

theorem hexValue_iff (s : Str) (n : Nat) :
    HexValue s n ↔ checkIsHex s = true ∧ parseHex s = some n := by
  constructor
  · intro h
    induction h with
    | digit h =>
      rw [digitValue_eq] at h
      simp [checkIsHex, parseHex, h, parseHexFrom]
    | @more s c n d hs h ih =>
      rw [digitValue_eq] at h
      obtain ⟨h1, h2⟩ := ih
      refine ⟨?_, ?_⟩
      · simp only [checkIsHex] at *
        simp [h1, h]
      · cases s with
        | nil => simp [parseHex] at h2
        | cons a s =>
          simp only [checkIsHex, List.all_cons, Bool.and_eq_true] at h1
          obtain ⟨e, he⟩ := Option.isSome_iff_exists.1 h1.1
          simp only [parseHex, he, Option.map_some, Option.some.injEq, List.cons_append] at *
          rw [parseHexFrom_append h1.2 h, h2]
  · rintro ⟨h1, h2⟩
    induction s using List.reverseRecOn generalizing n with
    | nil => simp [parseHex] at h2
    | append_singleton s c ih =>
      simp only [checkIsHex, List.all_append, List.all_cons, List.all_nil, Bool.and_true,
        Bool.and_eq_true] at h1
      obtain ⟨e, he⟩ := Option.isSome_iff_exists.1 h1.2
      cases s with
      | nil =>
        simp only [List.nil_append, parseHex, he, Option.map_some, parseHexFrom,
          Option.some.injEq] at h2
        subst h2
        exact .digit (by rw [digitValue_eq, he])
      | cons a s =>
        have ha : (hexDigit a).isSome = true := by
          have := h1.1; simp only [List.all_cons, Bool.and_eq_true] at this; exact this.1
        have hs : checkIsHex s = true := by
          have := h1.1; simp only [List.all_cons, Bool.and_eq_true] at this; exact this.2
        obtain ⟨f, hf⟩ := Option.isSome_iff_exists.1 ha
        simp only [List.cons_append, parseHex, hf, Option.map_some, Option.some.injEq] at h2
        rw [parseHexFrom_append hs he] at h2
        subst h2
        exact .more (ih _ h1.1 (by simp [parseHex, hf])) (by rw [digitValue_eq, he])

theorem HexValue.ne_nil {s : Str} {n : Nat} (h : HexValue s n) : s ≠ [] := by
  cases h <;> simp

theorem HexValue.unique {s : Str} {n k : Nat} (h : HexValue s n) (h' : HexValue s k) : n = k := by
  rw [hexValue_iff] at h h'
  exact Option.some.inj (h.2.symm.trans h'.2)

theorem hexDigit_word {c : Char} (h : (hexDigit c).isSome = true) : isWord c = true := by
  have e : ∀ a b : Char, a ≤ b ↔ a.toNat ≤ b.toNat := fun a b => Iff.rfl
  rw [isWord_nat]
  by_contra h3
  simp only [hexDigit, e] at h
  rw [if_neg, if_neg, if_neg] at h
  · simp at h
  all_goals (simp; omega)

theorem HexValue.word {s : Str} {n : Nat} (h : HexValue s n) : ∀ c ∈ s, isWord c = true := by
  rw [hexValue_iff] at h
  intro c hc
  simp only [checkIsHex, List.all_eq_true] at h
  exact hexDigit_word (h.1 c hc)

/-- Hexadecimal digits are not labels. -/
theorem hex_not_T {s : Str} (h : checkIsHex s = true) : startsT s = false := by
  cases s with
  | nil => rfl
  | cons c s =>
    simp only [checkIsHex, List.all_cons, Bool.and_eq_true] at h
    by_contra h2
    simp [startsT] at h2
    subst h2
    exact absurd h.1 (by decide)

/-! ## Printing -/

theorem HexValue.zeros {s : Str} {n : Nat} (h : HexValue s n) : HexValue ('0' :: s) n := by
  induction h with
  | @digit c d h =>
    have := HexValue.more (s := ['0']) (n := 0) (.digit (by decide)) h
    simpa using this
  | more hs h ih => exact .more ih h

theorem HexValue.pad {s : Str} {n : Nat} (h : HexValue s n) (k : Nat) :
    HexValue (padStart k s) n := by
  rw [padStart]
  induction k - s.length with
  | zero => simpa using h
  | succ j ih => rw [List.replicate_succ]; exact ih.zeros

theorem digitChar_value {d : Nat} (h : d < 16) : digitValue (Nat.digitChar d) = some d := by
  revert d; decide +kernel

theorem digitChar_upper {d : Nat} (h : d < 16) :
    digitValue (Nat.digitChar d).toUpper = some d := by
  revert d; decide +kernel

theorem toHex_value (n : Nat) : HexValue (toHex n) n := by
  induction n using Nat.strongRecOn with
  | _ n ih =>
    rw [toHex, Nat.toDigits_eq_if (by decide)]
    split
    · exact .digit (digitChar_value (by assumption))
    · have := HexValue.more (ih (n / 16) (by omega)) (digitChar_value (Nat.mod_lt n (by decide : 16 > 0)))
      rwa [Nat.div_add_mod] at this

theorem toHex_upper (n : Nat) : HexValue ((toHex n).map Char.toUpper) n := by
  induction n using Nat.strongRecOn with
  | _ n ih =>
    rw [toHex, Nat.toDigits_eq_if (by decide)]
    split
    · exact .digit (digitChar_upper (by assumption))
    · have := HexValue.more (ih (n / 16) (by omega)) (digitChar_upper (Nat.mod_lt n (by decide : 16 > 0)))
      rw [Nat.div_add_mod] at this
      simpa [toHex] using this

theorem toHex_length {n k : Nat} (hk : 0 < k) (h : n < 16 ^ k) : (toHex n).length ≤ k :=
  (Nat.length_toDigits_le_iff (by decide) hk).2 h

theorem padStart_length {s : Str} {k : Nat} (h : s.length ≤ k) : (padStart k s).length = k := by
  simp [padStart]; omega

/-- Splitting a number of four digits into two bytes. -/
theorem HexValue.split {s t : Str} {n k : Nat} (hs : HexValue s n) (ht : HexValue t k) :
    HexValue (s ++ t) (16 ^ t.length * n + k) := by
  induction ht with
  | digit h => simpa using HexValue.more hs h
  | @more t c k d ht h ih =>
    rw [← List.append_assoc]
    have := HexValue.more ih h
    rw [List.length_append, List.length_singleton, Nat.pow_succ]
    rwa [show 16 ^ t.length * 16 * n + (16 * k + d) = 16 * (16 ^ t.length * n + k) + d by
      rw [Nat.mul_add, ← Nat.mul_assoc, Nat.mul_comm 16 (16 ^ t.length)]; omega]

theorem hexValue_exists {s : Str} (h : checkIsHex s = true) (hn : s ≠ []) : ∃ n, HexValue s n := by
  cases s with
  | nil => exact absurd rfl hn
  | cons c s =>
    have h' := h
    simp only [checkIsHex, List.all_cons, Bool.and_eq_true] at h'
    obtain ⟨d, hd⟩ := Option.isSome_iff_exists.1 h'.1
    exact ⟨parseHexFrom d s, (hexValue_iff _ _).2 ⟨h, by simp [parseHex, hd]⟩⟩

theorem HexValue.lt {s : Str} {n : Nat} (h : HexValue s n) : n < 16 ^ s.length := by
  induction h with
  | @digit c d h =>
    have : d < 16 := by
      rw [digitValue_eq] at h
      simp only [hexDigit] at h
      have e : ∀ a b : Char, a ≤ b ↔ a.toNat ≤ b.toNat := fun a b => Iff.rfl
      simp only [e] at h
      split at h
      · cases h; simp at *; omega
      · split at h
        · cases h; simp at *; omega
        · split at h
          · cases h; simp at *; omega
          · simp at h
    simpa using this
  | @more s c n d hs h ih =>
    have : d < 16 := by
      rw [digitValue_eq] at h
      simp only [hexDigit] at h
      have e : ∀ a b : Char, a ≤ b ↔ a.toNat ≤ b.toNat := fun a b => Iff.rfl
      simp only [e] at h
      split at h
      · cases h; simp at *; omega
      · split at h
        · cases h; simp at *; omega
        · split at h
          · cases h; simp at *; omega
          · simp at h
    rw [List.length_append, List.length_singleton, Nat.pow_succ]
    omega

/-- Two halves of a number written with four digits. -/
theorem HexValue.halves {s : Str} {n : Nat} (h : HexValue s n) (hl : s.length = 4) :
    HexByte (s.take 2) (BitVec.ofNat 8 (n / 256)) ∧ HexByte (s.drop 2) (BitVec.ofNat 8 (n % 256)) := by
  have hx := ((hexValue_iff s n).1 h).1
  have h1 : checkIsHex (s.take 2) = true := by
    simp only [checkIsHex, List.all_eq_true] at *
    exact fun c hc => hx c (List.mem_of_mem_take hc)
  have h2 : checkIsHex (s.drop 2) = true := by
    simp only [checkIsHex, List.all_eq_true] at *
    exact fun c hc => hx c (List.mem_of_mem_drop hc)
  have l1 : (s.take 2).length = 2 := by simp [hl]
  have l2 : (s.drop 2).length = 2 := by simp [hl]
  obtain ⟨a, ha⟩ := hexValue_exists h1 (by intro h; simp [h] at l1)
  obtain ⟨b, hb⟩ := hexValue_exists h2 (by intro h; simp [h] at l2)
  have := HexValue.split ha hb
  rw [List.take_append_drop, l2] at this
  have e := h.unique this
  have la := ha.lt
  have lb := hb.lt
  rw [l1] at la
  rw [l2] at lb
  have e1 : n / 256 = a := by omega
  have e2 : n % 256 = b := by omega
  refine ⟨⟨l1, ?_⟩, l2, ?_⟩
  · rw [e1, BitVec.toNat_ofNat, Nat.mod_eq_of_lt (by omega)]; exact ha
  · rw [e2, BitVec.toNat_ofNat, Nat.mod_eq_of_lt (by omega)]; exact hb

theorem pad2 {n : Nat} (h : n < 256) :
    HexByte ((padStart 2 (toHex n)).take 2) (BitVec.ofNat 8 n) := by
  have l := padStart_length (toHex_length (by decide : 0 < 2) (show n < 16 ^ 2 by omega))
  rw [List.take_of_length_le (by omega)]
  refine ⟨l, ?_⟩
  rw [BitVec.toNat_ofNat, Nat.mod_eq_of_lt (by omega)]
  exact (toHex_value n).pad 2

theorem pad4 {n : Nat} (h : n < 65536) :
    HexByte ((padStart 4 (toHex n)).take 2) (BitVec.ofNat 8 (n / 256)) ∧
    HexByte ((padStart 4 (toHex n)).drop 2) (BitVec.ofNat 8 (n % 256)) :=
  ((toHex_value n).pad 4).halves
    (padStart_length (toHex_length (by decide : 0 < 4) (show n < 16 ^ 4 by omega)))

theorem dirHex_pieces {n : Nat} (h : n < 65536) :
    ∃ a b, pieces (dirHex n) = [a, b] ∧ HexByte a (BitVec.ofNat 8 (n / 256)) ∧
      HexByte b (BitVec.ofNat 8 (n % 256)) := by
  have hl : (dirHex n).length = 4 := padStart_length (by
    rw [List.length_map]
    exact toHex_length (by decide : 0 < 4) (show n < 16 ^ 4 by omega))
  have hv : HexValue (dirHex n) n := (toHex_upper n).pad 4
  obtain ⟨h1, h2⟩ := hv.halves hl
  match h : dirHex n, hl with
  | [a, b, c, d], _ =>
    rw [h] at h1 h2
    exact ⟨[a, b], [c, d], rfl, h1, h2⟩

end Mpp.Front
