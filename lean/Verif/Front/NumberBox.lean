import Verif.Front.Hexa
/-!
# The boxes that show and take numbers

Model of `mpp-front/src/components/NumberBaseInput.tsx` and of `mpp-front/src/constants/bases.ts`,
together with the number that the component around the box keeps.

Numbers are natural numbers here. JavaScript computes exactly with them below 2^53; what happens when
somebody types a greater number is not modelled (`none`).
-/
namespace Mpp.Front

/-- `Base` (`bases.ts:1`) -/
inductive Base
  | dec | hex | bin
  deriving DecidableEq

/-- `radix` in `bases` (`bases.ts:3-19`), `getRadix` (`NumberBaseInput.tsx:6-11`) -/
def Base.radix : Base → Nat
  | .dec => 10
  | .hex => 16
  | .bin => 2

/-- `\d` -/
def isDec (c : Char) : Bool := '0' ≤ c && c ≤ '9'

/-- `validateNumberBase` (`NumberBaseInput.tsx:20-25`) with `regex` in `bases` (`bases.ts:3-19`):
`/^\d+\.?\d*$/`, `/^[a-fA-F0-9]+$/`, `/^[0-1]{1,}$/`. -/
def Base.accepts : Base → Str → Bool
  | .dec, s =>
    !(s.takeWhile isDec).isEmpty &&
      match s.dropWhile isDec with
      | [] => true
      | c :: t => c == '.' && t.all isDec
  | .hex, s => !s.isEmpty &&
      s.all fun c => ('a' ≤ c && c ≤ 'f') || ('A' ≤ c && c ≤ 'F') || ('0' ≤ c && c ≤ '9')
  | .bin, s => !s.isEmpty && s.all fun c => '0' ≤ c && c ≤ '1'

/-- `parseInt(s, radix)` from the first digit on: it stops at the first character that is not a digit
below the radix. -/
def parseIntFrom (r : Nat) (acc : Nat) : Str → Nat
  | [] => acc
  | c :: s => match hexDigit c with
    | some d => if d < r then parseIntFrom r (r * acc + d) s else acc
    | none => acc

/-- `parseInt(s, radix)` (`NumberBaseInput.tsx:76`) for a text that `accepts` lets through: it begins
with a digit, and there is no blank, sign or `0x` to skip. -/
def Base.parse (b : Base) (s : Str) : Nat := parseIntFrom b.radix 0 s

/-- `getFormatted` (`NumberBaseInput.tsx:12-18`) -/
def Base.format (b : Base) (n : Nat) : Str := (Nat.toDigits b.radix n).map Char.toUpper

/-- The state of a box (`NumberBaseInput.tsx:50-54`) and the number of the component around it (the
property `number`). -/
structure Field where
  base : Base
  text : Str
  valid : Bool
  number : Nat
  deriving DecidableEq

/-- The first drawing (`NumberBaseInput.tsx:50-54`) -/
def Field.start (b : Base) (n : Nat) : Field := ⟨b, b.format n, b.accepts (b.format n), n⟩

/-- The effect on `[number]` (`NumberBaseInput.tsx:56-59`), given the number before. -/
def Field.settle (old : Nat) (f : Field) : Field :=
  if f.number = old then f else { f with text := f.base.format f.number }

/-- What can happen to a box. -/
inductive Input
  /-- the text is edited: `onValueChange` (`NumberBaseInput.tsx:71-87`) -/
  | type (s : Str)
  /-- another base is selected: `handleBaseChange` (`NumberBaseInput.tsx:61-69`) -/
  | pick (b : Base)
  /-- the component around the box changes the number -/
  | prop (n : Nat)

/-- `max && num > max ? max : num` (`NumberBaseInput.tsx:77`); `none` when there is no `max`. -/
def clamp (max : Option Nat) (num : Nat) : Nat :=
  match max with
  | none => num
  | some m => if m ≠ 0 ∧ num > m then m else num

/-- One event and the effect it causes. The component around the box keeps the number it is told
(`MemoryNode.tsx:114-117`, `DebuggerNode/index.tsx:138-141`, `CodeEditor.tsx:118`). -/
def Field.step (max : Option Nat) (f : Field) : Input → Option Field
  | .type s =>
    if f.base.accepts s then
      if f.base.parse s < 2 ^ 53 then
        let num := clamp max (f.base.parse s)
        some (Field.settle f.number { f with text := f.base.format num, valid := true, number := num })
      else none
    else some { f with text := s, valid := false }
  | .pick b =>
    let frmt := b.format f.number
    some (if frmt = [] then { f with base := b } else { f with base := b, text := frmt })
  | .prop n => some (Field.settle f.number { f with number := n })

def Field.steps (max : Option Nat) (f : Field) : List Input → Option Field
  | [] => some f
  | i :: is => (f.step max i).bind fun f => f.steps max is

/-! ## Numerals -/

/-- `s` consists of digits below `r`, of either case, and their value is `n`. -/
inductive Numeral (r : Nat) : Str → Nat → Prop
  | digit {c : Char} {d : Nat} (h : digitValue c = some d) (hd : d < r) : Numeral r [c] d
  | more {s : Str} {c : Char} {n d : Nat} (hs : Numeral r s n) (h : digitValue c = some d)
      (hd : d < r) : Numeral r (s ++ [c]) (r * n + d)

/-- The numeral of `n` as it is usually written: capital letters, no zeros in front. -/
structure Usual (r : Nat) (s : Str) (n : Nat) : Prop where
  value : Numeral r s n
  capital : ∀ c ∈ s, ¬ ('a' ≤ c ∧ c ≤ 'z')
  front : s.head? = some '0' → s = ['0']

/-! ## Lemmas -/

theorem radix_pos (b : Base) : 2 ≤ b.radix := by cases b <;> decide
theorem radix_le (b : Base) : b.radix ≤ 16 := by cases b <;> decide

theorem digits_numeral {r : Nat} (h2 : 2 ≤ r) (h16 : r ≤ 16) (n : Nat) :
    Numeral r ((Nat.toDigits r n).map Char.toUpper) n := by
  induction n using Nat.strongRecOn with
  | _ n ih =>
    rw [Nat.toDigits_eq_if (by omega)]
    split
    · rename_i h
      exact .digit (digitChar_upper (by omega)) h
    · have hm : n % r < r := Nat.mod_lt _ (by omega)
      have := Numeral.more (ih (n / r) (Nat.div_lt_self (by omega) (by omega)))
        (digitChar_upper (by omega)) hm
      rw [Nat.div_add_mod] at this
      simpa using this

theorem Numeral.ne {r : Nat} {s : Str} {n : Nat} (h : Numeral r s n) : s ≠ [] := by
  cases h <;> simp

theorem digits_head {r : Nat} (h2 : 2 ≤ r) (h16 : r ≤ 16) (n : Nat) :
    ∃ d s, Nat.toDigits r n = Nat.digitChar d :: s ∧ d < 16 ∧ (d = 0 → s = []) := by
  induction n using Nat.strongRecOn with
  | _ n ih =>
    rw [Nat.toDigits_eq_if (by omega)]
    split
    · exact ⟨n, [], rfl, by omega, fun _ => rfl⟩
    · obtain ⟨d, s, e, hd, h0⟩ := ih (n / r) (Nat.div_lt_self (by omega) (by omega))
      refine ⟨d, s ++ [Nat.digitChar (n % r)], by rw [e]; rfl, hd, fun h => ?_⟩
      exfalso
      subst h
      have := h0 rfl
      subst this
      have hv : Numeral r ((Nat.toDigits r (n / r)).map Char.toUpper) (n / r) :=
        digits_numeral h2 h16 _
      rw [e] at hv
      have : n / r = 0 := by
        generalize n / r = q at hv
        have hs : ([Nat.digitChar 0].map Char.toUpper) = ['0'] := by decide
        rw [hs] at hv
        generalize hl : ['0'] = l at hv
        cases hv with
        | digit h _ =>
          cases hl
          exact (Option.some.inj h).symm
        | @more s c m d hs h _ =>
          have : s = [] := by
            have := congrArg List.length hl
            simpa using this
          exact absurd this hs.ne
      have := Nat.div_eq_zero_iff.1 this
      omega

theorem digitChar_capital : ∀ d < 16, ¬ ('a' ≤ (Nat.digitChar d).toUpper ∧
    (Nat.digitChar d).toUpper ≤ 'z') := by decide +kernel

theorem digits_capital {r : Nat} (h2 : 2 ≤ r) (h16 : r ≤ 16) (n : Nat) :
    ∀ c ∈ (Nat.toDigits r n).map Char.toUpper, ¬ ('a' ≤ c ∧ c ≤ 'z') := by
  induction n using Nat.strongRecOn with
  | _ n ih =>
    rw [Nat.toDigits_eq_if (by omega)]
    split
    · intro c hc
      simp only [List.map_cons, List.map_nil, List.mem_singleton] at hc
      subst hc
      exact digitChar_capital n (by omega)
    · intro c hc
      rw [List.map_append, List.mem_append] at hc
      rcases hc with hc | hc
      · exact ih (n / r) (Nat.div_lt_self (by omega) (by omega)) c hc
      · have hm : n % r < r := Nat.mod_lt _ (by omega)
        simp only [List.map_cons, List.map_nil, List.mem_singleton] at hc
        subst hc
        exact digitChar_capital _ (by omega)

theorem digitChar_zero : ∀ d < 16, (Nat.digitChar d).toUpper = '0' → d = 0 := by decide +kernel

theorem format_usual (b : Base) (n : Nat) : Usual b.radix (b.format n) n := by
  refine ⟨digits_numeral (radix_pos b) (radix_le b) n, digits_capital (radix_pos b) (radix_le b) n, ?_⟩
  obtain ⟨d, s, e, hd, h0⟩ := digits_head (radix_pos b) (radix_le b) n
  unfold Base.format
  rw [e]
  intro h
  simp only [List.map_cons, List.head?_cons, Option.some.injEq] at h
  have hz := digitChar_zero d hd h
  rw [List.map_cons, h, h0 hz]
  rfl

theorem format_ne (b : Base) (n : Nat) : b.format n ≠ [] := by
  intro h
  exact (format_usual b n).value.ne h

/-! ### Reading -/

theorem parseIntFrom_append {r : Nat} {s : Str} {n : Nat} (hs : Numeral r s n) (t : Str) (acc : Nat) :
    parseIntFrom r acc (s ++ t) = parseIntFrom r (acc * r ^ s.length + n) t := by
  induction hs generalizing acc t with
  | @digit c d h hd =>
    rw [digitValue_eq] at h
    simp only [List.cons_append, List.nil_append, parseIntFrom, h, if_pos hd, List.length_singleton,
      Nat.pow_one]
    rw [Nat.mul_comm]
  | @more s c n d hs h hd ih =>
    rw [digitValue_eq] at h
    rw [List.append_assoc, ih, List.singleton_append, parseIntFrom, h]
    simp only [if_pos hd, List.length_append, List.length_singleton, Nat.pow_succ]
    congr 1
    rw [Nat.mul_add, Nat.mul_comm r (acc * r ^ s.length), Nat.mul_assoc, Nat.add_assoc]

theorem Numeral.unique {r : Nat} {s : Str} {n k : Nat} (h : Numeral r s n) (h' : Numeral r s k) :
    n = k := by
  have e1 := parseIntFrom_append h [] 0
  have e2 := parseIntFrom_append h' [] 0
  rw [e1] at e2
  simpa [parseIntFrom] using e2

theorem parse_numeral {b : Base} {s : Str} {n : Nat} (h : Numeral b.radix s n) : b.parse s = n := by
  have := parseIntFrom_append h [] 0
  simpa [Base.parse, parseIntFrom] using this

theorem parse_point {s : Str} {n : Nat} (h : Numeral 10 s n) (t : Str) :
    Base.dec.parse (s ++ '.' :: t) = n := by
  have := parseIntFrom_append h ('.' :: t) 0
  have hp : hexDigit '.' = none := by decide
  rw [parseIntFrom, hp] at this
  simpa [Base.parse, Base.radix] using this

theorem numeral_of {r : Nat} {s : Str} (hn : s ≠ [])
    (h : ∀ c ∈ s, ∃ d, digitValue c = some d ∧ d < r) : ∃ n, Numeral r s n := by
  induction s using List.reverseRecOn with
  | nil => exact absurd rfl hn
  | append_singleton s c ih =>
    obtain ⟨d, hd, hr⟩ := h c (by simp)
    by_cases hs : s = []
    · subst hs
      exact ⟨d, .digit hd hr⟩
    · obtain ⟨n, hn⟩ := ih hs fun c hc => h c (by simp [hc])
      exact ⟨_, .more hn hd hr⟩

theorem Numeral.digits {r : Nat} {s : Str} {n : Nat} (h : Numeral r s n) :
    s ≠ [] ∧ ∀ c ∈ s, ∃ d, digitValue c = some d ∧ d < r := by
  induction h with
  | @digit c d h hd => exact ⟨by simp, fun x hx => by
      simp only [List.mem_singleton] at hx; subst hx; exact ⟨d, h, hd⟩⟩
  | @more s c n d hs h hd ih =>
    refine ⟨by simp, fun x hx => ?_⟩
    rw [List.mem_append] at hx
    rcases hx with hx | hx
    · exact ih.2 x hx
    · simp only [List.mem_singleton] at hx; subst hx; exact ⟨d, h, hd⟩

theorem char_le (a b : Char) : (decide (a ≤ b) = true) ↔ a.toNat ≤ b.toNat := by
  rw [decide_eq_true_iff]; exact Iff.rfl

theorem hexDigit_some {c : Char} {d : Nat} (h : hexDigit c = some d) :
    (48 ≤ c.toNat ∧ c.toNat ≤ 57 ∧ d = c.toNat - 48) ∨
    (97 ≤ c.toNat ∧ c.toNat ≤ 102 ∧ d = c.toNat - 87) ∨
    (65 ≤ c.toNat ∧ c.toNat ≤ 70 ∧ d = c.toNat - 55) := by
  have e : ∀ a b : Char, a ≤ b ↔ a.toNat ≤ b.toNat := fun a b => Iff.rfl
  have l : '0'.toNat = 48 ∧ '9'.toNat = 57 ∧ 'a'.toNat = 97 ∧ 'f'.toNat = 102 ∧ 'A'.toNat = 65 ∧
    'F'.toNat = 70 := by decide
  simp only [hexDigit, e] at h
  split at h
  · simp at h; omega
  · split at h
    · simp at h; omega
    · split at h
      · simp at h; omega
      · cases h

theorem isDec_iff (c : Char) : isDec c = true ↔ ∃ d, digitValue c = some d ∧ d < 10 := by
  rw [digitValue_eq]
  have l : '0'.toNat = 48 ∧ '9'.toNat = 57 := by decide
  constructor
  · intro h
    simp only [isDec, Bool.and_eq_true, char_le] at h
    have e : ∀ a b : Char, a ≤ b ↔ a.toNat ≤ b.toNat := fun a b => Iff.rfl
    refine ⟨c.toNat - 48, ?_, by omega⟩
    simp only [hexDigit, e]
    rw [if_pos (by simp; omega)]
  · rintro ⟨d, hd, h⟩
    simp only [isDec, Bool.and_eq_true, char_le]
    have := hexDigit_some hd
    omega

theorem isHex_iff (c : Char) : (('a' ≤ c && c ≤ 'f') || ('A' ≤ c && c ≤ 'F') || ('0' ≤ c && c ≤ '9')) =
    true ↔ ∃ d, digitValue c = some d ∧ d < 16 := by
  rw [digitValue_eq]
  have l : '0'.toNat = 48 ∧ '9'.toNat = 57 ∧ 'a'.toNat = 97 ∧ 'f'.toNat = 102 ∧ 'A'.toNat = 65 ∧
    'F'.toNat = 70 := by decide
  have e : ∀ a b : Char, a ≤ b ↔ a.toNat ≤ b.toNat := fun a b => Iff.rfl
  simp only [Bool.or_eq_true, Bool.and_eq_true, char_le]
  constructor
  · intro h
    cases hd : hexDigit c with
    | some d => exact ⟨d, rfl, by have := hexDigit_some hd; omega⟩
    | none =>
      exfalso
      simp only [hexDigit, e] at hd
      split at hd
      · cases hd
      · split at hd
        · cases hd
        · split at hd
          · cases hd
          · simp at *
            omega
  · rintro ⟨d, hd, h⟩
    have := hexDigit_some hd
    omega

theorem isBin_iff (c : Char) : ('0' ≤ c && c ≤ '1') = true ↔ ∃ d, digitValue c = some d ∧ d < 2 := by
  have l : '0'.toNat = 48 ∧ '1'.toNat = 49 := by decide
  constructor
  · intro h
    simp only [Bool.and_eq_true, char_le] at h
    have : c = '0' ∨ c = '1' := by
      rw [← toNat_inj, ← toNat_inj (d := '1')]
      omega
    rcases this with rfl | rfl
    · exact ⟨0, by decide, by decide⟩
    · exact ⟨1, by decide, by decide⟩
  · rintro ⟨d, hd, h⟩
    rw [digitValue_eq] at hd
    simp only [Bool.and_eq_true, char_le]
    have := hexDigit_some hd
    omega

theorem mem_takeWhile {p : Char → Bool} {s : Str} {c : Char} (h : c ∈ s.takeWhile p) : p c = true := by
  induction s with
  | nil => cases h
  | cons a s ih =>
    rw [List.takeWhile_cons] at h
    split at h
    · rcases List.mem_cons.1 h with rfl | h
      · assumption
      · exact ih h
    · cases h

/-- What may be typed: digits of the base, in base ten with a point and more digits. -/
theorem accepts_iff (b : Base) (s : Str) : b.accepts s = true ↔
    (∃ n, Numeral b.radix s n) ∨
    (b = .dec ∧ ∃ u t n, s = u ++ '.' :: t ∧ Numeral 10 u n ∧ ∀ c ∈ t, isDec c = true) := by
  cases b with
  | hex =>
    simp only [Base.accepts, Bool.and_eq_true, List.all_eq_true, isHex_iff, Base.radix]
    constructor
    · rintro ⟨h1, h2⟩
      exact .inl (numeral_of (by rintro rfl; simp at h1) h2)
    · rintro (⟨n, h⟩ | ⟨h, _⟩)
      · obtain ⟨h1, h2⟩ := h.digits
        exact ⟨by simpa using h1, h2⟩
      · cases h
  | bin =>
    simp only [Base.accepts, Bool.and_eq_true, List.all_eq_true]
    constructor
    · rintro ⟨h1, h2⟩
      refine .inl (numeral_of (by rintro rfl; simp at h1) fun c hc => (isBin_iff c).1 ?_)
      simpa using h2 c hc
    · rintro (⟨n, h⟩ | ⟨h, _⟩)
      · obtain ⟨h1, h2⟩ := h.digits
        exact ⟨by simpa using h1, fun c hc => by simpa using (isBin_iff c).2 (h2 c hc)⟩
      · cases h
  | dec =>
    simp only [Base.accepts, Bool.and_eq_true]
    constructor
    · rintro ⟨h1, h2⟩
      obtain ⟨n, hn⟩ : ∃ n, Numeral 10 (s.takeWhile isDec) n :=
        numeral_of (by intro h; rw [h] at h1; simp at h1)
          fun c hc => (isDec_iff c).1 (mem_takeWhile hc)
      have hs : s.takeWhile isDec ++ s.dropWhile isDec = s := List.takeWhile_append_dropWhile
      cases hd : s.dropWhile isDec with
      | nil =>
        rw [hd, List.append_nil] at hs
        rw [hs] at hn
        exact .inl ⟨n, hn⟩
      | cons c t =>
        rw [hd] at h2 hs
        simp only [Bool.and_eq_true, beq_iff_eq, List.all_eq_true] at h2
        obtain ⟨rfl, h2⟩ := h2
        exact .inr ⟨trivial, _, t, n, hs.symm, hn, h2⟩
    · have all : ∀ {u : Str} {n : Nat}, Numeral 10 u n → u ≠ [] ∧ ∀ c ∈ u, isDec c = true :=
        fun hu => ⟨hu.digits.1, fun c hc => (isDec_iff c).2 (hu.digits.2 c hc)⟩
      rintro (⟨n, h⟩ | ⟨_, u, t, n, rfl, h, ht⟩)
      · obtain ⟨h1, h2⟩ := all h
        have e1 : s.takeWhile isDec = s := by
          have := List.takeWhile_append_of_pos (l₂ := []) h2
          simpa using this
        have e2 : s.dropWhile isDec = [] := by
          have := List.dropWhile_append_of_pos (l₂ := []) h2
          simpa using this
        rw [e1, e2]
        exact ⟨by simpa using h1, rfl⟩
      · obtain ⟨h1, h2⟩ := all h
        have hp : isDec '.' = false := by decide
        rw [List.takeWhile_append_of_pos h2, List.dropWhile_append_of_pos h2,
          List.takeWhile_cons_of_neg (by simp [hp]), List.dropWhile_cons_of_neg (by simp [hp])]
        refine ⟨by simpa using h1, ?_⟩
        simpa using ht

/-! ### There is only one usual numeral -/

theorem Numeral.pos {r : Nat} {s : Str} {n : Nat} (h : Numeral r s n) (h0 : s.head? ≠ some '0')
    (hr : 0 < r) : 0 < n := by
  induction h with
  | @digit c d h hd =>
    apply Nat.pos_of_ne_zero
    rintro rfl
    apply h0
    rw [digitValue_eq] at h
    have l : '0'.toNat = 48 := by decide
    have := hexDigit_some h
    rw [List.head?_cons, show c = '0' from toNat_inj.1 (by omega)]
  | @more s c n d hs h hd ih =>
    have := ih (by
      intro h
      apply h0
      cases s with
      | nil => cases h
      | cons a s => exact h)
    have := Nat.mul_pos hr this
    omega

theorem digit_capital {c c' : Char} {d : Nat} (h : digitValue c = some d) (h' : digitValue c' = some d)
    (k : ¬ ('a' ≤ c ∧ c ≤ 'z')) (k' : ¬ ('a' ≤ c' ∧ c' ≤ 'z')) : c = c' := by
  rw [digitValue_eq] at h h'
  have e : ∀ a b : Char, a ≤ b ↔ a.toNat ≤ b.toNat := fun a b => Iff.rfl
  have l : 'a'.toNat = 97 ∧ 'z'.toNat = 122 := by decide
  rw [e, e] at k k'
  have h1 := hexDigit_some h
  have h2 := hexDigit_some h'
  exact toNat_inj.1 (by omega)

/-- The last digit, and the numeral before it if there is one. -/
theorem Usual.cut {r : Nat} {s : Str} {n : Nat} (h : Usual r s n) (hr : 2 ≤ r) :
    ∃ t c, s = t ++ [c] ∧ digitValue c = some (n % r) ∧ ((t = [] ∧ n < r) ∨ (r ≤ n ∧ Usual r t (n / r))) := by
  obtain ⟨hv, hc, hf⟩ := h
  cases hv with
  | @digit c d h hd => exact ⟨[], c, rfl, by rw [Nat.mod_eq_of_lt hd]; exact h, .inl ⟨rfl, hd⟩⟩
  | @more t c m d hs h hd =>
    have e1 : (r * m + d) % r = d := by rw [Nat.mul_add_mod, Nat.mod_eq_of_lt hd]
    have e2 : (r * m + d) / r = m := by
      rw [Nat.mul_add_div (by omega), Nat.div_eq_of_lt hd, Nat.add_zero]
    have ht : t.head? ≠ some '0' := by
      intro h
      cases t with
      | nil => cases h
      | cons a t =>
        have := hf (by simpa using h)
        simp at this
    have := hs.pos ht (by omega)
    have : r * 1 ≤ r * m := Nat.mul_le_mul_left _ this
    refine ⟨t, c, rfl, by rw [e1]; exact h, .inr ⟨by omega, ?_, ?_, ?_⟩⟩
    · rw [e2]; exact hs
    · exact fun x hx => hc x (by simp [hx])
    · exact fun h => absurd h ht

theorem Usual.unique {r : Nat} {s s' : Str} {n : Nat} (hr : 2 ≤ r) (h : Usual r s n)
    (h' : Usual r s' n) : s = s' := by
  induction n using Nat.strongRecOn generalizing s s' with
  | _ n ih =>
    obtain ⟨t, c, rfl, hc, ht⟩ := h.cut hr
    obtain ⟨t', c', rfl, hc', ht'⟩ := h'.cut hr
    have ec : c = c' := digit_capital hc hc' (h.capital c (by simp)) (h'.capital c' (by simp))
    have et : t = t' := by
      rcases ht with ⟨rfl, hn⟩ | ⟨hn, ht⟩
      · rcases ht' with ⟨rfl, _⟩ | ⟨hn', _⟩
        · rfl
        · omega
      · rcases ht' with ⟨_, hn'⟩ | ⟨_, ht'⟩
        · omega
        · exact ih _ (Nat.div_lt_self (by omega) (by omega)) ht ht'
    rw [ec, et]

end Mpp.Front
