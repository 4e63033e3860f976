import Verif.Front.NumberBox
/-!
# Property C54: the boxes that show and take numbers
-/
namespace Mpp.Front

/-! ## Every session -/

/-- An unmarked box shows its number. -/
def Field.Right (f : Field) : Prop := f.valid = true → f.text = f.base.format f.number

theorem Field.settle_right {f : Field} (old : Nat) (h : f.Right) : (f.settle old).Right := by
  unfold Field.settle
  split
  · exact h
  · exact fun _ => rfl

theorem Field.settle_number (old : Nat) (f : Field) : (f.settle old).number = f.number := by
  unfold Field.settle; split <;> rfl

theorem Field.step_right {max : Option Nat} {f f' : Field} (h : f.Right) {i : Input}
    (e : f.step max i = some f') : f'.Right := by
  cases i with
  | type s =>
    simp only [Field.step] at e
    split at e
    · split at e
      · cases e
        exact Field.settle_right _ fun _ => rfl
      · cases e
    · cases e
      intro h; cases h
  | pick b =>
    simp only [Field.step, if_neg (format_ne b f.number), Option.some.injEq] at e
    cases e
    exact fun _ => rfl
  | prop n =>
    simp only [Field.step, Option.some.injEq] at e
    cases e
    unfold Field.settle
    split
    · rename_i hn
      intro hv
      rw [h hv]
      exact congrArg f.base.format hn.symm
    · exact fun _ => rfl

theorem Field.steps_right {max : Option Nat} {f f' : Field} (h : f.Right) (is : List Input)
    (e : f.steps max is = some f') : f'.Right := by
  induction is generalizing f with
  | nil => cases e; exact h
  | cons i is ih =>
    simp only [Field.steps, Option.bind_eq_some_iff] at e
    obtain ⟨g, e1, e2⟩ := e
    exact ih (Field.step_right h e1) e2

/-- **C54.** Whatever is typed, selected and changed from outside, in any order: as long as the box is
not marked as an error, its text is the numeral of the number that is used, in the selected base. -/
theorem C54_shows (max : Option Nat) (b : Base) (n : Nat) (is : List Input) (f : Field)
    (run : (Field.start b n).steps max is = some f) (ok : f.valid = true) :
    Usual f.base.radix f.text f.number := by
  have := Field.steps_right (fun _ => rfl) is run ok
  rw [this]
  exact format_usual _ _

/-- There is only one such text. -/
theorem C54_only (b : Base) (s s' : Str) (n : Nat) (h : Usual b.radix s n) (h' : Usual b.radix s' n) :
    s = s' := h.unique (radix_pos b) h'

/-! ## Typing -/

/-- **C54.** Typing a numeral of the selected base, of either case and with any zeros in front, makes
its value the number used, or the maximum if there is one and it is smaller; the box shows it and is
not marked. -/
theorem C54_type (max : Option Nat) (f : Field) (s : Str) (n : Nat) (hs : Numeral f.base.radix s n)
    (hn : n < 2 ^ 53) :
    ∃ f', f.step max (.type s) = some f' ∧ f'.base = f.base ∧ f'.valid = true ∧
      Usual f.base.radix f'.text f'.number ∧
      f'.number = match max with | some (m + 1) => min n (m + 1) | _ => n := by
  have ha := (accepts_iff f.base s).2 (.inl ⟨n, hs⟩)
  have hp := parse_numeral hs
  simp only [Field.step, ha, hp, if_true, if_pos hn]
  refine ⟨_, rfl, ?_, ?_, ?_, ?_⟩
  · unfold Field.settle; split <;> rfl
  · unfold Field.settle; split <;> rfl
  · unfold Field.settle
    split
    · exact format_usual _ _
    · exact format_usual _ _
  · rw [Field.settle_number]
    unfold clamp
    match max with
    | none => rfl
    | some 0 => rfl
    | some (m + 1) =>
      simp only
      split <;> omega

/-- **C54.** In base ten a text with a point is taken too, and everything from the point on is
dropped. -/
theorem C54_point (max : Option Nat) (f : Field) (u t : Str) (n : Nat) (hb : f.base = .dec)
    (hu : Numeral 10 u n) (ht : ∀ c ∈ t, ∃ d, digitValue c = some d ∧ d < 10) :
    f.step max (.type (u ++ '.' :: t)) = f.step max (.type u) := by
  have a1 := (accepts_iff .dec (u ++ '.' :: t)).2
    (.inr ⟨rfl, u, t, n, rfl, hu, fun c hc => (isDec_iff c).2 (ht c hc)⟩)
  have a2 := (accepts_iff .dec u).2 (.inl ⟨n, hu⟩)
  have p2 : Base.dec.parse u = n := parse_numeral (b := .dec) hu
  simp only [Field.step, hb, a1, a2, parse_point hu t, p2, if_true]

/-- **C54.** Any other text is left as typed and marked as an error, and the number used stays. -/
theorem C54_reject (max : Option Nat) (f : Field) (s : Str) (h1 : ∀ n, ¬ Numeral f.base.radix s n)
    (h2 : f.base = .dec → ¬ ∃ u t n, s = u ++ '.' :: t ∧ Numeral 10 u n ∧
      ∀ c ∈ t, ∃ d, digitValue c = some d ∧ d < 10) :
    f.step max (.type s) = some { f with text := s, valid := false } := by
  have : ¬ f.base.accepts s = true := by
    rw [accepts_iff]
    rintro (⟨n, h⟩ | ⟨hb, u, t, n, e, hu, ht⟩)
    · exact h1 n h
    · exact h2 hb ⟨u, t, n, e, hu, fun c hc => (isDec_iff c).1 (ht c hc)⟩
  simp only [Field.step, if_neg this]

/-- **C54.** A number typed as the box shows it comes back unchanged. -/
theorem C54_back (max : Option Nat) (b : Base) (n : Nat) (is : List Input) (f : Field)
    (run : (Field.start b n).steps max is = some f) (hv : f.valid = true) (hn : f.number < 2 ^ 53)
    (hm : ∀ m, max = some m → f.number ≤ m) : f.step max (.type f.text) = some f := by
  have ok := Field.steps_right (fun _ => rfl) is run
  have hs : Numeral f.base.radix f.text f.number := by rw [ok hv]; exact (format_usual _ _).value
  have ha := (accepts_iff f.base f.text).2 (.inl ⟨_, hs⟩)
  have hc : clamp max f.number = f.number := by
    unfold clamp
    match max, hm with
    | none, _ => rfl
    | some m, hm =>
      have := hm m rfl
      simp only
      rw [if_neg (by omega)]
  simp only [Field.step, ha, parse_numeral hs, if_true, if_pos hn, hc]
  unfold Field.settle
  rw [if_pos rfl, ← ok hv, ← hv]

/-! ## Selecting a base -/

/-- **C54.** Selecting a base changes how the number is written, not the number. -/
theorem C54_base (max : Option Nat) (f : Field) (b : Base) :
    ∃ f', f.step max (.pick b) = some f' ∧ f'.base = b ∧ f'.number = f.number ∧
      Usual b.radix f'.text f.number := by
  simp only [Field.step, if_neg (format_ne b f.number)]
  exact ⟨_, rfl, rfl, rfl, format_usual _ _⟩

/-! ## The maximum -/

/-- **C54.** A box with a maximum never lets the number past it (the debugger's box: 50,
`DebuggerNode/index.tsx:17`, `178`; nothing else changes that number). -/
theorem C54_bound (m : Nat) (hm : 0 < m) (b : Base) (n : Nat) (hn : n ≤ m) (is : List Input) (f : Field)
    (hi : ∀ k, Input.prop k ∈ is → k ≤ m) (run : (Field.start b n).steps (some m) is = some f) :
    f.number ≤ m := by
  suffices ∀ g : Field, g.number ≤ m → g.steps (some m) is = some f → f.number ≤ m from
    this _ hn run
  clear run
  induction is with
  | nil => intro g hg e; cases e; exact hg
  | cons i is ih =>
    intro g hg e
    simp only [Field.steps, Option.bind_eq_some_iff] at e
    obtain ⟨g', e1, e2⟩ := e
    refine ih (fun k hk => hi k (by simp [hk])) g' ?_ e2
    cases i with
    | type s =>
      simp only [Field.step] at e1
      split at e1
      · split at e1
        · cases e1
          rw [Field.settle_number]
          simp only [clamp]
          split <;> omega
        · cases e1
      · cases e1; exact hg
    | pick b =>
      simp only [Field.step, if_neg (format_ne b g.number), Option.some.injEq] at e1
      cases e1; exact hg
    | prop k =>
      simp only [Field.step, Option.some.injEq] at e1
      cases e1
      rw [Field.settle_number]
      exact hi k (by simp)

/-! ## The mark -/

/-- **C54, false in general.** The mark of an error can stay when there is none any more: type a text
that is not a number, and then let the number change from outside (or select a base). The box then
shows the right number and is marked. Every number and base can be shown like this. -/
theorem C54_mark_wrong (b : Base) (n k : Nat) (h : n ≠ k) :
    ∃ f, (Field.start b n).steps none [.type "?".toList, .prop k] = some f ∧ f.valid = false ∧
      f.number = k ∧ Usual b.radix f.text k := by
  have ha : b.accepts "?".toList = false := by cases b <;> decide
  refine ⟨⟨b, b.format k, false, k⟩, ?_, rfl, rfl, format_usual _ _⟩
  simp only [Field.steps, Field.step, Field.start, ha, Option.bind_some]
  simp [Field.settle, h.symm]

/-! ## Cases -/

/-- Type `0ff`, select base ten, type `12.7`, select base two. -/
example : (Field.start .hex 0).steps none
    [.type "0ff".toList, .pick .dec, .type "12.7".toList, .pick .bin] =
      some ⟨.bin, "1100".toList, true, 12⟩ := by decide +kernel

example : (Field.start .hex 0).steps none [.type "0ff".toList] =
    some ⟨.hex, "FF".toList, true, 255⟩ := by decide +kernel

/-- The debugger's box. -/
example : (Field.start .dec 10).steps (some 50) [.type "1000".toList] =
    some ⟨.dec, "50".toList, true, 50⟩ := by decide +kernel

/-- A text that is not a number, then a new base: the mark stays. -/
example : (Field.start .hex 0x1A).steps none [.type "1G".toList, .pick .dec] =
    some ⟨.dec, "26".toList, false, 26⟩ := by decide +kernel

example : Numeral 16 "0fF".toList 255 := by
  have a : Numeral 16 ['0'] 0 := .digit (by decide) (by decide)
  have b := a.more (c := 'f') (d := 15) (by decide) (by decide)
  exact b.more (c := 'F') (d := 15) (by decide) (by decide)

example : ∀ n, ¬ Numeral Base.bin.radix "12".toList n := by
  intro n h
  obtain ⟨d, hd, hl⟩ := h.digits.2 '2' (by decide)
  have : digitValue '2' = some 2 := by decide
  rw [this] at hd
  cases hd
  exact absurd hl (by decide)

end Mpp.Front
