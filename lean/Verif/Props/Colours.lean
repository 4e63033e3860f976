import Verif.Front.Colours
import Verif.Props.Editing
/-!
# C93: the documentation colours a program as the editor does
-/
namespace Mpp.Front

abbrev docScan (before : Option Char) (s : Str) : List Tint := docTintsFrom before 0 .text s

theorem docTints_left (before : Option Char) (t : Tint) (w r : Str) (n : Nat) (h : n = w.length) :
    docTintsFrom before n t (w ++ r) = paint t w ++ docTintsFrom (w.getLast?.or before) 0 t r := by
  induction w generalizing before n with
  | nil => subst h; simp [paint]
  | cons c w ih =>
    subst h
    rw [List.length_cons, List.cons_append, docTintsFrom, ih (some c) w.length rfl]
    simp only [paint, List.length_cons, List.replicate_succ, List.cons_append]
    cases w with
    | nil => simp
    | cons d w => simp [List.getLast?_cons]

theorem docTints_zero (before : Option Char) (t : Tint) (s : Str) :
    docTintsFrom before 0 t s = docScan before s := by
  cases s <;> rfl

theorem docScan_match {before : Option Char} {w r : Str} {t : Tint} (ne : w ≠ [])
    (h : docRule before (w ++ r) = some (w.length, t)) :
    docScan before (w ++ r) = paint t w ++ docScan w.getLast? r := by
  cases w with
  | nil => exact absurd rfl ne
  | cons c w =>
    have h' : docRule before (c :: (w ++ r)) = some (w.length + 1, t) := h
    rw [List.cons_append]
    show docTintsFrom before 0 .text (c :: (w ++ r)) = _
    rw [docTintsFrom]
    simp only [h']
    rw [show w.length + 1 - 1 = w.length from rfl, docTints_left (some c) t w r w.length rfl, docTints_zero]
    simp only [paint, List.length_cons, List.replicate_succ, List.cons_append]
    congr 3
    cases w with
    | nil => rfl
    | cons d w => simp [List.getLast?_cons]

theorem docScan_skip {before : Option Char} {c : Char} {s : Str} (h : docRule before (c :: s) = none) :
    docScan before (c :: s) = .text :: docScan (some c) s := by
  show docTintsFrom before 0 .text (c :: s) = _
  rw [docTintsFrom]
  simp only [h]

/-! ## Where the rules agree -/

/-- None of the characters before which only the documentation has rules. -/
def NoMark (c : Char) : Prop := c ≠ '#' ∧ c ≠ '$' ∧ c ≠ '='

instance (c : Char) : Decidable (NoMark c) := inferInstanceAs (Decidable (_ ∧ _ ∧ _))

theorem word_usual {c : Char} (h : isWord c = true) : NoMark c := by
  refine ⟨?_, ?_, ?_⟩ <;> (rintro rfl; exact absurd h (by decide))

theorem blank_usual {c : Char} (h : Blank c) : NoMark c := by
  refine ⟨?_, ?_, ?_⟩ <;> (rintro rfl; exact absurd h (by decide))

theorem docRegister_bound {before : Option Char} {s : Str} (h : bound before s.head? = true) :
    matchRegister before s = docRegister s := by
  rw [matchRegister, matchOne, if_pos h, docRegister]
  congr 1
  funext m
  cases takeLit m s with
  | none => rfl
  | some p => rfl

theorem usual_comment {c : Char} (h : NoMark c) (s : Str) :
    docComment (c :: s) = none ∧ matchComment (c :: s) = none ∧ docNumber (c :: s) = matchNumber (c :: s) := by
  refine ⟨?_, ?_, ?_⟩
  · unfold docComment
    split
    · rename_i e; cases e; exact absurd rfl h.1
    · rfl
  · unfold matchComment
    split
    · rename_i e; cases e; exact absurd rfl h.1
    · rfl
  · rw [docNumber, if_neg]
    rintro (e | e | e)
    · exact h.1 e
    · exact h.2.1 e
    · exact h.2.2 e

theorem docRule_off {c : Char} (hw : isWord c = false) (hc : NoMark c) (before : Option Char) (s : Str) :
    docRule before (c :: s) = none := by
  obtain ⟨p1, p2, p3⟩ := usual_comment hc s
  have hr : docRegister (c :: s) = none := by
    rw [docRegister, List.findSome?_eq_none_iff]
    intro m hm
    have := words_letters.2 m hm
    rw [takeLit_apart this.1 this.2 hw]; rfl
  have hn : matchNumber (c :: s) = none := by
    have : isHexLetter c = false := by
      rw [Bool.eq_false_iff]
      intro h
      rw [letter_word h] at hw
      cases hw
    simp [matchNumber, this]
  have hl : matchLabel (c :: s) = none := by
    rw [matchLabel, if_neg]
    intro h
    have := eqCI_word h
    rw [hw] at this
    cases this
  rw [docRule, matchInstruction, matchOne_apart words_letters.1 _ _ hw, hr, p1, p3, hn, hl]
  rfl

theorem docRule_letter {before : Option Char} {c : Char} (hb : Apart before) (hw : isWord c = true) (s : Str) :
    docRule before (c :: s) = firstRule before (c :: s) := by
  obtain ⟨p1, p2, p3⟩ := usual_comment (word_usual hw) s
  have noT : ∀ m ∈ allInstructions ++ allRegisters, ∀ a t, m = a :: t → a.toUpper ≠ 'T' := by
    have : ∀ m ∈ allInstructions ++ allRegisters, m.head?.map Char.toUpper ≠ some 'T' := by
      rw [instructions_list]; decide +kernel
    rintro m hm a t rfl e
    exact this _ hm (by simp [e])
  have ne : ∀ m ∈ allInstructions ++ allRegisters, m ≠ [] := by
    intro m hm
    rcases List.mem_append.1 hm with h | h
    · exact (words_letters.1 m h).1
    · exact (words_letters.2 m h).1
  have hbd : bound before (c :: s).head? = true := by simp [bound, hb, hw]
  have hreg := docRegister_bound hbd
  rw [docRule, firstRule, p1, p2, p3, ← hreg]
  cases hl : matchLabel (c :: s) with
  | none =>
    cases matchInstruction before (c :: s) <;> cases matchRegister before (c :: s) <;>
      cases matchNumber (c :: s) <;> rfl
  | some n =>
    have up : c.toUpper = 'T' := by
      rw [matchLabel] at hl
      split at hl
      · rename_i e
        simp only [eqCI, beq_iff_eq] at e
        rw [← e]; decide
      · cases hl
    have none_at : ∀ m ∈ allInstructions ++ allRegisters, takeLit m (c :: s) = none := by
      intro m hm
      cases m with
      | nil => exact absurd rfl (ne _ hm)
      | cons a t =>
        rw [takeLit, if_neg]
        intro e
        simp only [eqCI, beq_iff_eq] at e
        exact noT _ hm a t rfl (e.trans up)
    have hi : matchInstruction before (c :: s) = none := by
      rw [matchInstruction, matchOne, if_pos hbd, List.findSome?_eq_none_iff]
      intro m hm
      rw [none_at m (List.mem_append_left _ hm)]
    have hr : matchRegister before (c :: s) = none := by
      rw [matchRegister, matchOne, if_pos hbd, List.findSome?_eq_none_iff]
      intro m hm
      rw [none_at m (List.mem_append_right _ hm)]
    have hn : matchNumber (c :: s) = none := by
      have : isHexLetter c = false := by
        rw [Bool.eq_false_iff]
        intro h
        have := letter_upper h
        rw [up] at this
        exact absurd this (by decide)
      simp [matchNumber, this]
    rw [hi, hr, hn]
    rfl

theorem docRule_word {before : Option Char} {w r : Str} (hb : Apart before) (ne : w ≠ [])
    (hw : ∀ c ∈ w, isWord c = true) : docRule before (w ++ r) = firstRule before (w ++ r) := by
  cases w with
  | nil => exact absurd rfl ne
  | cons c w => exact docRule_letter hb (hw c (by simp)) _

/-! ## One line of a program

`tail` is what follows the line, and `D` its colours. -/

/-- The line `s` has the colours of the editor. -/
def SameHere (tail : Str) (D : List Tint) (before : Option Char) (s : Str) : Prop :=
  docScan before (s ++ tail) = scan before s ++ D

section
variable {tail : Str} {D : List Tint}

theorem same_match {before : Option Char} {w r : Str} {t : Tint} (ne : w ≠ [])
    (h1 : firstRule before (w ++ r) = some (w.length, t))
    (h2 : docRule before (w ++ (r ++ tail)) = some (w.length, t))
    (k : SameHere tail D w.getLast? r) : SameHere tail D before (w ++ r) := by
  rw [SameHere, List.append_assoc, docScan_match ne h2, scan_match ne h1, k, List.append_assoc]

theorem same_apart {c : Char} (h : isWord c = false) (hp : NoMark c) {before : Option Char}
    {s : Str} (k : SameHere tail D (some c) s) : SameHere tail D before (c :: s) := by
  rw [SameHere, List.cons_append, docScan_skip (docRule_off h hp _ _), scan_apart h hp.1, k]
  rfl

theorem same_blanks {a : Str} (h : ∀ x ∈ a, Blank x) {before : Option Char} {r : Str}
    (k : ∀ last, (Apart before → Apart last) → SameHere tail D last r) : SameHere tail D before (a ++ r) := by
  induction a generalizing before with
  | nil => exact k before id
  | cons c a ih =>
    have hc := h c (by simp)
    rw [List.cons_append]
    apply same_apart (blank_apart hc).1 (blank_usual hc)
    apply ih fun x hx => h x (by simp [hx])
    intro last hl
    exact k last fun _ => hl (by simp [Apart, (blank_apart hc).1])

/-- Nothing of the line is left. -/
abbrev Closed (tail : Str) (D : List Tint) : Prop :=
  (∀ last, docScan last tail = D) ∧ ∀ c u, tail = c :: u → c = '\n'

theorem same_end (hD : Closed tail D) (last : Option Char) : SameHere tail D last [] := by
  rw [SameHere, List.nil_append, hD.1]
  rfl

theorem same_comment (hD : Closed tail D) {c : Str} (h : c = [] ∨ c.head? = some '#')
    (ht : ∀ x ∈ c, isTerm x = false) (before : Option Char) : SameHere tail D before c := by
  rcases h with rfl | h
  · exact same_end hD before
  · cases c with
    | nil => cases h
    | cons d s =>
      cases h
      have e : docRule before ('#' :: s ++ tail) = some (('#' :: s).length, .comment) := by
        have tw : (s ++ tail).takeWhile (fun x => !isTerm x) = s := by
          rw [List.takeWhile_append_of_pos fun x hx => by rw [ht x (by simp [hx])]; rfl]
          cases tail with
          | nil => simp
          | cons y u =>
            have := hD.2 y u rfl
            subst this
            simp [show isTerm '\n' = true by decide]
        have hr : docRegister ('#' :: (s ++ tail)) = none := by
          rw [docRegister, List.findSome?_eq_none_iff]
          intro m hm
          have := words_letters.2 m hm
          rw [takeLit_apart this.1 this.2 (by decide)]; rfl
        rw [List.cons_append, docRule, matchInstruction, matchOne_apart words_letters.1 _ _ (by decide), hr,
          docComment, tw]
        simp [Nat.add_comm]
      rw [SameHere, docScan_match (by simp) e, scan_comment (.inr rfl) ht, hD.1]

theorem ended_append {r : Str} (hD : Closed tail D) (h : Ended r) : Ended (r ++ tail) := by
  cases r with
  | cons c r => simpa [Ended] using h
  | nil =>
    cases tail with
    | nil => simp [Ended]
    | cons c u =>
      have := hD.2 c u rfl
      subst this
      simp [Ended, show isWord '\n' = false by decide]

theorem same_word (hD : Closed tail D) {before : Option Char} {w r : Str} {t : Tint} (hb : Apart before)
    (hr : Ended r) (hw : ∀ c ∈ w, isWord c = true) (ne : w ≠ [])
    (h : ∀ r, Ended r → firstRule before (w ++ r) = some (w.length, t))
    (k : ∀ last, SameHere tail D last r) : SameHere tail D before (w ++ r) :=
  same_match ne (h r hr) (by rw [docRule_word hb ne hw]; exact h _ (ended_append hD hr)) (k _)

theorem same_label (hD : Closed tail D) {before : Option Char} {l r : Str} (hb : Apart before)
    (hl : l.head? = some 'T') (hw : ∀ x ∈ l, ¬ Blank x) (hr : ∀ c u, r = c :: u → Blank c)
    (k : ∀ last, SameHere tail D last r) : SameHere tail D before (l ++ r) := by
  have hr' : ∀ c u, r ++ tail = c :: u → Blank c := by
    intro c u e
    cases r with
    | cons d r => cases e; exact hr _ _ rfl
    | nil => rw [hD.2 c u e]; decide
  have rule : ∀ r, (∀ c u, r = c :: u → Blank c) → firstRule before (l ++ r) = some (l.length, .label) := by
    intro r hr
    cases l with
    | nil => cases hl
    | cons c l =>
      cases hl
      have : ((l ++ r).takeWhile fun x => !isWs x) = l := by
        rw [List.takeWhile_append_of_pos]
        · cases r with
          | nil => simp
          | cons d r => simp [(isWs_iff d).2 (hr d r rfl)]
        · intro x hx
          have := hw x (by simp [hx])
          rw [← isWs_iff] at this
          simpa using this
      rw [List.cons_append, firstRule, matchLabel, if_pos (by decide), this]
      simp [Nat.add_comm]
  cases l with
  | nil => cases hl
  | cons c l =>
    cases hl
    refine same_match (by simp) (rule r hr) ?_ (k _)
    rw [← rule _ hr', List.cons_append]
    exact docRule_letter hb (by decide) _

/-- The numeral does not begin with `AC` twice. -/
def OneAC (w : Str) : Prop := ¬ SameName (w.take 4) "ACAC".toList

theorem same_numeral (hD : Closed tail D) {before : Option Char} {w r : Str} {n : Nat} (h : HexValue w n)
    (ho : OneAC w) (hb : Apart before) (hr : Ended r) (k : ∀ last, SameHere tail D last r) :
    SameHere tail D before (w ++ r) := by
  have hw := h.letters
  have hwd : ∀ c ∈ w, isWord c = true := fun c hc => letter_word (hw c hc)
  have ne := h.ne_nil
  have first : ∀ r, Ended r → firstRule before (w ++ r) =
      if SameName w "ADD".toList ∨ SameName w "BC".toList then some (w.length, .instruction)
      else if SameName (w.take 2) "AC".toList then some (2, .register) else some (w.length, .number) := by
    intro r hr
    rw [firstRule, label_none ne (letters_head hw), instruction_word hb hwd ne hr, hex_register hb hw ne hr,
      number_word hw ne hr]
    simp only [hex_instruction hw]
    split
    · rfl
    · split <;> rfl
  by_cases c : SameName w "ADD".toList ∨ SameName w "BC".toList
  · exact same_word hD hb hr hwd ne (fun r hr => by rw [first r hr, if_pos c]) k
  by_cases c' : SameName (w.take 2) "AC".toList
  · have len : (w.take 2).length = 2 := by
      rw [sameCI_length ((sameCI_iff _ _).2 c')]; rfl
    have split : ∀ r, w ++ r = w.take 2 ++ (w.drop 2 ++ r) := fun r => by
      rw [← List.append_assoc, List.take_append_drop]
    have tne : w.take 2 ≠ [] := by intro e; rw [e] at len; simp at len
    have f : ∀ r, Ended r → firstRule before (w.take 2 ++ (w.drop 2 ++ r)) = some ((w.take 2).length, .register) := by
      intro r hr
      rw [← split, first r hr, if_neg c, if_pos c', len]
    rw [split]
    refine same_match tne (f r hr) ?_ ?_
    · rw [List.append_assoc, docRule_word hb tne fun x hx => hwd x (List.mem_of_mem_take hx)]
      exact f _ (ended_append hD hr)
    · by_cases d : w.drop 2 = []
      · rw [d]; exact k _
      · have dw : ∀ c ∈ w.drop 2, isHexLetter c = true := fun c hc => hw c (List.mem_of_mem_drop hc)
        have dww : ∀ c ∈ w.drop 2, isWord c = true := fun c hc => letter_word (dw c hc)
        have inside : ∀ r, bound (w.take 2).getLast? (w.drop 2 ++ r).head? = false := by
          intro r
          rw [bound, head_word dww d,
            List.getLast?_eq_some_getLast tne, Option.any_some,
            hwd _ (List.mem_of_mem_take (List.getLast_mem tne))]
          rfl
        have noi : ∀ r, matchInstruction (w.take 2).getLast? (w.drop 2 ++ r) = none := by
          intro r
          rw [matchInstruction, matchOne, if_neg (by rw [inside]; simp)]
        refine same_match (t := .number) d ?_ ?_ (k _)
        · rw [firstRule, label_none d (letters_head dw), noi,
            matchRegister, matchOne, if_neg (by rw [inside]; simp), number_word dw d hr]
          rfl
        · have er := ended_append hD hr
          have nr : docRegister (w.drop 2 ++ (r ++ tail)) = none := by
            rw [← docRegister_bound (before := none) (bound_word rfl dww d),
              hex_register (before := none) rfl dw d er, if_neg]
            intro e
            apply ho
            have t4 : w.take 4 = w.take 2 ++ (w.drop 2).take 2 := by
              rw [← List.take_append_drop 2 (w.take 4), List.take_take, List.drop_take]
              rfl
            rw [t4]
            simp only [SameName, List.map_append] at c' e ⊢
            rw [c', e]
            rfl
          have hd : ∃ x u, w.drop 2 = x :: u := by
            cases e : w.drop 2 with
            | nil => exact absurd e d
            | cons x u => exact ⟨x, u, rfl⟩
          obtain ⟨x, u, e⟩ := hd
          have p := usual_comment (word_usual (dww x (by rw [e]; simp))) (u ++ (r ++ tail))
          rw [← List.cons_append, ← e] at p
          rw [docRule, noi, nr, p.1, p.2.2, number_word dw d er]
          rfl
  · exact same_word hD hb hr hwd ne (fun r hr => by rw [first r hr, if_neg c, if_neg c']) k

/-- `ACAC` stands nowhere in the text. -/
def NoACAC (s : Str) : Prop := ∀ u x v, s = u ++ x ++ v → ¬ SameName x "ACAC".toList

theorem NoACAC.part {s u t v : Str} (h : NoACAC s) (e : s = u ++ t ++ v) : OneAC t := by
  apply h u (t.take 4) (t.drop 4 ++ v)
  rw [e, List.append_assoc, List.append_assoc, ← List.append_assoc (t.take 4), List.take_append_drop]

theorem same_slot (hD : Closed tail D) {i : Instr} {a : Arg} {w t r : Str} {x : Slot} {before : Option Char}
    (hx : x ∈ (syntaxOf i).2) (ha : ArgText i w a) (ho : ∀ n, a = .num n → OneAC t) (ht : x.Filled w t)
    (hb : Apart before) (hr : Ended r) (hl : ∀ l, a = .label l → ∀ c u, r = c :: u → Blank c)
    (k : ∀ last, SameHere tail D last r) : SameHere tail D before (t ++ r) := by
  cases x with
  | name s =>
    have sm := slot_name hx
    have mw := words_letters.2 s sm
    have hw : ∀ c ∈ t, isWord c = true :=
      sameCI_letters ((sameCI_iff _ _).2 (show SameName t s from ht).symm) mw.2
    exact same_word hD hb hr hw (rule_register hb sm ht hr).1 (fun r hr => (rule_register hb sm ht hr).2) k
  | value =>
    have kd := slot_value hx
    cases (show t = w from ht)
    cases a with
    | none => cases e : kindOf i <;> simp_all [ArgText]
    | num n =>
      have : HexValue w n := by
        cases e : kindOf i <;> simp_all [ArgText]
      exact same_numeral hD this (ho n rfl) hb hr k
    | label l =>
      have : w = l ∧ IsLabel l ∧ ∀ c ∈ l, WordChar c := by
        cases e : kindOf i <;> simp_all [ArgText]
      obtain ⟨rfl, il, wc⟩ := this
      refine same_label hD hb il.1 (fun x hx hb => ?_) (hl w rfl) k
      have := (isWord_iff x).2 (wc x hx)
      rw [(blank_apart hb).1] at this
      cases this

theorem same_instr (hD : Closed tail D) {i : Instr} {a : Arg} {w s r : Str} {before : Option Char}
    (hs : Spells i w s) (ha : ArgText i w a) (ho : ∀ n, a = .num n → NoACAC s) (hb : Apart before) (hr : Ended r)
    (hl : ∀ l, a = .label l → kindOf i = .addr ∧ ∀ c u, r = c :: u → Blank c)
    (k : ∀ last, SameHere tail D last r) : SameHere tail D before (s ++ r) := by
  have letters : ∀ {m}, SameName m (syntaxOf i).1 → ∀ c ∈ m, isWord c = true := fun h =>
    sameCI_letters ((sameCI_iff _ _).2 h.symm) (words_letters.1 _ (mnemonic_mem i)).2
  have word : ∀ {m r}, SameName m (syntaxOf i).1 → Ended r → (∀ last, SameHere tail D last r) →
      SameHere tail D before (m ++ r) := fun hm hr k =>
    same_word hD hb hr (letters hm) (rule_instruction hb (mnemonic_mem i) hm hr).1
      (fun r hr => (rule_instruction hb (mnemonic_mem i) hm hr).2) k
  cases hs with
  | none sl hm => exact word hm hr k
  | @one m t b x sl hm bb ht =>
    have hc := blank_apart bb
    rw [List.append_assoc, List.cons_append]
    refine word hm (blank_ended bb) fun last => same_apart hc.1 (blank_usual bb) ?_
    exact same_slot hD (by rw [sl]; simp) ha
      (fun n e => (ho n e).part (u := m ++ [b]) (v := []) (by simp)) ht (by simp [Apart, hc.1]) hr
      (fun l e => (hl l e).2) k
  | @two m t u g b x y sl hm bb ht hg hu =>
    have hc := blank_apart bb
    have noLabel : ∀ l, a ≠ .label l := by
      intro l e
      have := (hl l e).1
      cases i with
      | mov s d => cases s <;> simp [kindOf, Instr.size, Operand.size] at this
      | _ => simp [syntaxOf] at sl
    have gb : ∀ x ∈ g, Blank x := by
      rcases hg with rfl | ⟨c, hc, rfl⟩
      · simp
      · simpa using hc
    have shape : m ++ b :: (t ++ ',' :: (g ++ u)) ++ r = m ++ b :: (t ++ ',' :: (g ++ (u ++ r))) := by simp
    rw [shape]
    refine word hm (blank_ended bb) fun last => same_apart hc.1 (blank_usual bb) ?_
    refine same_slot hD (by rw [sl]; simp) ha
      (fun n e => (ho n e).part (u := m ++ [b]) (v := ',' :: (g ++ u)) (by simp)) ht (by simp [Apart, hc.1])
      (by simp [Ended, show isWord ',' = false by decide]) (fun l e => absurd e (noLabel l)) fun last => ?_
    refine same_apart (by decide) (by decide) (same_blanks gb fun last hlast => ?_)
    exact same_slot hD (by rw [sl]; simp) ha
      (fun n e => (ho n e).part (u := m ++ b :: (t ++ ',' :: g)) (v := []) (by simp)) hu (hlast (by simp [Apart, show isWord ',' = false by decide]))
      hr (fun l e => absurd e (noLabel l)) k

end

/-! ## Programs -/

/-- The lines of the claim: those of C81, where a numeral has no `ACAC`. -/
inductive Listed : Str → Prop
  | statement {a core b c : Str} {st : Stmt} (ha : ∀ x ∈ a, Blank x) (hb : ∀ x ∈ b, Blank x)
      (hc : c = [] ∨ c.head? = some '#') (ht : ∀ x ∈ c, x ≠ '\n' ∧ ¬ OddTerm x) (hr : Reads core st)
      (hl : ∀ l, st.label = some l → ∀ x ∈ l, ¬ Blank x)
      (ho : ∀ l, st.arg = .label l → kindOf st.instr = .addr ∧ (b ≠ [] ∨ c = []))
      (hn : ∀ n, st.arg = .num n → NoACAC core) : Listed (a ++ core ++ b ++ c)
  | comment {a c : Str} (ha : ∀ x ∈ a, Blank x) (hc : c = [] ∨ c.head? = some '#')
      (ht : ∀ x ∈ c, x ≠ '\n' ∧ ¬ OddTerm x) : Listed (a ++ c)

theorem not_terms {c : Str} (ht : ∀ x ∈ c, x ≠ '\n' ∧ ¬ OddTerm x) : ∀ x ∈ c, isTerm x = false := by
  intro x hx
  obtain ⟨h1, h2⟩ := ht x hx
  have h1 : x.toNat ≠ 10 := fun e => h1 (toNat_inj.1 e)
  simp only [OddTerm, List.mem_cons, List.not_mem_nil, or_false] at h2
  simp only [isTerm, Bool.or_eq_false_iff, beq_eq_false_iff_ne]
  omega

theorem Listed.same {tail : Str} {D : List Tint} (hD : Closed tail D) {line : Str} (h : Listed line)
    {before : Option Char} (hbf : Apart before) : SameHere tail D before line := by
  cases h with
  | comment ha hc ht => exact same_blanks ha fun last _ => same_comment hD hc (not_terms ht) last
  | @statement a core b c st ha hb hc ht hr hl ho hn =>
    obtain ⟨w, s, hs, hat, hlab⟩ := hr
    have rest : ∀ last, SameHere tail D last (b ++ c) := fun last =>
      same_blanks hb fun last _ => same_comment hD hc (not_terms ht) last
    have ended : Ended (b ++ c) := by
      cases b with
      | cons x b => exact blank_ended (hb x (by simp))
      | nil =>
        cases c with
        | nil => simp [Ended]
        | cons x c =>
          rcases hc with hc | hc
          · cases hc
          · cases hc; simp [Ended, show isWord '#' = false by decide]
    have blank : ∀ l, st.arg = .label l → kindOf st.instr = .addr ∧ ∀ x u, b ++ c = x :: u → Blank x := by
      intro l e
      obtain ⟨h1, h2⟩ := ho l e
      refine ⟨h1, fun x u h => ?_⟩
      cases b with
      | cons y b => cases h; exact hb _ (by simp)
      | nil =>
        rcases h2 with h2 | h2
        · exact absurd rfl h2
        · subst h2; cases h
    rw [show a ++ core ++ b ++ c = a ++ (core ++ (b ++ c)) by simp]
    refine same_blanks ha fun last hlast => ?_
    cases hlb : st.label with
    | none =>
      simp only [hlb] at hlab
      subst hlab
      exact same_instr hD hs hat hn (hlast hbf) ended blank rest
    | some l =>
      simp only [hlb] at hlab
      obtain ⟨il, rfl⟩ := hlab
      rw [List.append_assoc, List.cons_append]
      refine same_label hD (hlast hbf) il.1 (hl l hlb) (fun c u e => by cases e; decide) fun last => ?_
      refine same_apart (by decide) (by decide) ?_
      refine same_instr hD hs hat (fun n e => ?_) (by simp [Apart, show isWord ' ' = false by decide]) ended
        blank rest
      intro u x v e'
      exact hn n e (l ++ ' ' :: u) x v (by rw [e']; simp)

theorem bound_apart {b b' : Option Char} (h : Apart b) (h' : Apart b') (x : Option Char) :
    bound b x = bound b' x := by
  rw [bound, bound, h, h']

theorem scan_start {b b' : Option Char} (h : Apart b) (h' : Apart b') (s : Str) : scan b s = scan b' s := by
  cases s with
  | nil => rfl
  | cons c s =>
    have one : matchInstruction b (c :: s) = matchInstruction b' (c :: s) := by
      rw [matchInstruction, matchInstruction, matchOne, matchOne, bound_apart h h']
      congr 2
      funext m
      cases takeLit m (c :: s) with
      | none => rfl
      | some p =>
        obtain ⟨t, r⟩ := p
        show (if bound (t.getLast?.or b) r.head? then _ else _) = if bound (t.getLast?.or b') r.head? then _ else _
        cases t.getLast? with
        | none => rw [Option.none_or, Option.none_or, bound_apart h h']
        | some x => rfl
    have two : matchRegister b (c :: s) = matchRegister b' (c :: s) := by
      rw [matchRegister, matchRegister, matchOne, matchOne, bound_apart h h']
    have f : firstRule b (c :: s) = firstRule b' (c :: s) := by
      rw [firstRule, firstRule, one, two]
    show tintsFrom b 0 .text (c :: s) = tintsFrom b' 0 .text (c :: s)
    rw [tintsFrom, tintsFrom]
    simp only [f]

/-- **C93.** The documentation gives every character of a program the class that the editor gives it in
its line, and none to the ends of the lines. Numerals that begin with `ACAC` are left out: see
`C93_twice`. -/
theorem C93_program {ls : List Str} (h : ∀ l ∈ ls, Listed l) :
    docTints (['\n'].intercalate ls) = [Tint.text].intercalate (ls.map tints) := by
  have go : ∀ (ls : List Str), (∀ l ∈ ls, Listed l) → ∀ before, Apart before →
      docScan before (['\n'].intercalate ls) = [Tint.text].intercalate (ls.map tints) := by
    intro ls
    induction ls with
    | nil => intro _ _ _; rfl
    | cons l ls ih =>
      intro h before hb
      have hl := h l (by simp)
      cases ls with
      | nil =>
        have := hl.same (tail := []) (D := []) ⟨fun _ => rfl, by simp⟩ hb
        simp only [SameHere, List.append_nil] at this
        rw [scan_start hb (b' := none) rfl] at this
        have e1 : ['\n'].intercalate [l] = l := by simp [List.intercalate]
        have e2 : [Tint.text].intercalate ([l].map tints) = tints l := by simp [List.intercalate]
        rw [e1, e2]
        exact this
      | cons k ls =>
        have ih := ih (fun x hx => h x (by simp [hx])) (some '\n') (by simp [Apart, show isWord '\n' = false by decide])
        have := hl.same (tail := '\n' :: ['\n'].intercalate (k :: ls))
          (D := .text :: [Tint.text].intercalate ((k :: ls).map tints))
          ⟨fun last => by rw [docScan_skip (docRule_off (by decide) (by decide) _ _), ih],
            fun c u e => by cases e; rfl⟩ hb
        rw [SameHere, scan_start hb (b' := none) rfl] at this
        have e1 : ['\n'].intercalate (l :: k :: ls) = l ++ '\n' :: ['\n'].intercalate (k :: ls) := by
          simp [List.intercalate]
        have e2 : [Tint.text].intercalate ((l :: k :: ls).map tints) =
            tints l ++ .text :: [Tint.text].intercalate ((k :: ls).map tints) := by
          simp [List.intercalate]
        rw [e1, e2]
        exact this
  exact go ls h none rfl

example : docTints "TLOOP INC RB\n # again\n JMP TLOOP # forever".toList =
    [Tint.text].intercalate (["TLOOP INC RB".toList, " # again".toList, " JMP TLOOP # forever".toList].map tints) := by
  have h1 : Listed "TLOOP INC RB".toList :=
    .statement (a := []) (b := []) (c := []) (st := ⟨some "TLOOP".toList, .inc (.reg .b), .none⟩)
      (by simp) (by simp) (.inl rfl) (by simp)
      (reads_lineOf (st := ⟨some "TLOOP".toList, .inc (.reg .b), .none⟩) (w := []) (by decide) (by decide))
      (by decide) (by simp) (by simp)
  have h2 : Listed " # again".toList :=
    .comment (a := [' ']) (c := "# again".toList) (by decide) (.inr rfl) (by decide)
  have h3 : Listed " JMP TLOOP # forever".toList :=
    .statement (a := [' ']) (b := [' ']) (c := "# forever".toList) (st := ⟨none, .jmp, .label "TLOOP".toList⟩)
      (by decide) (by decide) (.inr rfl) (by decide)
      (reads_lineOf (st := ⟨none, .jmp, .label "TLOOP".toList⟩) (w := "TLOOP".toList) (by decide) (by decide))
      (by simp) (by intro l _; exact ⟨rfl, .inl (by simp)⟩) (by simp)
  have e : "TLOOP INC RB\n # again\n JMP TLOOP # forever".toList = ['\n'].intercalate
      ["TLOOP INC RB".toList, " # again".toList, " JMP TLOOP # forever".toList] := by decide +kernel
  rw [e]
  apply C93_program
  intro l hl
  simp only [List.mem_cons, List.not_mem_nil, or_false] at hl
  rcases hl with rfl | rfl | rfl
  · exact h1
  · exact h2
  · exact h3

/-- **C93, the exceptions are real.** The register rule of the documentation has no `\b`: in a numeral
`AC` is a register for a second time, and so it is inside of a word. `$` and `=` get the colour of the
number behind them. -/
theorem C93_twice :
    tints "JMP ACAC".toList = paint .instruction "JMP".toList ++ .text ::
      (paint .register "AC".toList ++ paint .number "AC".toList) ∧
    docTints "JMP ACAC".toList = paint .instruction "JMP".toList ++ .text :: paint .register "ACAC".toList ∧
    tints "XRB".toList = [.text, .text, .number] ∧
    docTints "XRB".toList = .text :: paint .register "RB".toList ∧
    tints "$1F".toList = .text :: paint .number "1F".toList ∧ docTints "$1F".toList = paint .number "$1F".toList := by
  decide +kernel

end Mpp.Front
