import Verif.Front.Editing
import Verif.Front.Lex
import Verif.Front.Hexa
import Verif.Front.Render
/-!
# C80, C81: the suggestions of the editor and the colours of a line
-/
namespace Mpp.Front

/-! ## Suggestions -/

theorem distinct_step [DecidableEq α] (a seen : List α) (h : seen.Nodup) :
    let r := a.foldl (fun seen x => if x ∈ seen then seen else seen ++ [x]) seen
    r.Nodup ∧ ∀ x, x ∈ r ↔ x ∈ seen ∨ x ∈ a := by
  induction a generalizing seen with
  | nil => exact ⟨h, by simp⟩
  | cons y a ih =>
    simp only [List.foldl_cons]
    by_cases m : y ∈ seen
    · rw [if_pos m]
      obtain ⟨h1, h2⟩ := ih seen h
      refine ⟨h1, fun x => ?_⟩
      rw [h2, List.mem_cons]
      constructor
      · rintro (h | h)
        · exact .inl h
        · exact .inr (.inr h)
      · rintro (h | rfl | h)
        · exact .inl h
        · exact .inl m
        · exact .inr h
    · rw [if_neg m]
      obtain ⟨h1, h2⟩ := ih (seen ++ [y]) (by
        rw [List.nodup_append]
        refine ⟨h, by simp, ?_⟩
        rintro a ha b hb rfl
        rw [List.mem_singleton] at hb
        exact m (hb ▸ ha))
      refine ⟨h1, fun x => ?_⟩
      rw [h2, List.mem_append, List.mem_singleton, List.mem_cons, or_assoc]

theorem distinct_nodup [DecidableEq α] (a : List α) : (distinct a).Nodup :=
  (distinct_step a [] List.nodup_nil).1

theorem mem_distinct [DecidableEq α] (a : List α) (x : α) : x ∈ distinct a ↔ x ∈ a := by
  have := (distinct_step a [] List.nodup_nil).2 x
  simpa [distinct] using this

/-- The shortest numeral in capitals. -/
def Shortest (c : Str) (n : Nat) : Prop :=
  HexValue c n ∧ (∀ x ∈ c, x ∈ "0123456789ABCDEF".toList) ∧ (c.head? = some '0' → c = ['0'])

theorem capital_digit {c : Char} {d : Nat} (hc : c ∈ "0123456789ABCDEF".toList)
    (h : digitValue c = some d) : c = (Nat.digitChar d).toUpper ∧ d < 16 ∧ (d = 0 → c = '0') := by
  have : ∀ c ∈ "0123456789ABCDEF".toList,
      c = (Nat.digitChar ((digitValue c).getD 0)).toUpper ∧ (digitValue c).getD 0 < 16 ∧
      ((digitValue c).getD 0 = 0 → c = '0') := by
    decide +kernel
  have := this c hc
  rw [h] at this
  exact this

theorem upper_hex (n : Nat) : (toHex n).map Char.toUpper =
    if n < 16 then [(Nat.digitChar n).toUpper]
    else (toHex (n / 16)).map Char.toUpper ++ [(Nat.digitChar (n % 16)).toUpper] := by
  rw [toHex, Nat.toDigits_eq_if (by decide)]
  split
  · rfl
  · simp [toHex]

theorem capital_char {d : Nat} (h : d < 16) :
    (Nat.digitChar d).toUpper ∈ "0123456789ABCDEF".toList ∧
    ((Nat.digitChar d).toUpper = '0' → d = 0) := by
  revert d; decide +kernel

theorem shortest_hex (n : Nat) : Shortest ((toHex n).map Char.toUpper) n ∧
    (n ≠ 0 → ((toHex n).map Char.toUpper).head? ≠ some '0') := by
  induction n using Nat.strongRecOn with
  | _ n ih =>
    have v := toHex_upper n
    rw [upper_hex] at v ⊢
    by_cases h : n < 16
    · rw [if_pos h] at v ⊢
      obtain ⟨h1, h2⟩ := capital_char h
      refine ⟨⟨v, by simpa using h1, fun e => by simpa using e⟩, fun h3 e => h3 (h2 (by simpa using e))⟩
    · rw [if_neg h] at v ⊢
      obtain ⟨⟨v', h1, h2⟩, h3⟩ := ih (n / 16) (by omega)
      have ne : (toHex (n / 16)).map Char.toUpper ≠ [] := v'.ne_nil
      have h4 : ((toHex (n / 16)).map Char.toUpper ++ [(Nat.digitChar (n % 16)).toUpper]).head? ≠
          some '0' := by
        rw [List.head?_append_of_ne_nil _ ne]
        exact h3 (by omega)
      refine ⟨⟨v, ?_, fun e => absurd e h4⟩, fun _ => h4⟩
      intro x hx
      rcases List.mem_append.1 hx with hx | hx
      · exact h1 x hx
      · rw [List.mem_singleton.1 hx]; exact (capital_char (Nat.mod_lt n (by decide))).1

theorem Shortest.eq {c : Str} {n : Nat} (h : Shortest c n) : c = (toHex n).map Char.toUpper := by
  obtain ⟨v, cap, z⟩ := h
  induction v with
  | digit h =>
    obtain ⟨e, l, _⟩ := capital_digit (cap _ (by simp)) h
    rw [upper_hex, if_pos l, ← e]
  | @more s c n d hs h ih =>
    obtain ⟨e, l, _⟩ := capital_digit (cap c (by simp)) h
    have sne : s ≠ [] := hs.ne_nil
    have hz : s.head? ≠ some '0' := by
      intro e
      have := z (by rw [List.head?_append_of_ne_nil _ sne]; exact e)
      have := congrArg List.length this
      have : s.length = 0 := by simpa using this
      exact sne (List.length_eq_zero_iff.1 this)
    have ih := ih (fun x hx => cap x (by simp [hx])) (fun e => absurd e hz)
    have n0 : n ≠ 0 := by
      rintro rfl
      rw [ih] at hz
      exact hz (by decide)
    rw [upper_hex, if_neg (by omega), show (16 * n + d) / 16 = n by omega,
      show (16 * n + d) % 16 = d by omega, ← ih, ← e]

/-- The registers that a program can name. -/
def RegisterName (c : Str) : Prop := c = acName ∨ ∃ g : G, c = G.name g

theorem registers_mem (c : Str) : c ∈ allRegisters ↔ RegisterName c := by
  constructor
  · intro h
    simp only [allRegisters, List.mem_cons, List.not_mem_nil, or_false] at h
    rcases h with rfl | rfl | rfl | rfl | rfl
    · exact .inl rfl
    · exact .inr ⟨.b, rfl⟩
    · exact .inr ⟨.c, rfl⟩
    · exact .inr ⟨.d, rfl⟩
    · exact .inr ⟨.e, rfl⟩
  · rintro (rfl | ⟨g, rfl⟩)
    · decide
    · cases g <;> decide

theorem instructions_list : allInstructions = ["MOV", "SUB", "CMP", "AND", "OR", "XOR", "INC", "ADD",
    "CMA", "LDA", "STA", "STAX", "LDAX", "PUSH", "POP", "INISP", "BEQ", "BC", "JMP", "LFA", "SFA",
    "CALL", "RET", "IRET", "FIN"].map String.toList := by decide +kernel

theorem instructions_mem (c : Str) : c ∈ allInstructions ↔ ∃ i : Instr, c = (syntaxOf i).1 := by
  rw [instructions_list]
  constructor
  · intro h
    simp only [List.map_cons, List.map_nil, List.mem_cons, List.not_mem_nil, or_false] at h
    rcases h with rfl | rfl | rfl | rfl | rfl | rfl | rfl | rfl | rfl | rfl | rfl | rfl | rfl | rfl |
      rfl | rfl | rfl | rfl | rfl | rfl | rfl | rfl | rfl | rfl | rfl
    · exact ⟨.mov .ac .ac, rfl⟩
    · exact ⟨.alu .sub .ac, rfl⟩
    · exact ⟨.alu .cmp .ac, rfl⟩
    · exact ⟨.alu .and .ac, rfl⟩
    · exact ⟨.alu .or .ac, rfl⟩
    · exact ⟨.alu .xor .ac, rfl⟩
    · exact ⟨.inc .ac, rfl⟩
    · exact ⟨.alu .add .ac, rfl⟩
    · exact ⟨.cma, rfl⟩
    · exact ⟨.lda, rfl⟩
    · exact ⟨.sta, rfl⟩
    · exact ⟨.stax, rfl⟩
    · exact ⟨.ldax, rfl⟩
    · exact ⟨.push, rfl⟩
    · exact ⟨.pop, rfl⟩
    · exact ⟨.inisp, rfl⟩
    · exact ⟨.beq, rfl⟩
    · exact ⟨.bc, rfl⟩
    · exact ⟨.jmp, rfl⟩
    · exact ⟨.lfa, rfl⟩
    · exact ⟨.sfa, rfl⟩
    · exact ⟨.call, rfl⟩
    · exact ⟨.ret, rfl⟩
    · exact ⟨.iret, rfl⟩
    · exact ⟨.fin, rfl⟩
  · rintro ⟨i, rfl⟩
    cases i with
    | alu op s => cases op <;> (simp only [syntaxOf, AluOp.name]; decide)
    | _ => simp only [syntaxOf]; decide

/-- **C80.** After a prefix the editor suggests, each once, exactly the mnemonics, the registers and
the shortest numerals in capitals, up to FFFF, that begin with the prefix. -/
theorem C80_suggested (p : Str) : (getCompletions p).Nodup ∧ ∀ c, c ∈ getCompletions p ↔
    p <+: c ∧ ((∃ i : Instr, c = (syntaxOf i).1) ∨ RegisterName c ∨ ∃ n < 65536, Shortest c n) := by
  refine ⟨(distinct_nodup _).filter _, fun c => ?_⟩
  rw [getCompletions, List.mem_filter, allCompletions, mem_distinct, List.mem_append, List.mem_append,
    instructions_mem, registers_mem, startsWith, List.isPrefixOf_iff_prefix, and_comm, or_assoc]
  have : c ∈ allConstants ↔ ∃ n < 65536, Shortest c n := by
    simp only [allConstants, List.mem_map, List.mem_range]
    constructor
    · rintro ⟨n, h, rfl⟩; exact ⟨n, h, (shortest_hex n).1⟩
    · rintro ⟨n, h, s⟩; exact ⟨n, h, s.eq.symm⟩
  rw [this]

example : "ADD".toList ∈ getCompletions "AD".toList ∧ "AD0".toList ∈ getCompletions "AD".toList := by
  constructor
  · exact ((C80_suggested _).2 _).2 ⟨⟨['D'], rfl⟩, .inl ⟨.alu .add .ac, rfl⟩⟩
  · refine ((C80_suggested _).2 _).2 ⟨⟨['0'], rfl⟩, .inr (.inr ⟨0xAD0, by decide, ?_⟩)⟩
    have : "AD0".toList = (toHex 0xAD0).map Char.toUpper := by decide +kernel
    rw [this]
    exact (shortest_hex _).1

theorem suggested_capital {p c : Str} (h : c ∈ getCompletions p) :
    ∀ x ∈ c, ¬ (97 ≤ x.toNat ∧ x.toNat ≤ 122) := by
  rcases (((C80_suggested p).2 c).1 h).2 with ⟨i, rfl⟩ | r | ⟨n, _, s⟩
  · have : ∀ m ∈ allInstructions, ∀ x ∈ m, ¬ (97 ≤ x.toNat ∧ x.toNat ≤ 122) := by
      rw [instructions_list]; decide +kernel
    exact this _ ((instructions_mem _).2 ⟨i, rfl⟩)
  · have : ∀ m ∈ allRegisters, ∀ x ∈ m, ¬ (97 ≤ x.toNat ∧ x.toNat ≤ 122) := by decide +kernel
    exact this _ ((registers_mem _).2 r)
  · intro x hx
    have : ∀ x ∈ "0123456789ABCDEF".toList, ¬ (97 ≤ x.toNat ∧ x.toNat ≤ 122) := by decide +kernel
    exact this x (s.2.1 x hx)

/-- **C80, what is missing.** Although the assembler reads either case and numerals with zeros in
front (`C37`, `C36`), nothing is suggested after a small letter, nor after a zero with anything behind it. -/
theorem C80_silent (p : Str) (h : (∃ x ∈ p, 97 ≤ x.toNat ∧ x.toNat ≤ 122) ∨ ∃ x q, p = '0' :: x :: q) :
    getCompletions p = [] := by
  rw [List.eq_nil_iff_forall_not_mem]
  intro c hc
  have hp := (((C80_suggested p).2 c).1 hc).1
  rcases h with ⟨x, hx, l⟩ | ⟨x, q, rfl⟩
  · exact suggested_capital hc x (hp.subset hx) l
  · obtain ⟨r, rfl⟩ := hp
    rcases (((C80_suggested _).2 _).1 hc).2 with ⟨i, e⟩ | r' | ⟨n, _, s⟩
    · have : ∀ m ∈ allInstructions, m.head? ≠ some '0' := by rw [instructions_list]; decide +kernel
      exact this _ ((instructions_mem _).2 ⟨i, rfl⟩) (by rw [← e]; rfl)
    · have : ∀ m ∈ allRegisters, m.head? ≠ some '0' := by decide +kernel
      exact this _ ((registers_mem _).2 r') rfl
    · have := s.2.2 rfl
      simp at this

example : getCompletions "mo".toList = [] ∧ getCompletions "0F".toList = [] :=
  ⟨C80_silent _ (.inl ⟨'m', by decide, by decide⟩), C80_silent _ (.inr ⟨'F', [], rfl⟩)⟩

/-! ## Colours -/

/-- The class `t` for every character of `s`. -/
def paint (t : Tint) (s : Str) : List Tint := List.replicate s.length t

/-- A numeral is coloured as a number, unless it is spelled like the instructions `ADD` and `BC` or
begins like the register `AC`. -/
def numeralTints (w : Str) : List Tint :=
  if SameName w "ADD".toList ∨ SameName w "BC".toList then paint .instruction w
  else if SameName (w.take 2) "AC".toList then paint .register (w.take 2) ++ paint .number (w.drop 2)
  else paint .number w

/-- The colours of an operand. -/
def Slot.tints (a : Arg) (t : Str) : Slot → List Tint
  | .name _ => paint .register t
  | .value =>
    match a with
    | .num _ => numeralTints t
    | _ => paint .label t

/-- As `Spells`, with the colours of the parts: `s` is the instruction `i` with value text `w`. -/
inductive Tinted (i : Instr) (a : Arg) (w : Str) : Str → List Tint → Prop
  | none {m : Str} (sl : (syntaxOf i).2 = []) (hm : SameName m (syntaxOf i).1) :
      Tinted i a w m (paint .instruction m)
  | one {m t : Str} {b : Char} {x : Slot} (sl : (syntaxOf i).2 = [x])
      (hm : SameName m (syntaxOf i).1) (hb : Blank b) (ht : x.Filled w t) :
      Tinted i a w (m ++ b :: t) (paint .instruction m ++ Tint.text :: x.tints a t)
  | two {m t u g : Str} {b : Char} {x y : Slot} (sl : (syntaxOf i).2 = [x, y])
      (hm : SameName m (syntaxOf i).1) (hb : Blank b) (ht : x.Filled w t)
      (hg : g = [] ∨ ∃ c, Blank c ∧ g = [c]) (hu : y.Filled w u) :
      Tinted i a w (m ++ b :: (t ++ ',' :: (g ++ u)))
        (paint .instruction m ++ Tint.text :: (x.tints a t ++ Tint.text :: (paint .text g ++ y.tints a u)))

/-- The scan between two matches. -/
abbrev scan (before : Option Char) (s : Str) : List Tint := tintsFrom before 0 .text s

/-- No letter before. -/
abbrev Apart (before : Option Char) : Prop := before.any isWord = false

/-- No letter after. -/
abbrev Ended (r : Str) : Prop := r.head?.any isWord = false

theorem tints_left (before : Option Char) (t : Tint) (w r : Str) (n : Nat) (h : n = w.length) :
    tintsFrom before n t (w ++ r) = paint t w ++ tintsFrom (w.getLast?.or before) 0 t r := by
  induction w generalizing before n with
  | nil => subst h; simp [paint]
  | cons c w ih =>
    subst h
    rw [List.length_cons, List.cons_append, tintsFrom, ih (some c) w.length rfl]
    simp only [paint, List.length_cons, List.replicate_succ, List.cons_append]
    cases w with
    | nil => simp
    | cons d w => simp [List.getLast?_cons]

theorem tints_zero (before : Option Char) (t : Tint) (s : Str) : tintsFrom before 0 t s = scan before s := by
  cases s <;> rfl

theorem scan_match {before : Option Char} {w r : Str} {t : Tint} (ne : w ≠ [])
    (h : firstRule before (w ++ r) = some (w.length, t)) :
    scan before (w ++ r) = paint t w ++ scan w.getLast? r := by
  cases w with
  | nil => exact absurd rfl ne
  | cons c w =>
    have h' : firstRule before (c :: (w ++ r)) = some (w.length + 1, t) := h
    rw [List.cons_append]
    show tintsFrom before 0 .text (c :: (w ++ r)) = _
    rw [tintsFrom]
    simp only [h']
    rw [show w.length + 1 - 1 = w.length from rfl, tints_left (some c) t w r w.length rfl, tints_zero]
    simp only [paint, List.length_cons, List.replicate_succ, List.cons_append]
    congr 3
    cases w with
    | nil => rfl
    | cons d w => simp [List.getLast?_cons]

theorem scan_skip {before : Option Char} {c : Char} {s : Str} (h : firstRule before (c :: s) = none) :
    scan before (c :: s) = .text :: scan (some c) s := by
  show tintsFrom before 0 .text (c :: s) = _
  rw [tintsFrom]
  simp only [h]

/-! ### The rules at a character that is no letter -/

theorem words_letters : (∀ m ∈ allInstructions, m ≠ [] ∧ ∀ c ∈ m, isWord c = true) ∧
    (∀ m ∈ allRegisters, m ≠ [] ∧ ∀ c ∈ m, isWord c = true) := by
  rw [instructions_list]; decide +kernel

theorem takeLit_apart {m : Str} (ne : m ≠ []) (hm : ∀ c ∈ m, isWord c = true) {c : Char} {s : Str}
    (hc : isWord c = false) : takeLit m (c :: s) = none := by
  cases m with
  | nil => exact absurd rfl ne
  | cons a m =>
    rw [takeLit, if_neg]
    intro h
    have := eqCI_word h
    rw [hm a (by simp), hc] at this
    cases this

theorem matchOne_apart {words : List Str} (hw : ∀ m ∈ words, m ≠ [] ∧ ∀ c ∈ m, isWord c = true)
    (fit : Option Char → Str → Bool) (before : Option Char) {c : Char} {s : Str} (hc : isWord c = false) :
    matchOne words fit before (c :: s) = none := by
  rw [matchOne]
  split
  · rw [List.findSome?_eq_none_iff]
    intro m hm
    rw [takeLit_apart (hw m hm).1 (hw m hm).2 hc]
  · rfl

theorem hexLetter_nat (c : Char) : isHexLetter c = true ↔
    (48 ≤ c.toNat ∧ c.toNat ≤ 57) ∨ (65 ≤ c.toNat ∧ c.toNat ≤ 70) ∨ (97 ≤ c.toNat ∧ c.toNat ≤ 102) := by
  have v : ∀ c : Char, c.toNat = c.val.toNat := fun _ => rfl
  have u := upper_nat c
  simp only [isHexLetter, Bool.or_eq_true, Bool.and_eq_true, decide_eq_true_eq, Char.isDigit, ge_iff_le,
    Char.le_def, UInt32.le_iff_toNat_le, ← v, u]
  simp only [v, Char.reduceVal, UInt32.reduceToNat]
  split <;> omega

theorem rule_apart {c : Char} (hc : isWord c = false) (before : Option Char) (s : Str) :
    firstRule before (c :: s) = (matchComment (c :: s)).map (·, Tint.comment) := by
  have n := mt (isWord_nat c).2 (by rw [hc]; simp)
  have h1 : matchLabel (c :: s) = none := by
    rw [matchLabel, if_neg]
    intro h
    have := eqCI_word h
    rw [hc] at this
    cases this
  have h2 : matchNumber (c :: s) = none := by
    have : isHexLetter c = false := by
      rw [Bool.eq_false_iff]
      intro h
      rw [hexLetter_nat] at h
      omega
    simp [matchNumber, this]
  rw [firstRule, h1, matchInstruction, matchOne_apart words_letters.1 _ _ hc, matchRegister]
  have := matchOne_apart words_letters.2 (fun _ _ => true) before (s := s) hc
  rw [show allRegisters = ["AC".toList, "RB".toList, "RC".toList, "RD".toList, "RE".toList] from rfl] at this
  rw [this, h2]
  rfl

theorem blank_apart {c : Char} (h : Blank c) : isWord c = false ∧ c ≠ '#' := by
  constructor
  · rw [Bool.eq_false_iff]
    intro hw
    have := word_not_ws hw
    rw [(isWs_iff c).2 h] at this
    cases this
  · rintro rfl
    exact absurd h (by decide)

theorem scan_apart {c : Char} (h : isWord c = false) (h' : c ≠ '#') (before : Option Char) (s : Str) :
    scan before (c :: s) = .text :: scan (some c) s := by
  apply scan_skip
  rw [rule_apart h]
  have : matchComment (c :: s) = none := by
    unfold matchComment
    split
    · rename_i e; cases e; exact absurd rfl h'
    · rfl
  rw [this]; rfl

theorem scan_blanks {a : Str} (h : ∀ x ∈ a, Blank x) (before : Option Char) (r : Str) :
    scan before (a ++ r) = paint .text a ++ scan (a.getLast?.or before) r ∧
    (Apart before → Apart (a.getLast?.or before)) := by
  induction a generalizing before with
  | nil => simp [paint]
  | cons c a ih =>
    have hc := blank_apart (h c (by simp))
    have ih := ih (fun x hx => h x (by simp [hx])) (some c)
    rw [List.cons_append, scan_apart hc.1 hc.2, ih.1]
    have e : (c :: a).getLast?.or before = a.getLast?.or (some c) := by
      cases a <;> simp [List.getLast?_cons]
    rw [e]
    exact ⟨by simp [paint, List.replicate_succ], fun _ => ih.2 (by simp [Apart, hc.1])⟩

theorem scan_comment {c : Str} (h : c = [] ∨ c.head? = some '#') (ht : ∀ x ∈ c, isTerm x = false)
    (before : Option Char) : scan before c = paint .comment c := by
  rcases h with rfl | h
  · rfl
  · cases c with
    | nil => cases h
    | cons d s =>
      cases h
      have r : firstRule before ('#' :: s ++ []) = some (('#' :: s).length, .comment) := by
        rw [List.append_nil, rule_apart (by decide)]
        have : s.any isTerm = false := by
          rw [List.any_eq_false]
          intro x hx
          rw [ht x (by simp [hx])]; simp
        simp [matchComment, this, Nat.add_comm]
      have := scan_match (by simp) r
      rw [List.append_nil] at this
      rw [this]
      simp [scan, tintsFrom]

/-! ### The rules at a word -/

theorem findSome_unique {α β : Type} {f : α → Option β} {l : List α} {v : β}
    (h1 : ∃ x ∈ l, f x = some v) (h2 : ∀ x ∈ l, ∀ u, f x = some u → u = v) : l.findSome? f = some v := by
  cases h : l.findSome? f with
  | none =>
    obtain ⟨x, hx, e⟩ := h1
    rw [List.findSome?_eq_none_iff] at h
    rw [h x hx] at e; cases e
  | some u =>
    obtain ⟨x, hx, e⟩ := List.exists_of_findSome?_eq_some h
    rw [h2 x hx u e]

theorem sameCI_letters {m t : Str} (h : sameCI m t = true) (hm : ∀ c ∈ m, isWord c = true) :
    ∀ c ∈ t, isWord c = true := by
  induction m generalizing t with
  | nil =>
    have := sameCI_length h
    cases t with
    | nil => simp
    | cons _ _ => simp at this
  | cons a m ih =>
    cases t with
    | nil => simp
    | cons b t =>
      simp only [sameCI, List.map_cons, beq_iff_eq, List.cons.injEq] at h
      intro c hc
      rcases List.mem_cons.1 hc with rfl | hc
      · have : eqCI a c = true := by simp [eqCI, h.1]
        rw [← eqCI_word this]; exact hm a (by simp)
      · exact ih (by simp [sameCI, h.2]) (fun c hc => hm c (by simp [hc])) c hc

theorem ended_iff {r : Str} : Ended r ↔ ∀ c u, r = c :: u → isWord c = false := by
  cases r with
  | nil => simp [Ended]
  | cons c u =>
    constructor
    · intro h d v e; cases e; simpa [Ended] using h
    · intro h; simpa [Ended] using h c u rfl

theorem head_word {w r : Str} (hw : ∀ c ∈ w, isWord c = true) (ne : w ≠ []) :
    (w ++ r).head?.any isWord = true := by
  cases w with
  | nil => exact absurd rfl ne
  | cons c w => simpa using hw c (by simp)

theorem bound_word {before : Option Char} {w r : Str} (hb : Apart before)
    (hw : ∀ c ∈ w, isWord c = true) (ne : w ≠ []) : bound before (w ++ r).head? = true := by
  rw [bound, hb, head_word hw ne]; rfl

/-- A whole word is an instruction or nothing. -/
theorem instruction_word {before : Option Char} {w r : Str} (hb : Apart before)
    (hw : ∀ c ∈ w, isWord c = true) (ne : w ≠ []) (hr : Ended r) :
    matchInstruction before (w ++ r) =
      if ∃ m ∈ allInstructions, SameName w m then some w.length else none := by
  rw [matchInstruction, matchOne, if_pos (bound_word hb hw ne)]
  have only : ∀ m ∈ allInstructions, ∀ t r', takeLit m (w ++ r) = some (t, r') →
      bound (t.getLast?.or before) r'.head? = true → t = w ∧ SameName w m := by
    intro m hm t r' ht hf
    obtain ⟨e, s⟩ := takeLit_some ht
    have mw := words_letters.1 m hm
    have tw := sameCI_letters s mw.2
    have tne : t ≠ [] := by
      intro e; subst e
      exact mw.1 (List.length_eq_zero_iff.1 (by simpa using sameCI_length s))
    have last : ∃ c, t.getLast? = some c ∧ isWord c = true := by
      refine ⟨t.getLast tne, List.getLast?_eq_some_getLast tne, tw _ (List.getLast_mem tne)⟩
    obtain ⟨c, lc, wc⟩ := last
    have er : Ended r' := by
      simp only [bound, lc, Option.some_or, Option.any_some, wc] at hf
      simpa [Ended] using hf
    have h1 := (tok_append hw r (ended_iff.1 hr)).1
    have h2 := (tok_append tw r' (ended_iff.1 er)).1
    rw [e, h2] at h1
    subst h1
    exact ⟨rfl, ((sameCI_iff _ _).1 s).symm⟩
  by_cases h : ∃ m ∈ allInstructions, SameName w m
  · rw [if_pos h]
    apply findSome_unique
    · obtain ⟨m, hm, s⟩ := h
      refine ⟨m, hm, ?_⟩
      have := takeLit_of (l := m) (t := w) r ((sameCI_iff _ _).2 s.symm)
      rw [this]
      have : bound (w.getLast?.or before) r.head? = true := by
        rw [List.getLast?_eq_some_getLast ne, Option.some_or, bound, hr, Option.any_some,
          hw _ (List.getLast_mem ne)]
        rfl
      simp [this]
    · intro m hm u hu
      split at hu
      · rename_i t r' ht
        split at hu
        · rename_i hf
          cases hu
          rw [(only m hm t r' ht hf).1]
        · cases hu
      · cases hu
  · rw [if_neg h, List.findSome?_eq_none_iff]
    intro m hm
    split
    · rename_i t r' ht
      split
      · rename_i hf
        exact absurd ⟨m, hm, (only m hm t r' ht hf).2⟩ h
      · rfl
    · rfl

theorem sameName_head {w m : Str} (h : SameName w m) :
    w.head?.map Char.toUpper = m.head?.map Char.toUpper := by
  have := congrArg List.head? h
  simpa using this

theorem label_none {w r : Str} (ne : w ≠ []) (h : w.head?.map Char.toUpper ≠ some 'T') :
    matchLabel (w ++ r) = none := by
  cases w with
  | nil => exact absurd rfl ne
  | cons c w =>
    rw [List.cons_append, matchLabel, if_neg]
    intro e
    apply h
    simp only [eqCI, beq_iff_eq] at e
    simp only [List.head?_cons, Option.map_some, ← e]
    decide

theorem rule_instruction {before : Option Char} {w r m : Str} (hb : Apart before)
    (hm : m ∈ allInstructions) (h : SameName w m) (hr : Ended r) :
    w ≠ [] ∧ firstRule before (w ++ r) = some (w.length, .instruction) := by
  have mw := words_letters.1 m hm
  have ne : w ≠ [] := by
    rintro rfl
    exact mw.1 (by simpa [SameName] using h)
  have noT : ∀ m ∈ allInstructions, m.head?.map Char.toUpper ≠ some 'T' := by
    rw [instructions_list]; decide +kernel
  have hw : ∀ c ∈ w, isWord c = true := sameCI_letters ((sameCI_iff _ _).2 h.symm) mw.2
  refine ⟨ne, ?_⟩
  rw [firstRule, label_none ne (by rw [sameName_head h]; exact noT m hm), instruction_word hb hw ne hr,
    if_pos ⟨m, hm, h⟩]
  rfl

/-- What a register name at the start of the text can be. -/
theorem register_some {before : Option Char} {s : Str} {n : Nat}
    (h : matchRegister before s = some n) : n = 2 ∧ ∃ m ∈ allRegisters, SameName (s.take 2) m := by
  rw [matchRegister, matchOne] at h
  split at h
  · obtain ⟨m, hm, e⟩ := List.exists_of_findSome?_eq_some h
    have two : ∀ m ∈ allRegisters, m.length = 2 := by decide +kernel
    split at e
    · rename_i t r ht
      obtain ⟨rfl, sm⟩ := takeLit_some ht
      have l := sameCI_length sm
      rw [two m hm] at l
      rw [if_pos rfl] at e
      cases e
      refine ⟨l.symm, m, hm, ?_⟩
      rw [l, List.take_left]
      exact ((sameCI_iff _ _).1 sm).symm
    · cases e
  · cases h

theorem register_of {before : Option Char} {t r m : Str} (hb : bound before (t ++ r).head? = true)
    (hm : m ∈ allRegisters) (h : SameName t m) : matchRegister before (t ++ r) = some 2 := by
  cases e : matchRegister before (t ++ r) with
  | some n => rw [(register_some e).1]
  | none =>
    rw [matchRegister, matchOne, if_pos hb, List.findSome?_eq_none_iff] at e
    have := e m hm
    rw [takeLit_of r ((sameCI_iff _ _).2 h.symm)] at this
    simp at this

theorem rule_register {before : Option Char} {w r m : Str} (hb : Apart before)
    (hm : m ∈ allRegisters) (h : SameName w m) (hr : Ended r) :
    w ≠ [] ∧ firstRule before (w ++ r) = some (w.length, .register) := by
  have mw := words_letters.2 m hm
  have ne : w ≠ [] := by
    rintro rfl
    exact mw.1 (by simpa [SameName] using h)
  have noT : ∀ m ∈ allRegisters, m.head?.map Char.toUpper ≠ some 'T' := by decide +kernel
  have two : ∀ m ∈ allRegisters, m.length = 2 := by decide +kernel
  have other : ∀ m ∈ allRegisters, ∀ i ∈ allInstructions, ¬ SameName m i := by
    rw [instructions_list]; decide +kernel
  have hw : ∀ c ∈ w, isWord c = true := sameCI_letters ((sameCI_iff _ _).2 h.symm) mw.2
  have len : w.length = 2 := by
    rw [sameCI_length ((sameCI_iff _ _).2 h), two m hm]
  refine ⟨ne, ?_⟩
  rw [firstRule, label_none ne (by rw [sameName_head h]; exact noT m hm), instruction_word hb hw ne hr,
    if_neg, register_of (bound_word hb hw ne) hm h, len]
  · rfl
  · rintro ⟨i, hi, e⟩
    exact other m hm i hi (h.symm.trans e)

/-! ### Numerals -/

theorem HexValue.letters {w : Str} {n : Nat} (h : HexValue w n) : ∀ c ∈ w, isHexLetter c = true := by
  intro c hc
  have d := ((hexValue_iff _ _).1 h).1
  simp only [checkIsHex, List.all_eq_true] at d
  have d := d c hc
  have e : ∀ a b : Char, a ≤ b ↔ a.toNat ≤ b.toNat := fun a b => Iff.rfl
  rw [hexLetter_nat]
  by_contra h3
  simp only [hexDigit, e] at d
  rw [if_neg, if_neg, if_neg] at d
  · simp at d
  all_goals (simp; omega)

theorem letter_word {c : Char} (h : isHexLetter c = true) : isWord c = true := by
  rw [hexLetter_nat] at h
  rw [isWord_nat]
  omega

theorem number_word {w r : Str} (hw : ∀ c ∈ w, isHexLetter c = true) (ne : w ≠ []) (hr : Ended r) :
    matchNumber (w ++ r) = some w.length := by
  have : (w ++ r).takeWhile isHexLetter = w := by
    rw [List.takeWhile_append_of_pos hw]
    cases r with
    | nil => simp
    | cons c r =>
      have hc : isHexLetter c = false := by
        rw [Bool.eq_false_iff]
        intro h
        have := letter_word h
        simp [Ended, this] at hr
      simp [hc]
  rw [matchNumber, this]
  cases w with
  | nil => exact absurd rfl ne
  | cons c w => rfl

theorem letter_upper {c : Char} (h : isHexLetter c = true) : isHexLetter c.toUpper = true := by
  rw [hexLetter_nat] at h ⊢
  rw [upper_nat]
  split <;> omega

theorem sameName_letters {w m : Str} (h : SameName w m) (hw : ∀ c ∈ w, isHexLetter c = true) :
    ∀ c ∈ m.map Char.toUpper, isHexLetter c = true := by
  rw [← h]
  intro c hc
  obtain ⟨d, hd, rfl⟩ := List.mem_map.1 hc
  exact letter_upper (hw d hd)

theorem letters_head {w : Str} (hw : ∀ c ∈ w, isHexLetter c = true) :
    w.head?.map Char.toUpper ≠ some 'T' := by
  cases w with
  | nil => simp
  | cons c w =>
    intro h
    have := letter_upper (hw c (by simp))
    simp only [List.head?_cons, Option.map_some, Option.some.injEq] at h
    rw [h] at this
    exact absurd this (by decide)

/-- The instructions that are spelled with hexadecimal digits. -/
theorem hex_instruction {w : Str} (hw : ∀ c ∈ w, isHexLetter c = true) :
    (∃ m ∈ allInstructions, SameName w m) ↔ SameName w "ADD".toList ∨ SameName w "BC".toList := by
  constructor
  · rintro ⟨m, hm, h⟩
    have : ∀ m ∈ allInstructions, (∀ c ∈ m.map Char.toUpper, isHexLetter c = true) →
        m = "ADD".toList ∨ m = "BC".toList := by
      rw [instructions_list]; decide +kernel
    rcases this m hm (sameName_letters h hw) with rfl | rfl
    · exact .inl h
    · exact .inr h
  · rintro (h | h)
    · exact ⟨_, by rw [instructions_list]; decide, h⟩
    · exact ⟨_, by rw [instructions_list]; decide, h⟩

/-- The only register that is spelled with hexadecimal digits. -/
theorem hex_register {before : Option Char} {w r : Str} (hb : Apart before)
    (hw : ∀ c ∈ w, isHexLetter c = true) (ne : w ≠ []) (hr : Ended r) :
    matchRegister before (w ++ r) = if SameName (w.take 2) "AC".toList then some 2 else none := by
  have hwd : ∀ c ∈ w, isWord c = true := fun c hc => letter_word (hw c hc)
  split
  · rename_i h
    have : matchRegister before (w.take 2 ++ (w.drop 2 ++ r)) = some 2 :=
      register_of (by rw [← List.append_assoc, List.take_append_drop]; exact bound_word hb hwd ne)
        (m := "AC".toList) (by decide) h
    rwa [← List.append_assoc, List.take_append_drop] at this
  · rename_i h
    cases e : matchRegister before (w ++ r) with
    | none => rfl
    | some n =>
      exfalso
      obtain ⟨_, m, hm, s⟩ := register_some e
      have mw := words_letters.2 m hm
      have two : ∀ m ∈ allRegisters, m.length = 2 := by decide +kernel
      have tw := sameCI_letters ((sameCI_iff _ _).2 s.symm) mw.2
      have len := sameCI_length ((sameCI_iff _ _).2 s)
      rw [two m hm] at len
      have long : 2 ≤ w.length := by
        cases w with
        | nil => exact absurd rfl ne
        | cons c w =>
          cases w with
          | cons _ _ => simp
          | nil =>
            exfalso
            cases r with
            | nil => simp at len
            | cons d r =>
              have := tw d (by simp)
              simp [Ended, this] at hr
      rw [List.take_append_of_le_length long] at s
      have only : ∀ m ∈ allRegisters, (∀ c ∈ m.map Char.toUpper, isHexLetter c = true) →
          m = "AC".toList := by decide +kernel
      have := only m hm (sameName_letters s fun c hc => hw c (List.mem_of_mem_take hc))
      subst this
      exact h s

theorem scan_numeral {before : Option Char} {w r : Str} {n : Nat} (h : HexValue w n) (hb : Apart before)
    (hr : Ended r) : ∃ last, scan before (w ++ r) = numeralTints w ++ scan last r := by
  have hw := h.letters
  have hwd : ∀ c ∈ w, isWord c = true := fun c hc => letter_word (hw c hc)
  have ne := h.ne_nil
  have first : firstRule before (w ++ r) =
      if SameName w "ADD".toList ∨ SameName w "BC".toList then some (w.length, .instruction)
      else if SameName (w.take 2) "AC".toList then some (2, .register) else some (w.length, .number) := by
    rw [firstRule, label_none ne (letters_head hw), instruction_word hb hwd ne hr, hex_register hb hw ne hr,
      number_word hw ne hr]
    simp only [hex_instruction hw]
    split
    · rfl
    · split <;> rfl
  rw [numeralTints]
  split
  · rename_i c
    rw [if_pos c] at first
    exact ⟨_, scan_match ne first⟩
  · rename_i c
    rw [if_neg c] at first
    split
    · rename_i c
      rw [if_pos c] at first
      have len : (w.take 2).length = 2 := by
        rw [sameCI_length ((sameCI_iff _ _).2 c)]; rfl
      have split : w ++ r = w.take 2 ++ (w.drop 2 ++ r) := by
        rw [← List.append_assoc, List.take_append_drop]
      rw [split] at first ⊢
      have tne : w.take 2 ≠ [] := by intro e; rw [e] at len; simp at len
      have s1 := scan_match tne (by rw [len]; exact first)
      by_cases d : w.drop 2 = []
      · rw [s1, d]
        exact ⟨(w.take 2).getLast?, by simp [paint]⟩
      · have dw : ∀ c ∈ w.drop 2, isHexLetter c = true := fun c hc => hw c (List.mem_of_mem_drop hc)
        have inside : bound (w.take 2).getLast? (w.drop 2 ++ r).head? = false := by
          rw [bound, head_word (fun c hc => letter_word (dw c hc)) d,
            List.getLast?_eq_some_getLast tne, Option.any_some,
            hwd _ (List.mem_of_mem_take (List.getLast_mem tne))]
          rfl
        have second : firstRule (w.take 2).getLast? (w.drop 2 ++ r) =
            some ((w.drop 2).length, .number) := by
          rw [firstRule, label_none d (letters_head dw), matchInstruction, matchOne, if_neg (by rw [inside]; simp),
            matchRegister, matchOne, if_neg (by rw [inside]; simp), number_word dw d hr]
          rfl
        rw [s1, scan_match d second]
        exact ⟨(w.drop 2).getLast?, by simp⟩
    · rename_i c
      rw [if_neg c] at first
      exact ⟨_, scan_match ne first⟩

/-! ### Lines -/

theorem scan_label {before : Option Char} {l r : Str} (hl : l.head? = some 'T')
    (hb : ∀ x ∈ l, ¬ Blank x) (hr : ∀ c u, r = c :: u → Blank c) :
    scan before (l ++ r) = paint .label l ++ scan l.getLast? r := by
  cases l with
  | nil => cases hl
  | cons c l =>
    cases hl
    apply scan_match (by simp)
    have : ((l ++ r).takeWhile fun x => !isWs x) = l := by
      rw [List.takeWhile_append_of_pos]
      · cases r with
        | nil => simp
        | cons d r => simp [(isWs_iff d).2 (hr d r rfl)]
      · intro x hx
        have := hb x (by simp [hx])
        rw [← isWs_iff] at this
        simpa using this
    rw [List.cons_append, firstRule, matchLabel, if_pos (by decide), this]
    simp [Nat.add_comm]

theorem slot_name {i : Instr} {s : Str} (h : Slot.name s ∈ (syntaxOf i).2) : s ∈ allRegisters := by
  have operand : ∀ o : Operand, Slot.name s = .ofOperand o → s ∈ allRegisters := by
    intro o e
    cases o with
    | reg g => cases e; cases g <;> decide
    | ac => cases e; decide
    | imm => cases e
  have dest : ∀ o : Dest, Slot.name s = .ofDest o → s ∈ allRegisters := by
    intro o e
    cases o with
    | reg g => cases e; cases g <;> decide
    | ac => cases e; decide
  cases i <;> simp only [syntaxOf, List.mem_cons, List.not_mem_nil, or_false, reduceCtorEq] at h
  · exact h.elim (operand _) (dest _)
  · exact operand _ h
  · exact dest _ h

theorem slot_value {i : Instr} (h : Slot.value ∈ (syntaxOf i).2) : kindOf i ≠ .none := by
  cases i with
  | mov s d =>
    cases s <;> cases d <;> simp [syntaxOf, Slot.ofOperand, Slot.ofDest, kindOf, Instr.size, Operand.size] at h ⊢
  | alu op s => cases s <;> simp [syntaxOf, Slot.ofOperand, kindOf, Instr.size, Operand.size] at h ⊢
  | inc d => cases d <;> simp [syntaxOf, Slot.ofDest] at h
  | _ => first | (simp [syntaxOf] at h; done) | simp [kindOf, Instr.size]

theorem scan_slot {i : Instr} {a : Arg} {w t r : Str} {x : Slot} {before : Option Char}
    (hx : x ∈ (syntaxOf i).2) (ha : ArgText i w a) (ht : x.Filled w t) (hb : Apart before) (hr : Ended r)
    (hl : ∀ l, a = .label l → ∀ c u, r = c :: u → Blank c) :
    ∃ last, scan before (t ++ r) = x.tints a t ++ scan last r := by
  cases x with
  | name s =>
    obtain ⟨ne, h⟩ := rule_register hb (slot_name hx) ht hr
    exact ⟨_, scan_match ne h⟩
  | value =>
    have k := slot_value hx
    cases (show t = w from ht)
    cases a with
    | none => cases e : kindOf i <;> simp_all [ArgText]
    | num n =>
      have : HexValue w n := by
        cases e : kindOf i <;> simp_all [ArgText]
      exact scan_numeral this hb hr
    | label l =>
      have : w = l ∧ IsLabel l ∧ ∀ c ∈ l, WordChar c := by
        cases e : kindOf i <;> simp_all [ArgText]
      obtain ⟨rfl, il, wc⟩ := this
      refine ⟨_, scan_label il.1 (fun x hx hb => ?_) (hl w rfl)⟩
      have := (isWord_iff x).2 (wc x hx)
      rw [(blank_apart hb).1] at this
      cases this

theorem mnemonic_mem (i : Instr) : (syntaxOf i).1 ∈ allInstructions := (instructions_mem _).2 ⟨i, rfl⟩

theorem blank_ended {b : Char} {r : Str} (h : Blank b) : Ended (b :: r) := by
  simp [Ended, (blank_apart h).1]

theorem scan_instr {i : Instr} {a : Arg} {w s r : Str} {before : Option Char} (hs : Spells i w s)
    (ha : ArgText i w a) (hb : Apart before) (hr : Ended r)
    (hl : ∀ l, a = .label l → kindOf i = .addr ∧ ∀ c u, r = c :: u → Blank c) :
    ∃ ts last, Tinted i a w s ts ∧ scan before (s ++ r) = ts ++ scan last r := by
  cases hs with
  | none sl hm =>
    obtain ⟨ne, h⟩ := rule_instruction hb (mnemonic_mem i) hm hr
    exact ⟨_, _, .none sl hm, scan_match ne h⟩
  | @one m t b x sl hm bb ht =>
    obtain ⟨ne, h⟩ := rule_instruction hb (mnemonic_mem i) hm (blank_ended bb (r := t ++ r))
    have hc := blank_apart bb
    obtain ⟨last, h2⟩ := scan_slot (by rw [sl]; simp) ha ht (before := some b) (by simp [Apart, hc.1]) hr
      (fun l e => (hl l e).2)
    refine ⟨_, last, .one sl hm bb ht, ?_⟩
    rw [List.append_assoc, List.cons_append, scan_match ne h, scan_apart hc.1 hc.2, h2]
    simp
  | @two m t u g b x y sl hm bb ht hg hu =>
    obtain ⟨ne, h⟩ := rule_instruction hb (mnemonic_mem i) hm
      (blank_ended bb (r := t ++ ',' :: (g ++ (u ++ r))))
    have hc := blank_apart bb
    have noLabel : ∀ l, a ≠ .label l := by
      intro l e
      have := (hl l e).1
      cases i with
      | mov s d => cases s <;> simp [kindOf, Instr.size, Operand.size] at this
      | _ => simp [syntaxOf] at sl
    obtain ⟨l1, h1⟩ := scan_slot (r := ',' :: (g ++ (u ++ r))) (by rw [sl]; simp) ha ht (before := some b)
      (by simp [Apart, hc.1]) (by simp [Ended, show isWord ',' = false by decide]) (fun l e => absurd e (noLabel l))
    have gb : ∀ x ∈ g, Blank x := by
      rcases hg with rfl | ⟨c, hc, rfl⟩
      · simp
      · simpa using hc
    obtain ⟨h2, ap⟩ := scan_blanks gb (some ',') (u ++ r)
    obtain ⟨l3, h3⟩ := scan_slot (r := r) (by rw [sl]; simp) ha hu (ap (by simp [Apart, show isWord ',' = false by decide]))
      hr (fun l e => absurd e (noLabel l))
    refine ⟨_, l3, .two sl hm bb ht hg hu, ?_⟩
    have shape : m ++ b :: (t ++ ',' :: (g ++ u)) ++ r = m ++ b :: (t ++ ',' :: (g ++ (u ++ r))) := by simp
    rw [shape, scan_match ne h, scan_apart hc.1 hc.2, h1, scan_apart (by decide) (by decide), h2, h3]
    simp

/-- **C81.** In a line with a statement the label, the mnemonic, the operands and the comment get the
colours of their kinds, and everything else none. The numerals are as in `numeralTints`. Comments that
follow the operand without a blank are left out when the operand is a label, and so are labels that stand
for a byte or contain a tab: see `C81_swallowed`. -/
theorem C81_statement {a core b c : Str} {st : Stmt} (ha : ∀ x ∈ a, Blank x) (hb : ∀ x ∈ b, Blank x)
    (hc : c = [] ∨ c.head? = some '#') (ht : ∀ x ∈ c, x ≠ '\n' ∧ ¬ OddTerm x) (hr : Reads core st)
    (hl : ∀ l, st.label = some l → ∀ x ∈ l, ¬ Blank x)
    (ho : ∀ l, st.arg = .label l → kindOf st.instr = .addr ∧ (b ≠ [] ∨ c = [])) :
    ∃ w s ts, Tinted st.instr st.arg w s ts ∧
      match st.label with
      | none => core = s ∧
          tints (a ++ core ++ b ++ c) = paint .text a ++ ts ++ paint .text b ++ paint .comment c
      | some l => core = l ++ ' ' :: s ∧
          tints (a ++ core ++ b ++ c) =
            paint .text a ++ paint .label l ++ .text :: ts ++ paint .text b ++ paint .comment c := by
  obtain ⟨w, s, hs, hat, hlab⟩ := hr
  have term : ∀ x ∈ c, isTerm x = false := by
    intro x hx
    obtain ⟨h1, h2⟩ := ht x hx
    have h1 : x.toNat ≠ 10 := fun e => h1 (toNat_inj.1 e)
    simp only [OddTerm, List.mem_cons, List.not_mem_nil, or_false] at h2
    simp only [isTerm, Bool.or_eq_false_iff, beq_eq_false_iff_ne]
    omega
  have tail : ∀ last, scan last (b ++ c) = paint .text b ++ paint .comment c := by
    intro last
    rw [(scan_blanks hb last c).1, scan_comment hc term]
  have ended : Ended (b ++ c) := by
    cases b with
    | cons x b => exact blank_ended (hb x (by simp))
    | nil =>
      cases c with
      | nil => simp [Ended]
      | cons x c =>
        rcases hc with hc | hc
        · cases hc
        · cases hc; simp [Ended, show isWord '#' = false by decide]
  have blank : ∀ l, st.arg = .label l → kindOf st.instr = .addr ∧ ∀ x u, b ++ c = x :: u → Blank x := by
    intro l e
    obtain ⟨h1, h2⟩ := ho l e
    refine ⟨h1, fun x u h => ?_⟩
    cases b with
    | cons y b => cases h; exact hb _ (by simp)
    | nil =>
      rcases h2 with h2 | h2
      · exact absurd rfl h2
      · subst h2; cases h
  have start := fun r => scan_blanks ha none r
  cases hlb : st.label with
  | none =>
    simp only [hlb] at hlab
    subst hlab
    obtain ⟨ts, last, tt, h⟩ := scan_instr hs hat ((start []).2 rfl) ended blank
    refine ⟨w, core, ts, tt, rfl, ?_⟩
    show scan none _ = _
    rw [show a ++ core ++ b ++ c = a ++ (core ++ (b ++ c)) by simp, (start _).1, h, tail]
    simp
  | some l =>
    simp only [hlb] at hlab
    obtain ⟨il, rfl⟩ := hlab
    obtain ⟨ts, last, tt, h⟩ := scan_instr (before := some ' ') hs hat
      (by simp [Apart, show isWord ' ' = false by decide]) ended blank
    refine ⟨w, s, ts, tt, rfl, ?_⟩
    show scan none _ = _
    rw [show a ++ (l ++ ' ' :: s) ++ b ++ c = a ++ (l ++ (' ' :: (s ++ (b ++ c)))) by simp, (start _).1,
      scan_label il.1 (hl l hlb) (fun c u e => by cases e; decide), scan_apart (by decide) (by decide), h, tail]
    simp

example : ∃ w s ts, Tinted (.alu .add .imm) (.num 0xBC) w s ts ∧ "ADD BC".toList = s ∧
    tints "  ADD BC # six".toList = paint .text "  ".toList ++ ts ++ paint .text " ".toList ++
      paint .comment "# six".toList :=
  C81_statement (a := "  ".toList) (b := " ".toList) (c := "# six".toList) (st := ⟨none, .alu .add .imm, .num 0xBC⟩)
    (by decide) (by decide) (.inr rfl) (by decide)
    (reads_lineOf (st := ⟨none, .alu .add .imm, .num 0xBC⟩) (w := "BC".toList) (by decide) (by simp))
    (by simp) (by simp)

/-- **C81, other lines.** A line without a statement is blanks and a comment. -/
theorem C81_comment {a c : Str} (ha : ∀ x ∈ a, Blank x) (hc : c = [] ∨ c.head? = some '#')
    (ht : ∀ x ∈ c, x ≠ '\n' ∧ ¬ OddTerm x) : tints (a ++ c) = paint .text a ++ paint .comment c := by
  show scan none _ = _
  rw [(scan_blanks ha none c).1, scan_comment hc]
  intro x hx
  obtain ⟨h1, h2⟩ := ht x hx
  have h1 : x.toNat ≠ 10 := fun e => h1 (toNat_inj.1 e)
  simp only [OddTerm, List.mem_cons, List.not_mem_nil, or_false] at h2
  simp only [isTerm, Bool.or_eq_false_iff, beq_eq_false_iff_ne]
  omega

/-- **C81, the exceptions are real.** A comment right behind a label, and the comma and register right
behind one, get the colour of the label; `BC` as a number gets that of the instruction. -/
theorem C81_swallowed :
    tints "JMP T1#x".toList = paint .instruction "JMP".toList ++ .text :: paint .label "T1#x".toList ∧
    tints "MOV T1,RB".toList = paint .instruction "MOV".toList ++ .text :: paint .label "T1,RB".toList ∧
    tints "CMP BC".toList = paint .instruction "CMP".toList ++ .text :: paint .instruction "BC".toList := by
  decide +kernel

example : tints "TLOOP MOV 0F, AC # five".toList = paint .label "TLOOP".toList ++ .text ::
    (paint .instruction "MOV".toList ++ .text :: (paint .number "0F".toList ++
      paint .text ", ".toList ++ paint .register "AC".toList ++ .text :: paint .comment "# five".toList)) := by
  decide +kernel

end Mpp.Front
