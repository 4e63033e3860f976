import Verif.Front.Assembler
import Verif.Front.AsmSpec
/-!
# What the patterns match

On a string without line terminators a pattern of `operations.json` depends only on the tokens of
the string.
-/
namespace Mpp.Front

/-! ## Characters -/

theorem isWs_iff (c : Char) : isWs c = true ↔ Blank c := by
  simp only [isWs, Blank, Bool.or_eq_true, Bool.and_eq_true, decide_eq_true_eq, beq_iff_eq,
    List.mem_cons, List.not_mem_nil, or_false]
  omega

theorem toNat_inj {c d : Char} : c.toNat = d.toNat ↔ c = d :=
  ⟨fun h => by rw [← Char.ofNat_toNat c, h, Char.ofNat_toNat], fun h => by rw [h]⟩

theorem isWord_iff (c : Char) : isWord c = true ↔ WordChar c := by
  simp [isWord, WordChar]

theorem isWord_nat (c : Char) : isWord c = true ↔
    (48 ≤ c.toNat ∧ c.toNat ≤ 57) ∨ (65 ≤ c.toNat ∧ c.toNat ≤ 90) ∨
    (97 ≤ c.toNat ∧ c.toNat ≤ 122) ∨ c.toNat = 95 := by
  have e : '_'.toNat = 95 := rfl
  have v : c.toNat = c.val.toNat := rfl
  simp only [isWord, Bool.or_eq_true, beq_iff_eq, Char.isAlphanum, Char.isAlpha, Char.isDigit,
    Char.isUpper, Char.isLower, Bool.and_eq_true, decide_eq_true_eq, ge_iff_le,
    UInt32.le_iff_toNat_le, ← toNat_inj, e]
  simp only [Char.reduceVal, UInt32.reduceToNat]
  omega

theorem word_nat {c : Char} (h : isWord c = true) :
    (48 ≤ c.toNat ∧ c.toNat ≤ 57) ∨ (65 ≤ c.toNat ∧ c.toNat ≤ 90) ∨
    (97 ≤ c.toNat ∧ c.toNat ≤ 122) ∨ c.toNat = 95 := (isWord_nat c).1 h

theorem word_not_ws {c : Char} (h : isWord c = true) : isWs c = false := by
  have := word_nat h
  rw [Bool.eq_false_iff]
  intro h
  rw [isWs_iff] at h
  simp only [Blank, List.mem_cons, List.not_mem_nil, or_false] at h
  omega

theorem word_not_term {c : Char} (h : isWord c = true) : isTerm c = false := by
  have := word_nat h
  simp only [isTerm, Bool.or_eq_false_iff, beq_eq_false_iff_ne]
  omega

theorem word_ne_comma {c : Char} (h : isWord c = true) : c ≠ ',' := by
  rintro rfl
  exact absurd h (by decide)

theorem upper_nat (c : Char) :
    c.toUpper.toNat = if 97 ≤ c.toNat ∧ c.toNat ≤ 122 then c.toNat - 32 else c.toNat := by
  have v : c.toNat = c.val.toNat := rfl
  unfold Char.toUpper
  simp only [UInt32.le_iff_toNat_le, Char.reduceVal, UInt32.reduceToNat]
  split
  · rename_i h
    rw [if_pos (by omega)]
    show (c.val + _).toNat = _
    rw [UInt32.toNat_add]
    simp only [UInt32.reduceSub, UInt32.reduceToNat]
    omega
  · rw [if_neg (by omega)]

theorem eqCI_word {a c : Char} (h : eqCI a c = true) : isWord a = isWord c := by
  simp only [eqCI, beq_iff_eq, ← toNat_inj, upper_nat] at h
  rw [Bool.eq_iff_iff, isWord_nat, isWord_nat]
  split at h <;> split at h <;> omega

/-! ## Tokens -/

/-- Equality up to case, as a test. -/
def sameCI (s t : Str) : Bool := s.map Char.toUpper == t.map Char.toUpper

theorem sameCI_iff (s t : Str) : sameCI s t = true ↔ SameName s t := by
  simp [sameCI, SameName]

theorem sameCI_length {s t : Str} (h : sameCI s t = true) : s.length = t.length := by
  simp only [sameCI, beq_iff_eq] at h
  simpa using congrArg List.length h

abbrev tok (s : Str) : Str := s.takeWhile isWord
abbrev aft (s : Str) : Str := s.dropWhile isWord

theorem tok_aft (s : Str) : tok s ++ aft s = s := List.takeWhile_append_dropWhile

theorem tok_word {s : Str} {c : Char} (h : c ∈ tok s) : isWord c = true := by
  induction s with
  | nil => simp [tok] at h
  | cons a s ih =>
    simp only [tok, List.takeWhile_cons] at h
    split at h
    · rcases List.mem_cons.1 h with rfl | h
      · assumption
      · exact ih h
    · simp at h

theorem aft_head {s : Str} {c : Char} {r : Str} (h : aft s = c :: r) : isWord c = false := by
  have := List.head?_dropWhile_not isWord s
  simp only [aft] at h
  rw [h] at this
  simpa using this

theorem tok_append {t : Str} (h : ∀ c ∈ t, isWord c = true) (r : Str)
    (hr : ∀ c u, r = c :: u → isWord c = false) : tok (t ++ r) = t ∧ aft (t ++ r) = r := by
  induction t with
  | nil =>
    cases r with
    | nil => simp [tok, aft]
    | cons c u => simp [tok, aft, hr c u rfl]
  | cons a t ih =>
    have ha := h a (by simp)
    obtain ⟨h1, h2⟩ := ih fun c hc => h c (by simp [hc])
    simp only [tok, aft, List.cons_append, List.takeWhile_cons, List.dropWhile_cons, ha, if_true] at *
    rw [h1, h2]; simp

theorem takeLit_some {l s t r : Str} (h : takeLit l s = some (t, r)) :
    s = t ++ r ∧ sameCI l t = true := by
  induction l generalizing s t r with
  | nil => simp [takeLit] at h; simp [h, sameCI]
  | cons a l ih =>
    cases s with
    | nil => simp [takeLit] at h
    | cons c s =>
      simp only [takeLit] at h
      split at h
      · rename_i hc
        cases h' : takeLit l s with
        | none => simp [h'] at h
        | some p =>
          simp only [h', Option.map_some, Option.some.injEq, Prod.mk.injEq] at h
          obtain ⟨rfl, rfl⟩ := h
          obtain ⟨rfl, h2⟩ := ih (t := p.1) (r := p.2) h'
          simp only [sameCI, eqCI, beq_iff_eq] at *
          simp [hc, h2]
      · simp at h

theorem takeLit_of {l t : Str} (r : Str) (h : sameCI l t = true) :
    takeLit l (t ++ r) = some (t, r) := by
  induction l generalizing t with
  | nil => cases t with
    | nil => simp [takeLit]
    | cons a t => simp [sameCI] at h
  | cons a l ih =>
    cases t with
    | nil => simp [sameCI] at h
    | cons c t =>
      simp only [sameCI, List.map_cons, beq_iff_eq, List.cons.injEq] at h
      have := ih (t := t) (by simpa [sameCI] using h.2)
      simp [takeLit, eqCI, h.1, this]

theorem sameCI_word {l t : Str} (h : sameCI l t = true) (hl : ∀ c ∈ l, isWord c = true) :
    ∀ c ∈ t, isWord c = true := by
  induction l generalizing t with
  | nil => cases t with
    | nil => simp
    | cons a t => simp [sameCI] at h
  | cons a l ih =>
    cases t with
    | nil => simp
    | cons c t =>
      simp only [sameCI, List.map_cons, beq_iff_eq, List.cons.injEq] at h
      intro x hx
      rcases List.mem_cons.1 hx with rfl | hx
      · rw [← eqCI_word (a := a) (by simpa [eqCI] using h.1)]
        exact hl a (by simp)
      · exact ih (t := t) (by simpa [sameCI] using h.2) (fun c hc => hl c (by simp [hc])) x hx

/-- Continuations that fail on a word character. -/
def NoWord (k : Str → Option (List Str)) : Prop := ∀ c r, isWord c = true → k (c :: r) = none

theorem noWord_nil : NoWord (matchHere []) := by
  intro c r h
  simp [matchHere, word_not_term h]

theorem noWord_ws (is : List Item) : NoWord (matchHere (.ws :: is)) := by
  intro c r h
  simp [matchHere, word_not_ws h]

theorem noWord_comma (is : List Item) : NoWord (matchHere (.comma :: is)) := by
  intro c r h
  simp [matchHere, word_ne_comma h]

theorem match_lit {l : Str} {is : List Item} (hl : ∀ c ∈ l, isWord c = true)
    (hk : NoWord (matchHere is)) (s : Str) :
    matchHere (.lit l :: is) s =
      if sameCI l (tok s) then (matchHere is (aft s)).map (tok s :: ·) else none := by
  rw [matchHere]
  split
  · rename_i t r h
    obtain ⟨rfl, h2⟩ := takeLit_some h
    have hw := sameCI_word h2 hl
    by_cases hr : ∀ c u, r = c :: u → isWord c = false
    · obtain ⟨e1, e2⟩ := tok_append hw r hr
      rw [e1, e2, h2]; rfl
    · simp only [Classical.not_forall] at hr
      obtain ⟨c, u, rfl, hc⟩ := hr
      have hc : isWord c = true := by simpa using hc
      rw [hk c u hc]
      have : sameCI l (tok (t ++ c :: u)) = false := by
        rw [Bool.eq_false_iff]
        intro h3
        have l3 := sameCI_length h3
        have l2 := sameCI_length h2
        have : tok (t ++ c :: u) = t ++ tok (c :: u) := by
          simp only [tok]
          rw [List.takeWhile_append_of_pos hw]
        rw [this, List.length_append] at l3
        simp only [tok, List.takeWhile_cons, hc, if_true, List.length_cons] at l3
        omega
      rw [this]; rfl
  · rename_i h
    split
    · rename_i h2
      have := takeLit_of (aft s) h2
      rw [tok_aft] at this
      rw [this] at h; simp at h
    · rfl

theorem takeWord_eq {k : Str → Option (List Str)} (hk : NoWord k) (p s : Str) :
    takeWord k p s = if tok s = [] then none else (k (aft s)).map ((p ++ tok s) :: ·) := by
  induction s generalizing p with
  | nil => simp [takeWord, tok]
  | cons c s ih =>
    rw [takeWord]
    by_cases hc : isWord c = true
    · rw [if_pos hc, ih]
      simp only [tok, aft, List.takeWhile_cons, List.dropWhile_cons, hc, if_true, reduceCtorEq,
        if_false, List.append_assoc, List.singleton_append]
      by_cases ht : s.takeWhile isWord = []
      · rw [if_pos ht, ht]
        have : s.dropWhile isWord = s := by
          have := tok_aft s
          simp only [tok, aft] at this
          rw [ht] at this
          simpa using this
        rw [this]; simp
      · rw [if_neg ht]
        have : k s = none := by
          cases s with
          | nil => simp at ht
          | cons d s =>
            apply hk
            simp only [List.takeWhile_cons] at ht
            by_cases hd : isWord d = true
            · exact hd
            · simp [hd] at ht
        rw [this]; simp
    · rw [if_neg hc]
      simp [tok, hc]

theorem match_word {is : List Item} (hk : NoWord (matchHere is)) (s : Str) :
    matchHere (.word :: is) s =
      if tok s = [] then none else (matchHere is (aft s)).map (tok s :: ·) := by
  rw [matchHere, takeWord_eq hk]; rfl

/-- The pattern of a slot. -/
def Slot.item : Slot → Item
  | .name n => .lit n
  | .value => .word

/-- The pattern of an instruction. -/
def itemsOf (m : Str) : List Slot → List Item
  | [] => [.lit m]
  | [x] => [.lit m, .ws, x.item]
  | [x, y] => [.lit m, .ws, x.item, .comma, .optWs, y.item]
  | _ => []

/-- A token fits a slot. -/
def Slot.fits (t : Str) : Slot → Bool
  | .name n => sameCI n t
  | .value => t ≠ []

/-- Literals of a slot. -/
def Slot.Good : Slot → Prop
  | .name n => n ≠ [] ∧ ∀ c ∈ n, isWord c = true
  | .value => True

instance : (x : Slot) → Decidable x.Good
  | .name _ => inferInstanceAs (Decidable (_ ∧ _))
  | .value => inferInstanceAs (Decidable True)

theorem match_slot {x : Slot} (hx : x.Good) {is : List Item} (hk : NoWord (matchHere is)) (s : Str) :
    matchHere (x.item :: is) s =
      if x.fits (tok s) then (matchHere is (aft s)).map (tok s :: ·) else none := by
  cases x with
  | name n => exact match_lit hx.2 hk s
  | value =>
    rw [Slot.item, match_word hk]
    simp [Slot.fits]

/-- The tokens of a string that has the form of an instruction. -/
def lex (s : Str) : Option (List Str) :=
  match aft s with
  | [] => some [tok s]
  | b :: s1 =>
    if isWs b then
      match aft s1 with
      | [] => some [tok s, tok s1]
      | c :: s2 =>
        if c = ',' then
          match s2 with
          | [] => some [tok s, tok s1, []]
          | d :: s3 =>
            if isWs d then
              match aft s3 with
              | [] => some [tok s, tok s1, tok s3]
              | _ :: _ => none
            else
              match aft (d :: s3) with
              | [] => some [tok s, tok s1, tok (d :: s3)]
              | _ :: _ => none
        else none
    else none

/-- The tokens fit the mnemonic and the slots. -/
def fits (m : Str) : List Slot → List Str → Bool
  | [], [a] => sameCI m a
  | [x], [a, t] => sameCI m a && x.fits t
  | [x, y], [a, t, u] => sameCI m a && x.fits t && y.fits u
  | _, _ => false

def NoTerm (s : Str) : Prop := ∀ c ∈ s, isTerm c = false

theorem NoTerm.aft {s : Str} (h : NoTerm s) : NoTerm (aft s) := fun c hc =>
  h c ((List.dropWhile_sublist _).subset hc)

theorem NoTerm.cons {c : Char} {s : Str} (h : NoTerm (c :: s)) : isTerm c = false ∧ NoTerm s :=
  ⟨h c (by simp), fun d hd => h d (by simp [hd])⟩

theorem match_nil {s : Str} (h : NoTerm s) : matchHere [] s = if s = [] then some [] else none := by
  cases s with
  | nil => rfl
  | cons c s => simp [matchHere, h.cons.1]

theorem fits_nil {x : Slot} (h : x.Good) : x.fits [] = false := by
  cases x with
  | name n =>
    rw [Bool.eq_false_iff]
    intro h2
    have := sameCI_length h2
    exact h.1 (List.eq_nil_of_length_eq_zero this)
  | value => rfl

theorem tok_cons_ws {c : Char} {s : Str} (h : isWs c = true) : tok (c :: s) = [] := by
  have : isWord c = false := by
    rw [Bool.eq_false_iff]
    intro h2
    rw [word_not_ws h2] at h; simp at h
  simp [tok, this]

/-- What a pattern of the table does on a string without line terminators. -/
theorem match_items {m : Str} {sl : List Slot} (hm : ∀ c ∈ m, isWord c = true)
    (hs : ∀ x ∈ sl, x.Good) (hl : sl.length ≤ 2) {s : Str} (ht : NoTerm s) :
    matchHere (itemsOf m sl) s = (lex s).bind fun ts => if fits m sl ts then some ts else none := by
  match sl, hl with
  | [], _ =>
    rw [itemsOf, match_lit hm noWord_nil, match_nil ht.aft, lex]
    cases h1 : aft s with
    | nil => by_cases a1 : sameCI m (tok s) = true <;> simp [fits, a1]
    | cons b s1 =>
      simp only [reduceCtorEq, if_false, Option.map_none, ite_self]
      (repeat' split) <;> simp [fits]
  | [x], _ =>
    have hx := hs x (by simp)
    rw [itemsOf, match_lit hm (noWord_ws _), lex]
    have n1 := ht.aft
    cases h1 : aft s with
    | nil => simp [matchHere, fits]
    | cons b s1 =>
      rw [h1] at n1
      rw [matchHere]
      simp only
      by_cases hb : isWs b = true
      · rw [if_pos hb, if_pos hb, match_slot hx noWord_nil, match_nil n1.cons.2.aft]
        cases h2 : aft s1 with
        | nil => simp only [fits, Option.bind_some, if_true, Option.map_some]
                 by_cases a1 : sameCI m (tok s) = true <;> by_cases a2 : x.fits (tok s1) = true <;>
                   simp [a1, a2]
        | cons c s2 =>
          simp only [reduceCtorEq, if_false, Option.map_none, ite_self]
          (repeat' split) <;> simp [fits]
      · simp [hb]
  | [x, y], _ =>
    have hx := hs x (by simp)
    have hy := hs y (by simp)
    rw [itemsOf, match_lit hm (noWord_ws _), lex]
    have n1 := ht.aft
    cases h1 : aft s with
    | nil => simp [matchHere, fits]
    | cons b s1 =>
      rw [h1] at n1
      rw [matchHere]
      simp only
      by_cases hb : isWs b = true
      · rw [if_pos hb, if_pos hb, match_slot hx (noWord_comma _)]
        have n2 := n1.cons.2.aft
        cases h2 : aft s1 with
        | nil => simp [matchHere, fits]
        | cons c s2 =>
          rw [h2] at n2
          rw [matchHere]
          simp only
          by_cases hc : c = ','
          · rw [if_pos hc, if_pos hc]
            have n3 := n2.cons.2
            cases s2 with
            | nil =>
              rw [matchHere]
              simp only
              rw [match_slot hy noWord_nil]
              simp [fits, fits_nil hy]
            | cons d s3 =>
              rw [matchHere]
              simp only
              by_cases hd : isWs d = true
              · rw [if_pos hd, if_pos hd, match_slot hy noWord_nil, match_slot hy noWord_nil,
                  tok_cons_ws hd, fits_nil hy, match_nil n3.cons.2.aft]
                cases h3 : aft s3 with
                | nil =>
                  simp only [fits, Option.bind_some, if_true, Option.map_some]
                  by_cases a1 : sameCI m (tok s) = true <;> by_cases a2 : x.fits (tok s1) = true <;>
                    by_cases a3 : y.fits (tok s3) = true <;> simp [a1, a2, a3]
                | cons e s4 => simp
              · rw [if_neg hd, if_neg hd, match_slot hy noWord_nil, match_nil n3.aft]
                cases h3 : aft (d :: s3) with
                | nil =>
                  simp only [fits, Option.bind_some, if_true, Option.map_some]
                  by_cases a1 : sameCI m (tok s) = true <;> by_cases a2 : x.fits (tok s1) = true <;>
                    by_cases a3 : y.fits (tok (d :: s3)) = true <;> simp [a1, a2, a3]
                | cons e s4 => simp
          · simp [hc]
      · simp [hb]
  | _ :: _ :: _ :: _, h => simp at h

theorem search_noTerm (is : List Item) (b : Bool) {s : Str} (h : NoTerm s) :
    searchFrom is b s = if b then matchHere is s else none := by
  induction s generalizing b with
  | nil => rw [searchFrom]; simp
  | cons c s ih =>
    rw [searchFrom, ih _ h.cons.2, h.cons.1]
    simp

end Mpp.Front
