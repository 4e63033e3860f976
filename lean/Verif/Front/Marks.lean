import Verif.Front.Layout
/-!
# Marks of the editor

What the editor of the code drawer draws beside and under the text: the marked errors, the marked
labels and the annotations with the bytes of each statement.
-/
namespace Mpp.Front

/-- The annotations of the editor (`CodeEditor.tsx:70-75`): row and text. The column is always 0 and
the type `"info"`. -/
def Output.annotations (out : Output) : List (Nat × Str) :=
  out.results.map fun r => (r.originalOffset, join '\n' r.result)

/-! ## Specification -/

/-- The line `c` declares the label `l`: it is the label, a space, and something that has the shape of
an instruction, with any word as its value. -/
def Declares (c l : Str) : Prop :=
  IsLabel l ∧ ∃ i w s, Spells i w s ∧ (kindOf i ≠ .none → w ≠ [] ∧ ∀ x ∈ w, WordChar x) ∧
    c = l ++ ' ' :: s

/-- In a text with the lines `cores`, the line `c` is the statement `st` and its operand is right: the
number is in range, the label is declared on some line. -/
def Right (cores : List Str) (c : Str) (st : Stmt) : Prop :=
  Reads c st ∧ match st.arg with
    | .none => True
    | .num n => n < 256 ^ (st.instr.size - 1)
    | .label l => ∃ c' ∈ cores, Declares c' l

/-- `acc` are the lines with a right statement, by number and in order. -/
def Accepted (cores : List Str) (acc : List (Nat × Stmt)) : Prop :=
  acc.Pairwise (·.1 < ·.1) ∧ ∀ i st, (i, st) ∈ acc ↔ ∃ c, cores[i]? = some c ∧ Right cores c st

/-! ## The labels found by the first loop -/

theorem fits_value {m : Str} {sl : List Slot} {ts : List Str}
    (h : fits m (.value :: sl) ts = true) : argOf ts ≠ [] := by
  match sl, ts with
  | [], [a, t] =>
    simp only [fits, Slot.fits, Bool.and_eq_true, decide_eq_true_eq] at h
    exact h.2
  | [_], [a, t, u] =>
    simp only [fits, Slot.fits, Bool.and_eq_true, decide_eq_true_eq] at h
    exact h.1.2
  | [], [] => simp [fits] at h
  | [], [_] => simp [fits] at h
  | [], _ :: _ :: _ :: _ => simp [fits] at h
  | [_], [] => simp [fits] at h
  | [_], [_] => simp [fits] at h
  | [_], [_, _] => simp [fits] at h
  | [_], _ :: _ :: _ :: _ :: _ => simp [fits] at h
  | _ :: _ :: _, _ => simp [fits] at h

theorem declares_pre {lines : List Str} (hn : ∀ l ∈ lines, NoTerm l) {l : Str}
    (hl : startsT l = true) : l ∈ pre lines ↔ ∃ c ∈ lines, Declares c l := by
  rw [mem_pre]
  constructor
  · rintro ⟨line, h1, rfl, r, hr, h2⟩
    refine ⟨line, h1, ?_⟩
    obtain ⟨ts, hts⟩ := Option.isSome_iff_exists.1 h2
    obtain ⟨hlex, hf⟩ := (Row.exec_some hr (restWords_noTerm (hn line h1))).1 hts
    rcases words_cases line with ⟨h1, h2, h3⟩ | ⟨h4, h5⟩
    · exfalso
      rw [h3, lex_one (by intro c hc; simp at hc)] at hlex
      cases hlex
      exact Harmless.no_fit (.inl rfl) hr hf
    · refine ⟨⟨by simpa [startsT] using hl, h5⟩, r.2.2, argOf ts, restWords line,
        hf.spells (Row.slotsOk hr) hlex, ?_, h4⟩
      intro hk
      have hs := hf.spells (Row.slotsOk hr) hlex
      refine ⟨?_, ?_⟩
      · unfold Fit at hf
        rcases slots_cases hr with ⟨h, _⟩ | ⟨_, h | ⟨n, h⟩⟩ | ⟨_, h⟩
        · exact absurd h hk
        all_goals
          rw [h] at hf
          exact fits_value hf
      · intro x hx
        rw [← isWord_iff]
        rcases lex_inv hlex with ⟨m', _, rfl⟩ | ⟨m', b, t, _, rfl, hb, h⟩ |
          ⟨m', b, t, g, u, _, rfl, hb, h, hg, _⟩
        · simp [argOf] at hx
        · exact h x hx
        · exact h x hx
  · rintro ⟨c, hc, ⟨h1, h2⟩, i, w, s, hs, hw, rfl⟩
    refine ⟨_, hc, ?_⟩
    rw [firstWord_append h2, restWords_append h2]
    refine ⟨rfl, ?_⟩
    obtain ⟨r, hr, rfl⟩ := instr_row i
    obtain ⟨ts, h1, h2, _⟩ := hs.fit hr fun hk =>
      ⟨(hw hk).1, fun x hx => (isWord_iff x).2 ((hw hk).2 x hx)⟩
    refine ⟨r, hr, ?_⟩
    rw [(Row.exec_some hr fun x hx => hn _ hc x (by simp [hx])).2 ⟨h1, h2⟩]
    rfl

theorem right_iff {cores : List Str} (hn : ∀ l ∈ cores, NoTerm l) {c : Str} {st : Stmt} :
    Right cores c st ↔ Reads c st ∧ Good (pre cores) st.instr st.arg := by
  unfold Right
  apply and_congr_right
  intro h
  cases ha : st.arg with
  | none => simp [Good]
  | num n => simp [Good]
  | label l =>
    simp only [Good]
    exact (declares_pre hn (by simpa [startsT] using (h.labels.2.1 l ha).1)).symm

theorem Reads.ne_nil {c : Str} {st : Stmt} (h : Reads c st) : c ≠ [] := by
  obtain ⟨w, s, hs, _, hl⟩ := h
  have : s ≠ [] := by
    cases hs with
    | none _ hm =>
      rintro rfl
      revert hm
      generalize st.instr = i
      intro hm
      cases i <;> simp [SameName, syntaxOf] at hm
      rename_i op src
      cases op <;> simp [AluOp.name] at hm
    | one _ _ _ _ => simp
    | two _ _ _ _ _ _ => simp
  cases hlab : st.label with
  | none => rw [hlab] at hl; rw [hl]; exact this
  | some l => rw [hlab] at hl; rw [hl.2]; simp

/-! ## The second loop -/

/-- What the second loop keeps of a line. -/
structure Noted (labels lines : List Str) (i : Nat) (x : Result) (p : Nat × Stmt) : Prop where
  kept : Kept labels x p.2
  line : x.originalOffset = p.1
  pos : ∃ k, p.1 = i + k ∧ lines[k]? = some x.line
  reads : Reads x.line p.2

theorem Noted.shift {labels lines : List Str} {i : Nat} {x : Result} {p : Nat × Stmt} {l : Str}
    (h : Noted labels lines (i + 1) x p) : Noted labels (l :: lines) i x p := by
  obtain ⟨k, h1, h2⟩ := h.pos
  exact ⟨h.kept, h.line, ⟨k + 1, by omega, by simpa using h2⟩, h.reads⟩

theorem parseLines_acc {labels : List Str} {lines : List Str} (i : Nat)
    (hn : ∀ l ∈ lines, NoTerm l) :
    (∀ m, m ∈ (parseLines labels i lines).1 ↔ ∃ k c, lines[k]? = some c ∧ c ≠ [] ∧
      (∀ st, Reads c st → ¬ Good labels st.instr st.arg) ∧ m = ⟨i + k, 0, units c⟩) ∧
    (parseLines labels i lines).1.Pairwise (·.line < ·.line) ∧
    ∃ acc : List (Nat × Stmt), List.Forall₂ (Noted labels lines i) (parseLines labels i lines).2 acc ∧
      acc.Pairwise (·.1 < ·.1) ∧
      (∀ j st, (j, st) ∈ acc ↔ ∃ k c, j = i + k ∧ lines[k]? = some c ∧ Reads c st ∧
        Good labels st.instr st.arg) ∧
      ((parseLines labels i lines).1 = [] →
        List.Forall₂ Reads (lines.filter fun c => c ≠ []) (acc.map (·.2))) := by
  induction lines generalizing i with
  | nil =>
    refine ⟨fun m => ⟨fun h => by simp [parseLines] at h, fun ⟨k, c, h, _⟩ => by simp at h⟩, .nil, [],
      .nil, .nil, fun j st => ⟨fun h => by simp at h, fun ⟨k, c, _, h, _⟩ => by simp at h⟩,
      fun _ => .nil⟩
  | cons l ls ih =>
    have hn' : ∀ l ∈ ls, NoTerm l := fun x hx => hn x (by simp [hx])
    obtain ⟨h1, h2, acc, h3, h4, h5, h6⟩ := ih (i + 1) hn'
    have hacc : ∀ p ∈ acc, i < p.1 := by
      intro p hp
      obtain ⟨k, c, e, _⟩ := (h5 p.1 p.2).1 hp
      omega
    -- the line is not kept
    have skip : (∀ st, Reads l st → ¬ Good labels st.instr st.arg) →
        ∀ j st, (j, st) ∈ acc ↔ ∃ k c, j = i + k ∧ (l :: ls)[k]? = some c ∧ Reads c st ∧
          Good labels st.instr st.arg := by
      intro hbad j st
      rw [h5]
      constructor
      · rintro ⟨k, c, e, h, hr⟩
        exact ⟨k + 1, c, by omega, by simpa using h, hr⟩
      · rintro ⟨k, c, e, h, hr, hg⟩
        cases k with
        | zero => simp at h; subst h; exact absurd hg (hbad st hr)
        | succ k => exact ⟨k, c, by omega, by simpa using h, hr, hg⟩
    have shift : List.Forall₂ (Noted labels (l :: ls) i) (parseLines labels (i + 1) ls).2 acc :=
      h3.imp fun _ _ h => h.shift
    -- the marks of the lines after the first
    have tail : (¬ (l ≠ [] ∧ ∀ st, Reads l st → ¬ Good labels st.instr st.arg)) →
        ∀ m, m ∈ (parseLines labels (i + 1) ls).1 ↔ ∃ k c, (l :: ls)[k]? = some c ∧ c ≠ [] ∧
          (∀ st, Reads c st → ¬ Good labels st.instr st.arg) ∧ m = ⟨i + k, 0, units c⟩ := by
      intro hg m
      rw [h1]
      constructor
      · rintro ⟨k, c, h, hr, hb, rfl⟩
        exact ⟨k + 1, c, by simpa using h, hr, hb, by congr 1; omega⟩
      · rintro ⟨k, c, h, hr, hb, rfl⟩
        cases k with
        | zero => simp at h; subst h; exact absurd ⟨hr, hb⟩ hg
        | succ k => exact ⟨k, c, by simpa using h, hr, hb, by congr 1; omega⟩
    by_cases hl : l = []
    · have hbad : ∀ st, Reads l st → ¬ Good labels st.instr st.arg := fun st h => absurd hl h.ne_nil
      rw [parseLines, if_pos hl]
      refine ⟨tail (by simp [hl]), h2, acc, shift, h4, skip hbad, fun h => ?_⟩
      rw [List.filter_cons_of_neg (by simp [hl])]
      exact h6 h
    · have bad : (∀ st, Reads l st → ¬ Good labels st.instr st.arg) →
          (∀ m, m ∈ (⟨i, 0, units l⟩ :: (parseLines labels (i + 1) ls).1 : List Mark) ↔
            ∃ k c, (l :: ls)[k]? = some c ∧ c ≠ [] ∧
              (∀ st, Reads c st → ¬ Good labels st.instr st.arg) ∧ m = ⟨i + k, 0, units c⟩) ∧
          (⟨i, 0, units l⟩ :: (parseLines labels (i + 1) ls).1 : List Mark).Pairwise (·.line < ·.line) := by
        intro hbad
        constructor
        · intro m
          rw [List.mem_cons, h1]
          constructor
          · rintro (rfl | ⟨k, c, h, hr, hb, rfl⟩)
            · exact ⟨0, l, rfl, hl, hbad, rfl⟩
            · exact ⟨k + 1, c, by simpa using h, hr, hb, by congr 1; omega⟩
          · rintro ⟨k, c, h, hr, hb, rfl⟩
            cases k with
            | zero => simp at h; subst h; exact .inl rfl
            | succ k => exact .inr ⟨k, c, by simpa using h, hr, hb, by congr 1; omega⟩
        · refine List.Pairwise.cons ?_ h2
          intro m hm
          obtain ⟨k, c, _, _, _, rfl⟩ := (h1 m).1 hm
          show i < i + 1 + k
          omega
      rw [parseLines, if_neg hl]
      cases he : executeRegex labels l with
      | none =>
        have hbad : ∀ st, Reads l st → ¬ Good labels st.instr st.arg := by
          intro st hr _
          obtain ⟨r, _, _, codes, h, _⟩ := hr.exec (hn l (by simp)) labels
          rw [he] at h
          simp at h
        obtain ⟨b1, b2⟩ := bad hbad
        exact ⟨b1, b2, acc, shift, h4, skip hbad, fun h => by simp at h⟩
      | some q =>
        obtain ⟨codes, eti, op⟩ := q
        by_cases hc : codes = []
        · have hbad : ∀ st, Reads l st → ¬ Good labels st.instr st.arg := by
            intro st hr hg
            obtain ⟨r, _, e, codes', h, hco⟩ := hr.exec (hn l (by simp)) labels
            rw [he] at h
            cases h
            exact hco.ne_nil.2 (by rw [e]; exact hg) hc
          obtain ⟨b1, b2⟩ := bad hbad
          simp only [hc, if_true]
          exact ⟨b1, b2, acc, shift, h4, skip hbad, fun h => by simp at h⟩
        · simp only [if_neg hc]
          obtain ⟨st, hst⟩ := exec_reads (hn l (by simp)) he hc
          obtain ⟨r, hr, e, codes', h7, h8⟩ := hst.exec (hn l (by simp)) labels
          rw [he] at h7
          cases h7
          have hg : Good labels st.instr st.arg := by rw [← e]; exact h8.ne_nil.1 hc
          refine ⟨tail fun h => h.2 st hst hg, h2, (i, st) :: acc, .cons ?_ shift, ?_, ?_, fun h => ?_⟩
          · exact ⟨⟨⟨r, hr, e, rfl, h8⟩, hc, rfl, hst.labels.1, hst.labels.2.1, hst.labels.2.2⟩, rfl,
              ⟨0, rfl, rfl⟩, hst⟩
          · exact .cons hacc h4
          · intro j st'
            rw [List.mem_cons, h5]
            constructor
            · rintro (h | ⟨k, c, e, h, hr⟩)
              · cases h
                exact ⟨0, l, rfl, rfl, hst, hg⟩
              · exact ⟨k + 1, c, by omega, by simpa using h, hr⟩
            · rintro ⟨k, c, e, h, hr, hg'⟩
              cases k with
              | zero =>
                simp at h
                subst h
                left
                rw [hst.unique (hn _ (by simp)) hr, e]
                rfl
              | succ k => exact .inr ⟨k, c, by omega, by simpa using h, hr, hg'⟩
          · rw [List.filter_cons_of_pos (by simpa using hl), List.map_cons]
            exact .cons hst (h6 h)

theorem indexOf_prefix {pat s : Str} (h : pat <+: s) (k : Nat) : indexOf pat k s = k := by
  have := List.isPrefixOf_iff_prefix.2 h
  cases s <;> simp [indexOf, this]

theorem Noted.mark {labels lines : List Str} {i : Nat} {x : Result} {p : Nat × Stmt} {l : Str}
    (h : Noted labels lines i x p) (hl : p.2.label = some l) : x.mark = ⟨p.1, 0, units l⟩ := by
  have e : x.eti = l := by rw [h.kept.eti, hl]; rfl
  obtain ⟨w, s, _, _, hh⟩ := h.reads
  rw [hl] at hh
  have hp : x.eti <+: x.line := by rw [e, hh.2]; exact ⟨_, rfl⟩
  rw [Result.mark, indexOf_prefix hp, h.line, e]
  simp

/-- The label list of `calculateEtiquetasPos`. -/
theorem etiPos_acc {labels lines : List Str} {i : Nat} {results : List Result}
    {acc : List (Nat × Stmt)} (h : List.Forall₂ (Noted labels lines i) results acc) (d : Nat) :
    (∀ l a m, (l, a, m) ∈ etiPos d results ↔ ∃ before j st after, acc = before ++ (j, st) :: after ∧
      st.label = some l ∧ a = d + sizeOf (before.map (·.2)) ∧ m = ⟨j, 0, units l⟩) := by
  induction h generalizing d with
  | nil =>
    intro l a m
    exact ⟨fun h => by simp [etiPos] at h, fun ⟨b, j, st, c, e, _⟩ => by simp at e⟩
  | @cons x p results acc hx _ ih =>
    intro l a m
    obtain ⟨r, hr, e1, e2, _⟩ := hx.kept.row
    have hsz : x.instruction.ALLOC = p.2.instr.size := by rw [e2, Row.alloc hr, e1]
    have rest : (l, a, m) ∈ etiPos (d + x.instruction.ALLOC) results ↔
        ∃ before j st after, p :: acc = p :: before ++ (j, st) :: after ∧ st.label = some l ∧
          a = d + sizeOf ((p :: before).map (·.2)) ∧ m = ⟨j, 0, units l⟩ := by
      rw [ih]
      have : ∀ b : List (Nat × Stmt), d + x.instruction.ALLOC + sizeOf (b.map (·.2)) =
          d + sizeOf ((p :: b).map (·.2)) := by
        intro b
        rw [hsz]
        simp [sizeOf]
        omega
      simp only [this, List.cons_append, List.cons.injEq, true_and]
    have split : (∃ before j st after, p :: acc = before ++ (j, st) :: after ∧ st.label = some l ∧
          a = d + sizeOf (before.map (·.2)) ∧ m = ⟨j, 0, units l⟩) ↔
        (p.2.label = some l ∧ a = d ∧ m = ⟨p.1, 0, units l⟩) ∨
        ∃ before j st after, p :: acc = p :: before ++ (j, st) :: after ∧ st.label = some l ∧
          a = d + sizeOf ((p :: before).map (·.2)) ∧ m = ⟨j, 0, units l⟩ := by
      constructor
      · rintro ⟨before, j, st, after, e, h1, h2, h3⟩
        cases before with
        | nil =>
          cases e
          exact .inl ⟨h1, by simpa [sizeOf] using h2, h3⟩
        | cons q before =>
          rw [List.cons_append, List.cons.injEq] at e
          obtain ⟨rfl, e⟩ := e
          exact .inr ⟨before, j, st, after, by rw [List.cons_append, e], h1, h2, h3⟩
      · rintro (⟨h1, h2, h3⟩ | ⟨before, j, st, after, e, h1, h2, h3⟩)
        · exact ⟨[], p.1, p.2, acc, rfl, h1, by simp [sizeOf, h2], h3⟩
        · exact ⟨p :: before, j, st, after, e, h1, h2, h3⟩
    rw [split, ← rest, etiPos]
    have hne : ∀ l, p.2.label = some l → x.eti = l ∧ x.eti ≠ [] := by
      intro l hl
      have e : x.eti = l := by rw [hx.kept.eti, hl]; rfl
      refine ⟨e, ?_⟩
      rw [e]
      rintro rfl
      have := (hx.kept.lab _ hl).1
      simp at this
    by_cases he : x.eti = []
    · rw [if_pos he]
      constructor
      · exact .inr
      · rintro (⟨h, _⟩ | h)
        · exact absurd he (hne l h).2
        · exact h
    · rw [if_neg he, List.mem_cons]
      apply or_congr_left
      constructor
      · intro h
        cases h
        cases hl : p.2.label with
        | none =>
          have := hx.kept.eti
          rw [hl] at this
          exact absurd this he
        | some l' =>
          obtain ⟨e, _⟩ := hne l' hl
          exact ⟨by rw [e], rfl, by rw [hx.mark hl, e]⟩
      · rintro ⟨h1, rfl, rfl⟩
        rw [hx.mark h1, (hne l h1).1]

end Mpp.Front
