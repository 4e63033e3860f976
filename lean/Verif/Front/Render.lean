import Verif.Front.Program
/-!
# Canonical texts

How an instruction and a program look when written in capitals, with one space after the mnemonic and
after the comma. Used to write examples and to say what the debugger should show.
-/
namespace Mpp.Front

/-- A slot, with the value written `w`. -/
def Slot.text (w : Str) : Slot → Str
  | .name s => s
  | .value => w

/-- The instruction `i` with the value written `w`. -/
def textOf (i : Instr) (w : Str) : Str :=
  match (syntaxOf i).2 with
  | [x] => (syntaxOf i).1 ++ ' ' :: x.text w
  | [x, y] => (syntaxOf i).1 ++ ' ' :: (x.text w ++ ',' :: ([' '] ++ y.text w))
  | _ => (syntaxOf i).1

/-- The line of a statement whose operand is written `w`. -/
def lineOf (st : Stmt) (w : Str) : Str :=
  match st.label with
  | none => textOf st.instr w
  | some l => l ++ ' ' :: textOf st.instr w

theorem syntax_short (i : Instr) : (syntaxOf i).2 = [] ∨ (∃ x, (syntaxOf i).2 = [x]) ∨
    ∃ x y, (syntaxOf i).2 = [x, y] := by
  cases i <;> simp [syntaxOf]

theorem Slot.filled (x : Slot) (w : Str) : x.Filled w (x.text w) := by
  cases x <;> simp [Slot.Filled, Slot.text, SameName]

theorem spells_textOf (i : Instr) (w : Str) : Spells i w (textOf i w) := by
  unfold textOf
  rcases syntax_short i with h | ⟨x, h⟩ | ⟨x, y, h⟩
  · rw [h]
    exact .none h rfl
  · rw [h]
    exact .one h rfl (by decide) (x.filled w)
  · rw [h]
    exact .two h rfl (by decide) (x.filled w) (.inr ⟨' ', by decide, rfl⟩) (y.filled w)

theorem reads_lineOf {st : Stmt} {w : Str} (ha : ArgText st.instr w st.arg)
    (hl : ∀ l, st.label = some l → IsLabel l) : Reads (lineOf st w) st := by
  refine ⟨w, textOf st.instr w, spells_textOf _ _, ha, ?_⟩
  unfold lineOf
  cases h : st.label with
  | none => rfl
  | some l => exact ⟨hl l h, rfl⟩

/-- `operations.json` lists every instruction under its canonical text, with `inm` or `dir` for the
value. -/
theorem rows_nemo : ∀ r ∈ rows, r.1.NEMO = textOf r.2.2
    (match kindOf r.2.2 with | .none => [] | .byte => "inm".toList | .addr => "dir".toList) := by
  decide +kernel

/-! ## Lines without comments and surrounding blanks -/

/-- Such a line. -/
structure Neat (s : Str) : Prop where
  ne : s ≠ []
  noHash : '#' ∉ s
  noNl : '\n' ∉ s
  noTerm : ∀ c ∈ s, ¬ OddTerm c
  first : ∀ c, s.head? = some c → ¬ Blank c
  last : ∀ c, s.getLast? = some c → ¬ Blank c

theorem Neat.core {s : Str} (h : Neat s) : Core s s :=
  ⟨⟨[], [], [], by simp, by simp, by simp, .inl rfl⟩, h.noHash, h.first, h.last⟩

theorem lines_join {ws : List Str} (hne : ws ≠ []) (h : ∀ w ∈ ws, '\n' ∉ w) :
    Lines (join '\n' ws) ws := by
  have := lines_split (join '\n' ws)
  rwa [split_join hne h] at this

theorem source_join {lines : List Str} {prog : List Stmt} (hne : lines ≠ [])
    (hn : ∀ l ∈ lines, Neat l) (h : List.Forall₂ Reads lines prog) :
    Source (join '\n' lines) prog := by
  refine ⟨lines, lines, lines_join hne fun l hl => (hn l hl).noNl, ?_, fun c hc => (hn c hc).noTerm, ?_⟩
  · rw [List.forall₂_same]
    exact fun l hl => (hn l hl).core
  · rw [List.filter_eq_self.2]
    · exact h
    · intro l hl
      simpa using (hn l hl).ne

/-- What is around the value in the canonical text. -/
def around (i : Instr) : Str × Str :=
  match (syntaxOf i).2 with
  | [_, y] => ((syntaxOf i).1 ++ [' '], ',' :: ' ' :: y.text [])
  | _ => ((syntaxOf i).1 ++ [' '], [])

theorem textOf_around {i : Instr} (h : kindOf i ≠ .none) (w : Str) :
    textOf i w = (around i).1 ++ w ++ (around i).2 := by
  cases i with
  | mov s d => cases s <;> cases d <;>
      simp_all [textOf, around, syntaxOf, Slot.ofOperand, Slot.ofDest, Slot.text, kindOf, Instr.size,
        Operand.size]
  | alu o s => cases s <;> simp_all [textOf, around, syntaxOf, Slot.ofOperand, Slot.text, kindOf,
      Instr.size, Operand.size]
  | _ => simp_all [textOf, around, syntaxOf, Slot.text, kindOf, Instr.size]

theorem textOf_none {i : Instr} (h : kindOf i = .none) (w w' : Str) : textOf i w = textOf i w' := by
  cases i with
  | mov s d => cases s <;> cases d <;>
      simp_all [textOf, syntaxOf, Slot.ofOperand, Slot.ofDest, Slot.text, kindOf, Instr.size,
        Operand.size]
  | alu o s => cases s <;> simp_all [textOf, syntaxOf, Slot.ofOperand, Slot.text, kindOf,
      Instr.size, Operand.size]
  | inc d => cases d <;> simp [textOf, syntaxOf, Slot.ofDest, Slot.text]
  | _ => simp_all [textOf, syntaxOf, kindOf, Instr.size]

theorem rows_neat : ∀ r ∈ rows,
    (∀ s ∈ [(around r.2.2).1, (around r.2.2).2, textOf r.2.2 []], '#' ∉ s ∧ '\n' ∉ s ∧ ∀ c ∈ s, ¬ OddTerm c) ∧
    (∀ s ∈ [(around r.2.2).1, textOf r.2.2 []], s.head?.all (fun c => ¬ Blank c) = true ∧ s ≠ []) ∧
    (around r.2.2).2.getLast?.all (fun c => ¬ Blank c) = true ∧
    (kindOf r.2.2 = .none → (textOf r.2.2 []).getLast?.all (fun c => ¬ Blank c) = true) := by
  decide +kernel

theorem word_plain {c : Char} (h : isWord c = true) :
    c ≠ '#' ∧ c ≠ '\n' ∧ ¬ OddTerm c ∧ ¬ Blank c := by
  have hb := word_not_ws h
  have hb' : ¬ Blank c := by
    rw [← isWs_iff, hb]
    simp
  refine ⟨?_, ?_, ?_, hb'⟩
  · rintro rfl
    exact absurd h (by decide)
  · rintro rfl
    exact absurd h (by decide)
  · intro ho
    apply hb'
    unfold OddTerm at ho
    unfold Blank
    simp only [List.mem_cons, List.not_mem_nil, or_false] at ho ⊢
    omega

/-- The canonical text is neat. -/
theorem neat_textOf (i : Instr) {w : Str} (hw : kindOf i ≠ .none → w ≠ [] ∧ ∀ c ∈ w, isWord c = true) :
    Neat (textOf i w) := by
  obtain ⟨r, hr, rfl⟩ := instr_row i
  obtain ⟨h1, h2, h3, h4⟩ := rows_neat r hr
  have head : ∀ {s : Str}, s.head?.all (fun c => ¬ Blank c) = true → ∀ c, s.head? = some c → ¬ Blank c := by
    intro s h c hc
    rw [hc] at h
    simpa using h
  have last : ∀ {s : Str}, s.getLast?.all (fun c => ¬ Blank c) = true →
      ∀ c, s.getLast? = some c → ¬ Blank c := by
    intro s h c hc
    rw [hc] at h
    simpa using h
  by_cases hk : kindOf r.2.2 = .none
  · rw [textOf_none hk w []]
    obtain ⟨a, b, c⟩ := h1 (textOf r.2.2 []) (by simp)
    obtain ⟨d, e⟩ := h2 (textOf r.2.2 []) (by simp)
    exact ⟨e, a, b, c, head d, last (h4 hk)⟩
  · obtain ⟨w0, w1⟩ := hw hk
    rw [textOf_around hk]
    obtain ⟨a, b, c⟩ := h1 (around r.2.2).1 (by simp)
    obtain ⟨a', b', c'⟩ := h1 (around r.2.2).2 (by simp)
    obtain ⟨d, e⟩ := h2 (around r.2.2).1 (by simp)
    refine ⟨by simp [w0], ?_, ?_, ?_, ?_, ?_⟩
    · simp only [List.mem_append, not_or]
      exact ⟨⟨a, fun h => (word_plain (w1 _ h)).1 rfl⟩, a'⟩
    · simp only [List.mem_append, not_or]
      exact ⟨⟨b, fun h => (word_plain (w1 _ h)).2.1 rfl⟩, b'⟩
    · intro x hx
      simp only [List.mem_append] at hx
      rcases hx with (hx | hx) | hx
      · exact c x hx
      · exact (word_plain (w1 _ hx)).2.2.1
      · exact c' x hx
    · intro x hx
      rw [List.append_assoc, List.head?_append_of_ne_nil _ e] at hx
      exact head d x hx
    · intro x hx
      by_cases he : (around r.2.2).2 = []
      · rw [he, List.append_nil, List.getLast?_append_of_ne_nil _ w0] at hx
        exact (word_plain (w1 _ (List.mem_of_getLast? hx))).2.2.2
      · rw [List.getLast?_append_of_ne_nil _ he] at hx
        exact last h3 x hx

theorem Neat.noTerms {s : Str} (h : Neat s) : NoTerm s := by
  intro c hc
  rw [Bool.eq_false_iff, ne_eq, term_odd]
  rintro (rfl | ho)
  · exact h.noNl hc
  · exact h.noTerm c hc ho

/-! ## Concrete texts -/

instance (s : Str) (n : Nat) : Decidable (HexValue s n) := decidable_of_iff _ (hexValue_iff s n).symm

instance (l : Str) : Decidable (IsLabel l) := by unfold IsLabel; infer_instance

instance (c : Char) : Decidable (WordChar c) := by unfold WordChar; infer_instance

instance (i : Instr) (w : Str) (a : Arg) : Decidable (ArgText i w a) := by
  unfold ArgText
  split <;> infer_instance

instance (s : Str) : Decidable (NoTerm s) := by unfold NoTerm; infer_instance

instance (s : Str) (b : BitVec 8) : Decidable (HexByte s b) := by unfold HexByte; infer_instance

/-- `LabelsAreAddresses`, of one statement, as a computation. -/
def Stmt.labelIsAddress (st : Stmt) : Bool :=
  match st.arg with
  | .label _ => kindOf st.instr = .addr
  | _ => true

instance (prog : List Stmt) : Decidable (LabelsAreAddresses prog) :=
  decidable_of_iff (∀ st ∈ prog, st.labelIsAddress = true) (by
    unfold LabelsAreAddresses
    constructor
    · intro h st hst l hl
      have := h st hst
      rw [Stmt.labelIsAddress, hl] at this
      simpa using this
    · intro h st hst
      unfold Stmt.labelIsAddress
      split
      · rename_i l hl
        simpa using h st hst l hl
      · rfl)

instance (prog : List Stmt) : Decidable (Valid prog) := by
  unfold Valid
  have : ∀ st : Stmt, Decidable (match st.arg with
    | .none => True
    | .num n => n < 256 ^ (st.instr.size - 1)
    | .label l => ∃ s ∈ prog, s.label = some l) := by
    intro st
    cases st.arg <;> infer_instance
  infer_instance

/-- A text whose statements are the canonical lines of `ps`. -/
theorem source_of {text : Str} (ps : List (Stmt × Str))
    (h1 : (cleanLines text).filter (fun c => c ≠ []) = ps.map fun p => lineOf p.1 p.2)
    (h2 : ∀ p ∈ ps, ArgText p.1.instr p.2 p.1.arg ∧ ∀ l ∈ p.1.label, IsLabel l)
    (h3 : ∀ l ∈ cleanLines text, NoTerm l) : Source text (ps.map (·.1)) := by
  rw [source_iff, h1]
  refine ⟨h3, ?_⟩
  clear h1 h3
  induction ps with
  | nil => exact .nil
  | cons p ps ih =>
    rw [List.map_cons, List.map_cons]
    refine .cons (reads_lineOf (h2 p (by simp)).1 fun l hl => (h2 p (by simp)).2 l (by simp [hl])) ?_
    exact ih fun q hq => h2 q (by simp [hq])

end Mpp.Front
