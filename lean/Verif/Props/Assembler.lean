import Verif.Front.Saved
import Verif.Front.Layout
/-!
# C36 to C39 and C46: the assembler
-/
namespace Mpp.Front

/-! ## Sample programs -/

/-- A program with a comment, a blank line, an indented line, lower case, and labels that are used
before and after their definition. -/
def sampleText : Str :=
  "# counts\nMOV 00, AC\n\n  T2 inc ac # loop\nCMP 5\nBEQ T1\nJMP T2\nT1 FIN".toList

def sampleProg : List Stmt :=
  [⟨none, .mov .imm .ac, .num 0⟩, ⟨some "T2".toList, .inc .ac, .none⟩, ⟨none, .alu .cmp .imm, .num 5⟩,
    ⟨none, .beq, .label "T1".toList⟩, ⟨none, .jmp, .label "T2".toList⟩, ⟨some "T1".toList, .fin, .none⟩]

theorem sample_source : Source sampleText sampleProg := by
  rw [source_iff]
  refine ⟨by decide +kernel, ?_⟩
  have e : (cleanLines sampleText).filter (fun c => c ≠ []) =
      ["MOV 00, AC".toList, "T2 inc ac".toList, "CMP 5".toList, "BEQ T1".toList, "JMP T2".toList,
        "T1 FIN".toList] := by decide +kernel
  rw [e]
  have r : ∀ (st : Stmt) (w line : Str), lineOf st w = line → ArgText st.instr w st.arg →
      (∀ l ∈ st.label, IsLabel l) → Reads line st := by
    intro st w line h ha hl
    rw [← h]
    exact reads_lineOf ha fun l h => hl l (by simp [h])
  refine .cons (r _ "00".toList _ (by decide) (by decide) (by decide)) (.cons ?_ (.cons
    (r _ "5".toList _ (by decide) (by decide) (by decide)) (.cons
    (r _ "T1".toList _ (by decide) (by decide) (by decide)) (.cons
    (r _ "T2".toList _ (by decide) (by decide) (by decide)) (.cons
    (r _ [] _ (by decide) (by decide) (by decide)) .nil)))))
  exact ⟨[], "inc ac".toList, .one (m := "inc".toList) (t := "ac".toList) (b := ' ')
    (x := .name acName) rfl (by decide) (by decide) (show SameName _ _ by decide), trivial, by decide, rfl⟩

theorem sample_valid : Valid sampleProg ∧ LabelsAreAddresses sampleProg ∧ sampleProg ≠ [] ∧
    sizeOf sampleProg = 12 := by decide +kernel

/-! ## C36 -/

/-- Whatever the line and the labels of the program, the codes of an accepted line are those of an
operation of the table. Either they are `ALLOC` bytes and the first is the opcode, or they are the
opcode and a label that is still to be replaced. -/
theorem C36_line (labels : List Str) (line : Str) (codes : List Str) (eti : Str) (op : Operation)
    (h : executeRegex labels line = some (codes, eti, op)) (hc : codes ≠ []) :
    op ∈ operations ∧ codes.head? = some op.HEX ∧ (∃ b, HexByte op.HEX b) ∧
      ((codes.length = op.ALLOC ∧ ∀ x ∈ codes, ∃ b, HexByte x b) ∨
        ∃ l ∈ labels, l.head? = some 'T' ∧ codes = [op.HEX, l]) := by
  obtain ⟨r, hr, rfl, ⟨caps, hl, rfl⟩, ht⟩ := executeRegex_row h
  have hex : ∃ b, HexByte r.1.HEX b := TwoHex.byte ⟨Row.hexLen hr, Row.isHex hr⟩
  have hm : r.1 ∈ operations := by rw [← rows_fst]; exact List.mem_map_of_mem hr
  rcases codes_cases hr (labels := labels) hl with h | ⟨l, h, h1, h2, _⟩ | ⟨bs, h, h2, h3⟩
  · exact absurd h hc
  · rw [h]
    exact ⟨hm, rfl, hex, .inr ⟨l, h1, by simpa [startsT] using h2, rfl⟩⟩
  · rw [h]
    refine ⟨hm, rfl, hex, .inl ⟨by rw [List.length_cons, h2, Row.alloc hr], ?_⟩⟩
    intro x hx
    rcases List.mem_cons.1 hx with rfl | hx
    · exact hex
    · exact (h3 x hx).byte

/-- Non-vacuity: an address operand without leading zeros gives three bytes. -/
example : (executeRegex [] "JMP 123".toList).map (·.1) =
    some ["74".toList, "01".toList, "23".toList] := by decide +kernel

theorem Forall₂.ungroup {α β : Type} {R : α → β → Prop} {xs : List α} {yss : List (List β)}
    (h : List.Forall₂ R xs yss.flatten) :
    ∃ xss, xs = xss.flatten ∧ List.Forall₂ (List.Forall₂ R) xss yss := by
  induction yss generalizing xs with
  | nil => cases h; exact ⟨[], rfl, .nil⟩
  | cons ys yss ih =>
    rw [List.flatten_cons] at h
    have h1 := List.forall₂_take_append _ _ _ h
    have h2 := List.forall₂_drop_append _ _ _ h
    obtain ⟨xss, e, h3⟩ := ih h2
    exact ⟨xs.take ys.length :: xss, by rw [List.flatten_cons, ← e, List.take_append_drop], .cons h1 h3⟩

/-- The emitted code of a program consists of one group for each statement. A group has as many bytes
as the CPU takes for the instruction, each written as two hexadecimal digits, and the first is decoded
as the instruction. -/
theorem C36_text (text : Str) (prog : List Stmt) (hs : Source text prog) (hne : prog ≠ [])
    (hv : Valid prog) (ha : LabelsAreAddresses prog) (hsz : sizeOf prog ≤ 65536) :
    ∃ groups, translation text = some (some groups.flatten) ∧
      List.Forall₂ (fun st g => g.length = st.instr.size ∧ (∀ x ∈ g, ∃ b, HexByte x b) ∧
        ∃ x b, g.head? = some x ∧ HexByte x b ∧ decode b = some st.instr) prog groups := by
  obtain ⟨slots, bss, h1, h2, h3⟩ := translation_code hs hne hv ha hsz
  obtain ⟨groups, rfl, h4⟩ := Forall₂.ungroup h3
  refine ⟨groups, h1, ?_⟩
  have key : ∀ ps gs bss, List.Forall₂ (StmtCode prog) ps bss →
      List.Forall₂ (List.Forall₂ HexByte) gs bss →
      List.Forall₂ (fun st g => g.length = st.instr.size ∧ (∀ x ∈ g, ∃ b, HexByte x b) ∧
        ∃ x b, g.head? = some x ∧ HexByte x b ∧ decode b = some st.instr) ps gs := by
    intro ps gs bss c
    induction c generalizing gs with
    | nil => intro h; cases h; exact .nil
    | @cons st bs ps bss c1 c2 ih =>
      intro h
      cases h with
      | @cons g _ gs _ g1 g2 =>
        refine .cons ⟨g1.length_eq.trans (kind_length c1), ?_, ?_⟩ (ih gs g2)
        · intro x hx
          obtain ⟨b, _, hb⟩ := Forall₂.of_left g1 hx
          exact ⟨b, hb⟩
        · obtain ⟨op, rest, v, rfl, hd, _⟩ := c1
          cases g1 with
          | cons hb _ => exact ⟨_, op, rfl, hb, hd⟩
  exact key prog groups bss h2 h4

/-- Non-vacuity: the sample program and its code. -/
example : translation sampleText = some (some (["64", "00", "4B", "67", "05", "72", "00", "0B", "74",
    "00", "02", "FF"].map String.toList)) := by decide +kernel

/-- The exception in the property is real: `MOV T1, AC` takes two bytes, and three are emitted. The
label arithmetic counts two: `T2` stands for 2, but the instruction is at 3. -/
theorem C36_byte_label : ∃ text prog, Source text prog ∧ Valid prog ∧ sizeOf prog = 6 ∧
    translation text = some (some (["64", "00", "00", "FF", "74", "00", "02"].map String.toList)) := by
  refine ⟨"T1 MOV T1, AC\nT2 FIN\nJMP T2".toList, _, source_of
    [(⟨some "T1".toList, .mov .imm .ac, .label "T1".toList⟩, "T1".toList),
      (⟨some "T2".toList, .fin, .none⟩, []), (⟨none, .jmp, .label "T2".toList⟩, "T2".toList)]
    (by decide +kernel) (by decide +kernel) (by decide +kernel), by decide +kernel, by decide +kernel,
    by decide +kernel⟩

/-! ## C37 -/

/-- A text in which every operand is right is translated to the machine code of its program: an
opcode that the CPU decodes as the instruction, then the operand, high byte first, where a label
stands for the number of bytes before the first statement with that label. -/
theorem C37_code (text : Str) (prog : List Stmt) (hs : Source text prog) (hne : prog ≠ [])
    (hv : Valid prog) (ha : LabelsAreAddresses prog) (hsz : sizeOf prog ≤ 65536) :
    ∃ slots bss, translation text = some (some slots) ∧ Code prog bss ∧
      List.Forall₂ HexByte slots bss.flatten :=
  translation_code hs hne hv ha hsz

theorem flatten_size {prog ps : List Stmt} {bss : List (List (BitVec 8))}
    (h : List.Forall₂ (StmtCode prog) ps bss) : bss.flatten.length = sizeOf ps := by
  induction h with
  | nil => rfl
  | cons h1 _ ih =>
    rw [List.flatten_cons, List.length_append, ih, kind_length h1]
    simp [sizeOf]

/-- Every label operand is emitted as the offset, in the emitted code, of the first statement that
carries the label: `bss` are the emitted bytes, in one list for each statement. -/
theorem C37_labels (text : Str) (prog : List Stmt) (hs : Source text prog) (hne : prog ≠ [])
    (hv : Valid prog) (ha : LabelsAreAddresses prog) (hsz : sizeOf prog ≤ 65536) :
    ∃ (slots : List Str) (bss : List (List (BitVec 8))), translation text = some (some slots) ∧
      List.Forall₂ HexByte slots bss.flatten ∧
      bss.length = prog.length ∧
      ∀ (i : Nat) (st : Stmt) (l : Str), prog[i]? = some st → st.arg = .label l →
        ∃ (j : Nat) (op hi lo : BitVec 8), (prog[j]?.map Stmt.label) = some (some l) ∧
          (∀ k < j, (prog[k]?.map Stmt.label) ≠ some (some l)) ∧
          bss[i]? = some [op, hi, lo] ∧
          256 * hi.toNat + lo.toNat = (bss.take j).flatten.length := by
  obtain ⟨slots, bss, h1, h2, h3⟩ := translation_code hs hne hv ha hsz
  have hlen := h2.length_eq
  refine ⟨slots, bss, h1, h3, hlen.symm, ?_⟩
  intro i st l hi hl
  obtain ⟨hi', hi''⟩ := List.getElem?_eq_some_iff.1 hi
  have hc := h2.get hi' (hlen ▸ hi')
  simp only [List.get_eq_getElem, hi''] at hc
  obtain ⟨op, rest, v, e, _, hv', hm⟩ := hc
  rw [hl] at hv'
  obtain ⟨before, t, after, hp, ht, hb, hva⟩ := hv'
  rw [ha st (List.mem_of_getElem? hi) l hl] at hm
  refine ⟨before.length, op, BitVec.ofNat 8 (v / 256), BitVec.ofNat 8 (v % 256), ?_, ?_, ?_, ?_⟩
  · rw [hp, List.getElem?_append_right (Nat.le_refl _)]
    simp [ht]
  · intro k hk
    rw [hp, List.getElem?_append_left hk, List.getElem?_eq_getElem hk]
    simpa using hb _ (List.getElem_mem hk)
  · rw [List.getElem?_eq_getElem (hlen ▸ hi'), e, hm.2]
  · have h4 : List.Forall₂ (StmtCode prog) before (bss.take before.length) := by
      have := List.forall₂_take before.length h2
      rwa [hp, List.take_left', ← hp] at this
      rfl
    rw [flatten_size h4, ← hva, BitVec.toNat_ofNat, BitVec.toNat_ofNat]
    have := hm.1
    omega

/-- Non-vacuity: the hypotheses hold of the sample, whose labels stand for 11 and 2. -/
example : Source sampleText sampleProg ∧ Valid sampleProg ∧ LabelsAreAddresses sampleProg ∧
    sampleProg ≠ [] ∧ sizeOf sampleProg ≤ 65536 ∧
    LabelAt sampleProg "T1".toList 11 ∧ LabelAt sampleProg "T2".toList 2 :=
  ⟨sample_source, by decide +kernel, by decide +kernel, by decide, by decide,
    ⟨sampleProg.take 5, _, [], rfl, rfl, by decide, by decide⟩,
    ⟨sampleProg.take 1, _, sampleProg.drop 2, rfl, rfl, by decide, by decide⟩⟩

/-- The assembler accepts exactly the texts of the language in which every operand is right; the
lines of `text` contain no line terminators but the newline, except around statements. -/
theorem C37_accepts (text : Str) (hp : Plain text) : (∃ slots, translation text = some (some slots)) ↔
    ∃ prog, Source text prog ∧ Valid prog ∧ prog ≠ [] :=
  translation_iff hp

/-- The program of a text, and its code, are unique. -/
theorem C37_unique (text : Str) (p q : List Stmt) (hp : Source text p) (hq : Source text q)
    (bss bss' : List (List (BitVec 8))) (hc : Code p bss) (hc' : Code q bss') : p = q ∧ bss = bss' := by
  have := hp.unique hq
  subst this
  refine ⟨rfl, Code.unique ?_ hc hc'⟩
  obtain ⟨_, _, _, _, _, h⟩ := hp
  intro st hst
  obtain ⟨line, _, hr⟩ := Forall₂.of_right h hst
  exact hr.labels.2.2

/-- With another line terminator inside a line the assembler can accept what is not a program: `JMP T1`
is emitted as an opcode and the text `T1`, although `T1` is the label of no statement, and one of the
two jumps is lost. -/
theorem C37_terminator : translation "T1 FIN\rFIN\nJMP T1\nJMP T1".toList =
    some (some (["FF", "74", "T1"].map String.toList)) := by decide +kernel

/-- A text that is not accepted: the label is not defined. -/
example : translation "JMP T1\nFIN".toList = some none := by decide +kernel

/-! ## C38 -/

/-- No two operations have the same opcode; each opcode is decoded by the CPU as the instruction that
the mnemonic names, which takes `ALLOC` bytes; and every opcode that the CPU decodes is in the table. -/
theorem C38_table : (operations.map Operation.HEX).Nodup ∧
    (∀ op ∈ operations, ∃ b i, HexByte op.HEX b ∧ decode b = some i ∧ i.size = op.ALLOC ∧
      op.NEMO = textOf i (match kindOf i with
        | .none => [] | .byte => "inm".toList | .addr => "dir".toList)) ∧
    (∀ b i, decode b = some i → ∃ op ∈ operations, HexByte op.HEX b) := by
  refine ⟨by rw [← rows_fst, List.map_map]; exact rows_hex_nodup, ?_, ?_⟩
  · intro op hop
    rw [← rows_fst] at hop
    obtain ⟨r, hr, rfl⟩ := List.mem_map.1 hop
    exact ⟨r.2.1, r.2.2, ⟨Row.hexLen hr, (hexValue_iff _ _).2 ⟨Row.isHex hr, Row.hex hr⟩⟩,
      Row.decode hr, (Row.alloc hr).symm, rows_nemo r hr⟩
  · intro b i hd
    obtain ⟨r, hr, e⟩ : ∃ r ∈ rows, r.2 = (b, i) := by
      have := decode_row b
      rw [hd] at this
      simpa using this
    refine ⟨r.1, by rw [← rows_fst]; exact List.mem_map_of_mem hr, ?_⟩
    have : b = r.2.1 := by rw [e]
    rw [this]
    exact ⟨Row.hexLen hr, (hexValue_iff _ _).2 ⟨Row.isHex hr, Row.hex hr⟩⟩

/-- A line that is written as the instruction `st.instr` is matched by the operation whose opcode
the CPU decodes as `st.instr`, whatever the operand, the label and the labels of the program. -/
theorem C38_choice (line : Str) (st : Stmt) (hn : ∀ c ∈ line, c ≠ '\n' ∧ ¬ OddTerm c)
    (h : Reads line st) (labels : List Str) : ∃ codes op b,
      executeRegex labels line = some (codes, st.label.getD [], op) ∧ op ∈ operations ∧
      HexByte op.HEX b ∧ decode b = some st.instr := by
  obtain ⟨r, hr, e, codes, h1, _⟩ := h.exec (fun c hc => by
    have := hn c hc
    cases ht : isTerm c with
    | false => rfl
    | true => rcases term_odd.1 ht with h | h
              · exact absurd h this.1
              · exact absurd h this.2) labels
  exact ⟨codes, r.1, r.2.1, h1, by rw [← rows_fst]; exact List.mem_map_of_mem hr,
    ⟨Row.hexLen hr, (hexValue_iff _ _).2 ⟨Row.isHex hr, Row.hex hr⟩⟩, by rw [Row.decode hr, e]⟩

/-- Non-vacuity: `ADD BC` adds the number 0xBC. -/
example : Reads "ADD BC".toList ⟨none, .alu .add .imm, .num 0xBC⟩ :=
  reads_lineOf (st := ⟨none, .alu .add .imm, .num 0xBC⟩) (w := "BC".toList) (by decide) (by simp)

/-- The only number that cannot be written as its hexadecimal digits is the byte AC, which names the
register; it can be written with a leading zero. -/
theorem C38_ac : Reads "ADD AC".toList ⟨none, .alu .add .ac, .none⟩ ∧
    (∀ n, ¬ Reads "ADD AC".toList ⟨none, .alu .add .imm, .num n⟩) ∧
    Reads "ADD 0AC".toList ⟨none, .alu .add .imm, .num 0xAC⟩ := by
  have h : Reads "ADD AC".toList ⟨none, .alu .add .ac, .none⟩ :=
    reads_lineOf (st := ⟨none, .alu .add .ac, .none⟩) (w := []) (by decide) (by simp)
  refine ⟨h, fun n hn => ?_, ?_⟩
  · have := congrArg Stmt.arg (h.unique (by decide) hn)
    simp at this
  · exact reads_lineOf (st := ⟨none, .alu .add .imm, .num 0xAC⟩) (w := "0AC".toList) (by decide)
      (by simp)

/-! ## C39 -/

/-- What is emitted depends only on the statements of the text. -/
theorem C39_statements (text text' : Str) (cs : List Str) (h : Statements text cs)
    (h' : Statements text' cs) : translation text = translation text' := by
  obtain ⟨f, hf⟩ := translation_filter
  rw [hf text cs h, hf text' cs h']

theorem Core.after {l k ws c : Str} (h : Core l k) (hw : ∀ x ∈ ws, Blank x)
    (hc : c = [] ∨ c.head? = some '#') : Core (ws ++ l ++ c) k ∧ Core (l ++ ws ++ c) k := by
  obtain ⟨⟨a, b, d, rfl, ha, hb, hd⟩, h1, h2, h3⟩ := h
  constructor
  · rcases hd with rfl | hd
    · refine ⟨⟨ws ++ a, b, c, by simp, ?_, hb, hc⟩, h1, h2, h3⟩
      intro x hx
      rcases List.mem_append.1 hx with hx | hx
      · exact hw x hx
      · exact ha x hx
    · refine ⟨⟨ws ++ a, b, d ++ c, by simp, ?_, hb, .inr ?_⟩, h1, h2, h3⟩
      · intro x hx
        rcases List.mem_append.1 hx with hx | hx
        · exact hw x hx
        · exact ha x hx
      · cases d with
        | nil => simp at hd
        | cons _ _ => simpa using hd
  · rcases hd with rfl | hd
    · refine ⟨⟨a, b ++ ws, c, by simp, ha, ?_, hc⟩, h1, h2, h3⟩
      intro x hx
      rcases List.mem_append.1 hx with hx | hx
      · exact hb x hx
      · exact hw x hx
    · refine ⟨⟨a, b, d ++ ws ++ c, by simp, ha, hb, .inr ?_⟩, h1, h2, h3⟩
      cases d with
      | nil => simp at hd
      | cons _ _ => simpa using hd

theorem statements_join {lines cores : List Str} (hne : lines ≠ []) (hn : ∀ l ∈ lines, '\n' ∉ l)
    (h : List.Forall₂ Core lines cores) : Statements (join '\n' lines) (cores.filter fun c => c ≠ []) :=
  ⟨lines, cores, lines_join hne hn, h, rfl⟩

/-- Blanks before a line, and blanks and a comment after it, change nothing. -/
theorem C39_comment (before after : List Str) (line ws ws' c : Str)
    (hn : ∀ l ∈ before ++ line :: after, '\n' ∉ l) (hw : ∀ x ∈ ws, Blank x ∧ x ≠ '\n')
    (hw' : ∀ x ∈ ws', Blank x ∧ x ≠ '\n') (hc : c = [] ∨ c.head? = some '#') (hcn : '\n' ∉ c) :
    translation (join '\n' (before ++ (ws ++ line ++ ws' ++ c) :: after)) =
      translation (join '\n' (before ++ line :: after)) := by
  refine C39_statements _ _ _ (statements_join (by simp) ?_
    (List.rel_append (cores_clean before) (.cons (l₂ := after.map clean) (b := clean line) ?_
      (cores_clean after)))) (statements_join (by simp) hn
    (List.rel_append (cores_clean before) (.cons (core_clean line) (cores_clean after))))
  · intro l hl
    simp only [List.mem_append, List.mem_cons] at hl hn
    rcases hl with hl | rfl | hl
    · exact hn l (.inl hl)
    · have := hn line (.inr (.inl rfl))
      simp only [List.mem_append, not_or]
      exact ⟨⟨⟨fun h => (hw _ h).2 rfl, this⟩, fun h => (hw' _ h).2 rfl⟩, hcn⟩
    · exact hn l (.inr (.inr hl))
  · have h1 := ((core_clean line).after (c := []) (fun x hx => (hw x hx).1) (.inl rfl)).1
    rw [List.append_nil] at h1
    exact (h1.after (fun x hx => (hw' x hx).1) hc).2

/-- Adding or removing a line of blanks, with or without a comment, changes nothing. -/
theorem C39_blank_line (before after : List Str) (ws c : Str)
    (hn : ∀ l ∈ before ++ after, '\n' ∉ l) (hw : ∀ x ∈ ws, Blank x ∧ x ≠ '\n')
    (hc : c = [] ∨ c.head? = some '#') (hcn : '\n' ∉ c) :
    translation (join '\n' (before ++ (ws ++ c) :: after)) =
      translation (join '\n' (before ++ after)) := by
  have hb : Core (ws ++ c) [] := by
    refine ⟨⟨ws, [], c, by simp, fun x hx => (hw x hx).1, by simp, hc⟩, by simp, by simp, by simp⟩
  have h1 := statements_join (lines := before ++ (ws ++ c) :: after) (by simp) (by
    intro l hl
    simp only [List.mem_append, List.mem_cons] at hl hn
    rcases hl with hl | rfl | hl
    · exact hn l (.inl hl)
    · simp only [List.mem_append, not_or]
      exact ⟨fun h => (hw _ h).2 rfl, hcn⟩
    · exact hn l (.inr hl)) (List.rel_append (cores_clean before) (.cons hb (cores_clean after)))
  have e : (before.map clean ++ [] :: after.map clean).filter (fun c => c ≠ []) =
      (before.map clean ++ after.map clean).filter fun c => c ≠ [] := by simp
  rw [e] at h1
  by_cases h0 : before ++ after = []
  · obtain ⟨rfl, rfl⟩ := List.append_eq_nil_iff.1 h0
    refine C39_statements _ _ _ h1 ?_
    exact (statements_iff _ _).2 (by decide +kernel)
  · exact C39_statements _ _ _ h1 (statements_join h0 hn
      (List.rel_append (cores_clean before) (cores_clean after)))

/-- Non-vacuity: a comment that contains a statement, and a comment sign. -/
example : translation "FIN # FIN\n\t# JMP T1 # x\n  FIN".toList =
    some (some (["FF", "FF"].map String.toList)) := by decide +kernel

/-! ## C46 -/

/-- The assembler ends on every text, although it rewrites the list over which it loops. -/
theorem C46_total (text : Str) (d : Nat) : (parseInput text d).isSome = true :=
  parseInput_total text d

end Mpp.Front
