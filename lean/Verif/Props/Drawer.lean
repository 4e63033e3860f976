import Verif.Props.Assembler
import Verif.Loader
/-!
# C40, C41, C47 and C50: the debugger's listing and the code drawer
-/
namespace Mpp.Front

/-! ## C40 -/

/-- The bytes `bs` are in the cells from `a` on. -/
def CodeAt (p : P) (a : Nat) (bs : List (BitVec 8)) : Prop :=
  a + bs.length ≤ 65536 ∧ ∀ k b, bs[k]? = some b → p.mem (BitVec.ofNat 16 (a + k)) = b

theorem CodeAt.placed {h : H} {p : P} (r : Ready h p) {get : Nat → Int} (hm : Memory h get) {a : Nat}
    {bs : List (BitVec 8)} (hc : CodeAt p a bs) : Placed get a bs := by
  intro k b hk
  have : k < bs.length := (List.getElem?_eq_some_iff.1 hk).1
  rw [hm.byte r (by have := hc.1; omega), hc.2 k b hk]

/-- Disassembling the cells of a program gives one row for each statement, in order. The row of a
statement has as range the bytes of the statement, and as operation the mnemonic of the instruction,
in canonical form, with the digits of the operand bytes. -/
theorem C40_rows (h : H) (p : P) (r : Ready h p) (get : Nat → Int) (hm : Memory h get)
    (prog : List Stmt) (hne : prog ≠ []) (bss : List (List (BitVec 8))) (hc : Code prog bss) (a : Nat)
    (hp : CodeAt p a bss.flatten) :
    ∃ rows, deductOperationOf get a ((a + bss.flatten.length : Nat) : Int) = some (some rows) ∧
      RowsOf a prog bss rows := by
  obtain ⟨rows, e, hr⟩ := deductLoop_code hne hc (hp.placed r hm)
    (fuel := bss.flatten.length + 1) (by omega)
  refine ⟨rows, ?_, hr⟩
  have h1 := hp.1
  unfold deductOperationOf
  rw [if_neg (by omega)]
  simp only
  rw [if_neg (by omega), if_neg (by omega)]
  have e1 : (((a + bss.flatten.length : Nat) : Int) - (a : Int)).toNat = bss.flatten.length := by omega
  rw [e1, Int.toNat_natCast, e]
  rfl

/-- The rows of a program are as many as its statements, and each begins where the one before ends. -/
theorem C40_consecutive (a : Nat) (prog : List Stmt) (bss : List (List (BitVec 8)))
    (rows : List Found) (h : RowsOf a prog bss rows) (i : Nat) (x : Found) (hx : rows[i]? = some x) :
    x.first = a + (bss.take i).flatten.length ∧
      x.last + 1 = a + (bss.take (i + 1)).flatten.length := by
  induction h generalizing i with
  | nil => simp at hx
  | @cons a st sts bs bss x' xs row rest ih =>
    cases i with
    | zero =>
      simp only [List.getElem?_cons_zero, Option.some.injEq] at hx
      subst hx
      simpa using ⟨row.1, row.2.1⟩
    | succ i =>
      have := ih i (by simpa using hx)
      simp only [List.take_succ_cons, List.flatten_cons, List.length_append]
      omega

/-- The operation of a row, read as a line of source, is the instruction with the operand in memory
exactly when the operand is legible: a byte other than AC, or an address whose high byte is 0 or whose
low byte has two digits. (The full property holds of legible operands only, see `C50_ambiguous`.) -/
theorem C50_operand_partial (prog : List Stmt) (a : Nat) (st : Stmt) (bs : List (BitVec 8)) (x : Found)
    (h : StmtCode prog st bs) (hx : RowOf a st bs x) :
    Reads x.operation ⟨none, st.instr, argOfBytes bs.tail⟩ ↔ Legible bs :=
  ⟨legible_of_reads h hx, reads_row h hx⟩

/-- The listing of a program with legible operands, given to the assembler, is translated to the bytes
that were listed. -/
theorem C50_relist_partial (h : H) (p : P) (r : Ready h p) (get : Nat → Int) (hm : Memory h get)
    (prog : List Stmt) (hne : prog ≠ []) (bss : List (List (BitVec 8))) (hc : Code prog bss) (a : Nat)
    (hp : CodeAt p a bss.flatten) (hl : ∀ bs ∈ bss, Legible bs) :
    ∃ rows slots, deductOperationOf get a ((a + bss.flatten.length : Nat) : Int) = some (some rows) ∧
      translation (join '\n' (rows.map Found.operation)) = some (some slots) ∧
      List.Forall₂ HexByte slots bss.flatten := by
  obtain ⟨rows, e, hr⟩ := C40_rows h p r get hm prog hne bss hc a hp
  obtain ⟨slots, h1, h2⟩ := hr.assembles hne hc hl (by have := hp.1; omega)
  exact ⟨rows, slots, e, h1, h2⟩

/-- The code of the sample program. -/
def sampleCode : List (List (BitVec 8)) :=
  [[0x64, 0x00], [0x4B], [0x67, 0x05], [0x72, 0x00, 0x0B], [0x74, 0x00, 0x02], [0xFF]]

theorem sample_code : Code sampleProg sampleCode := by
  have l1 : LabelAt sampleProg "T1".toList 11 :=
    ⟨sampleProg.take 5, _, [], rfl, rfl, by decide, by decide⟩
  have l2 : LabelAt sampleProg "T2".toList 2 :=
    ⟨sampleProg.take 1, _, sampleProg.drop 2, rfl, rfl, by decide, by decide⟩
  refine .cons ⟨_, _, 0, rfl, by decide +kernel, rfl, by decide, rfl⟩
    (.cons ⟨_, _, 0, rfl, by decide +kernel, trivial, rfl⟩
    (.cons ⟨_, _, 5, rfl, by decide +kernel, rfl, by decide, rfl⟩
    (.cons ⟨_, _, 11, rfl, by decide +kernel, l1, by decide, rfl⟩
    (.cons ⟨_, _, 2, rfl, by decide +kernel, l2, by decide, rfl⟩
    (.cons ⟨_, _, 0, rfl, by decide +kernel, trivial, rfl⟩ .nil)))))

/-- Non-vacuity: there is a machine with the sample at 0x1000, all its operands are legible, and the
listing of its fourth statement is as one expects. -/
example : (∃ h p, Ready h p ∧ CodeAt p 0x1000 sampleCode.flatten) ∧
    (∀ bs ∈ sampleCode, Legible bs) ∧
    textOf .beq ([0x00, 0x0B].flatMap byteText) = "BEQ 0B".toList := by
  refine ⟨?_, ?_, by decide +kernel⟩
  · obtain ⟨h, hr⟩ := ready_all
      ⟨0, 0, 0, 0, 0, 0, 0, false, false, fun i => sampleCode.flatten.getD (i.toNat - 0x1000) 0, []⟩ rfl
    refine ⟨h, _, hr, by decide, ?_⟩
    intro k b hk
    have hlt := (List.getElem?_eq_some_iff.1 hk).1
    have : sampleCode.flatten.length = 12 := by decide
    have e : (BitVec.ofNat 16 (0x1000 + k)).toNat - 0x1000 = k := by
      rw [BitVec.toNat_ofNat]
      omega
    simp only [e, List.getD_eq_getElem?_getD, hk, Option.getD_some]
  · intro bs hbs
    simp only [sampleCode, List.mem_cons, List.not_mem_nil, or_false] at hbs
    rcases hbs with rfl | rfl | rfl | rfl | rfl | rfl <;> simp [Legible]

/-- Why operands must be legible: the jumps to 0x1203 and to 0x0123 are listed alike, so the first does
not assemble back; and the addition of the number 0xAC is listed as `ADD AC`, which is another
instruction. -/
theorem C50_ambiguous :
    deductOperationOf (fun k => ([0x74, 0x12, 0x03] : List Int).getD k 0) 0 3 =
      some (some [⟨"JMP 123".toList, 0, 2⟩]) ∧
    deductOperationOf (fun k => ([0x74, 0x01, 0x23] : List Int).getD k 0) 0 3 =
      some (some [⟨"JMP 123".toList, 0, 2⟩]) ∧
    translation "JMP 123".toList = some (some (["74", "01", "23"].map String.toList)) ∧
    deductOperationOf (fun k => ([0x65, 0xAC] : List Int).getD k 0) 0 2 =
      some (some [⟨"ADD AC".toList, 0, 1⟩]) ∧
    translation "ADD AC".toList = some (some (["45"].map String.toList)) := by
  decide +kernel

/-! ## C41 -/

/-- Whatever the user did in the drawer, and wherever the machine stopped: if saving is enabled, the
save writes one byte for each slot at consecutive addresses from the offset on, inside the memory,
leaves every other cell and every register alone, and the next cycle is a fetch. -/
theorem C41_save (actions : List Action) (e : Editor) (he : Editor.start.acts actions = some e)
    (hc : e.canSave = true) (ph : Phase) (h : H) (p : P) (r : Reach ph h) (on : ph.on = true)
    (ui : ph.ui = true) (s : Shows h p) :
    ∃ (bs : List (BitVec 8)) (vs : List CInt) (h' : H) (m : BitVec 16 → BitVec 8),
      List.Forall₂ SlotIs e.slots bs ∧ 0 ≤ e.offset ∧ e.offset.toNat + bs.length ≤ 65536 ∧
      execAll e.saveCalls h = some (vs, h') ∧ Ready h' { p with mem := m } ∧
      Written p.mem e.offset.toNat bs m := by
  have hf := Editor.fine_start.acts he
  obtain ⟨bs, hb⟩ : ∃ bs, List.Forall₂ SlotIs e.slots bs := by
    rcases hf.origin with h0 | ⟨text, ht⟩
    · rw [h0]; exact ⟨[], .nil⟩
    · exact translation_bytes ht
  have hlen := hb.length_eq
  have hfit := hf.fits hc
  obtain ⟨h1, e1, r1⟩ := reset_ready r on ui s
  obtain ⟨vs, h', m, e2, r2, w⟩ := saveFrom_ready hb hf.lo (i := 0) (by simpa using hfit) r1
  have hlo := hf.lo
  refine ⟨bs, 0 :: vs, h', m, hb, hf.lo, by omega, ?_, r2, w⟩
  unfold Editor.saveCalls
  rw [if_pos hc]
  simp only [execAll, e1, Option.bind_some, e2, Option.map_some]

theorem saveFrom_range {slots : List Str} {bs : List (BitVec 8)} (hb : List.Forall₂ SlotIs slots bs)
    {o : Int} (ho : 0 ≤ o) {i : Nat} (hi : o + i + slots.length ≤ 65536) :
    ∀ c ∈ saveFrom o i slots, ∃ a v, c = .setMemoryValue a v ∧ IsAddr a ∧ IsByte v ∧
      o + i ≤ a.toInt ∧ a.toInt < o + i + slots.length := by
  induction hb generalizing i with
  | nil => intro c hc; simp [saveFrom] at hc
  | @cons s b slots bs h1 h2 ih =>
    rw [List.length_cons] at hi ⊢
    intro c hc
    rw [saveFrom] at hc
    rcases List.mem_cons.1 hc with rfl | hc
    · have e : (BitVec.ofInt 32 (o + i)).toInt = o + i := by
        rw [BitVec.toInt_ofInt, Int.bmod_eq_of_le] <;> omega
      have e2 : (slotValue s).toInt = (b.toNat : Int) := by
        rw [show slotValue s = b.setWidth 32 from h1]
        rw [BitVec.toInt_eq_toNat_of_lt] <;> simp <;> omega
      refine ⟨_, _, rfl, ?_, ?_, ?_, ?_⟩
      · unfold IsAddr; omega
      · unfold IsByte; omega
      · omega
      · omega
    · obtain ⟨a, v, e, h3, h4, h5, h6⟩ := ih (i := i + 1) (by omega) c hc
      exact ⟨a, v, e, h3, h4, by omega, by omega⟩

/-- No call of a save is outside the ranges that the core accepts. -/
theorem C41_range (actions : List Action) (e : Editor) (he : Editor.start.acts actions = some e) :
    ∀ c ∈ e.saveCalls, c = .resetControl ∨
      ∃ a v, c = .setMemoryValue a v ∧ IsAddr a ∧ IsByte v ∧ e.offset ≤ a.toInt ∧
        a.toInt < e.offset + e.slots.length := by
  have hf := Editor.fine_start.acts he
  obtain ⟨bs, hb⟩ : ∃ bs, List.Forall₂ SlotIs e.slots bs := by
    rcases hf.origin with h0 | ⟨text, ht⟩
    · rw [h0]; exact ⟨[], .nil⟩
    · exact translation_bytes ht
  intro c hc
  unfold Editor.saveCalls at hc
  split at hc
  · rename_i h
    rcases List.mem_cons.1 hc with h | h
    · exact .inl h
    · have hfit := hf.fits (by assumption)
      obtain ⟨a, v, e1, h1, h2, h3, h4⟩ := saveFrom_range hb hf.lo (i := 0) (by simpa using hfit) c h
      exact .inr ⟨a, v, e1, h1, h2, by simpa using h3, by simpa using h4⟩
  · simp at hc

theorem Editor.acts_append (e : Editor) (as bs : List Action) :
    e.acts (as ++ bs) = (e.acts as).bind fun e => e.acts bs := by
  induction as generalizing e with
  | nil => rfl
  | cons a as ih =>
    simp only [List.cons_append, Editor.acts, Option.bind_assoc]
    congr 1
    funext e
    exact ih e

/-- The code in the editor is a program of the language whenever saving it is enabled, and what is
saved is its machine code. -/
theorem C41_program (actions : List Action) (text : Str) (e : Editor)
    (he : Editor.start.acts (actions ++ [.code text]) = some e) (hc : e.canSave = true)
    (hp : Plain text) (ph : Phase) (h : H) (p : P) (r : Reach ph h) (on : ph.on = true)
    (ui : ph.ui = true) (s : Shows h p) :
    ∃ prog, Source text prog ∧ Valid prog ∧ prog ≠ [] ∧ (LabelsAreAddresses prog →
      ∃ (bss : List (List (BitVec 8))) (vs : List CInt) (h' : H) (m : BitVec 16 → BitVec 8),
        Code prog bss ∧ execAll e.saveCalls h = some (vs, h') ∧ Ready h' { p with mem := m } ∧
        Written p.mem e.offset.toNat bss.flatten m ∧
        CodeAt { p with mem := m } e.offset.toNat bss.flatten) := by
  have ht : translation text = some (some e.slots) := by
    rw [Editor.acts_append] at he
    simp only [Option.bind_eq_some_iff, Editor.acts, Option.some.injEq] at he
    obtain ⟨e0, _, e1, h1, rfl⟩ := he
    simp only [Editor.act, Option.map_eq_some_iff] at h1
    obtain ⟨t, h2, rfl⟩ := h1
    cases t with
    | none => simp [Editor.newTranslation] at hc
    | some lines => rw [h2]; rfl
  obtain ⟨prog, hs, hv, hne⟩ := (translation_iff hp).1 ⟨_, ht⟩
  refine ⟨prog, hs, hv, hne, fun ha => ?_⟩
  have hf := Editor.fine_start.acts he
  have hfit := hf.fits hc
  have hlo := hf.lo
  have hsz := translation_size hs hv ht
  obtain ⟨slots, bss, h1, h2, h3⟩ := translation_code hs hne hv ha (by omega)
  rw [ht] at h1
  cases h1
  have hb : List.Forall₂ SlotIs e.slots bss.flatten := h3.imp fun _ _ h => h.slot
  obtain ⟨bs, vs, h', m, hb', _, hl, e1, r1, w⟩ := C41_save _ e he hc ph h p r on ui s
  have hsame : bs = bss.flatten := by
    have : ∀ (xs : List Str) (ys zs : List (BitVec 8)), List.Forall₂ SlotIs xs ys →
        List.Forall₂ SlotIs xs zs → ys = zs := by
      intro xs ys zs h1
      induction h1 generalizing zs with
      | nil => intro h; cases h; rfl
      | @cons x y xs ys h1 _ ih =>
        intro h
        cases h with
        | @cons _ z _ zs h2 h3 =>
          have : y.setWidth 32 = z.setWidth 32 := by rw [← h1, ← h2]
          have : y = z := by
            apply BitVec.eq_of_toNat_eq
            have := congrArg BitVec.toNat this
            simp at this
            omega
          rw [this, ih zs h3]
    exact this _ _ _ hb' hb
  subst hsame
  exact ⟨bss, vs, h', m, h2, e1, r1, w, hl, w.here⟩

/-- Non-vacuity: the user types a wrong program, then the sample, and saving is enabled. -/
example : ∃ e, Editor.start.acts [.code "FOO".toList, .code sampleText] = some e ∧
    e.canSave = true ∧ e.slots.length = 12 ∧ Plain sampleText := by
  refine ⟨⟨true, ["64", "00", "4B", "67", "05", "72", "00", "0B", "74", "00", "02", "FF"].map
    String.toList, 0, 0, true⟩, by decide +kernel, rfl, rfl, ?_⟩
  obtain ⟨lines, cores, h1, h2, h3, _⟩ := sample_source
  exact ⟨lines, cores, h1, h2, h3⟩

/-- The listing of a program that was just saved. -/
theorem C40_saved (actions : List Action) (text : Str) (e : Editor)
    (he : Editor.start.acts (actions ++ [.code text]) = some e) (hc : e.canSave = true)
    (hp : Plain text) (ph : Phase) (h : H) (p : P) (r : Reach ph h) (on : ph.on = true)
    (ui : ph.ui = true) (s : Shows h p) (ha : ∀ prog, Source text prog → LabelsAreAddresses prog) :
    ∃ prog bss vs h', Source text prog ∧ Code prog bss ∧ execAll e.saveCalls h = some (vs, h') ∧
      ∀ get, Memory h' get → ∃ rows,
        deductOperationOf get e.offset (e.offset + bss.flatten.length) = some (some rows) ∧
        RowsOf e.offset.toNat prog bss rows := by
  obtain ⟨prog, hs, _, hne, hx⟩ := C41_program actions text e he hc hp ph h p r on ui s
  obtain ⟨bss, vs, h', m, hcode, e1, r1, _, hat⟩ := hx (ha prog hs)
  refine ⟨prog, bss, vs, h', hs, hcode, e1, fun get hm => ?_⟩
  obtain ⟨rows, e2, hr⟩ := C40_rows h' _ r1 get hm prog hne bss hcode _ hat
  have hlo := (Editor.fine_start.acts he).lo
  have e3 : ((e.offset.toNat : Nat) : Int) = e.offset := Int.toNat_of_nonneg hlo
  refine ⟨rows, ?_, hr⟩
  rw [Int.natCast_add, e3] at e2
  exact e2

/-! ## C47 -/

/-- In a tiling exactly one row contains a given address. -/
theorem Tiles.find {a b : Nat} {rows : List Found} (h : Tiles a b rows) {pc : Nat} (h1 : a ≤ pc)
    (h2 : pc < b) : ∃ i x, rows.findIdx? (fun row => row.first ≤ pc ∧ row.last ≥ pc) = some i ∧
      rows[i]? = some x ∧ x.first ≤ pc ∧ pc ≤ x.last ∧
      ∀ (j : Nat) (y : Found), rows[j]? = some y → y.first ≤ pc → pc ≤ y.last → j = i := by
  have later : ∀ {a b : Nat} {rows : List Found}, Tiles a b rows → ∀ (j : Nat) (y : Found),
      rows[j]? = some y → a ≤ y.first := by
    intro a b rows h
    induction h with
    | nil => intro j y hy; simp at hy
    | @cons a b x xs f l _ _ ih =>
      intro j y hy
      cases j with
      | zero => simp at hy; subst hy; omega
      | succ j => have := ih j y (by simpa using hy); omega
  induction h with
  | nil => omega
  | @cons a b x xs f l _ rest ih =>
    by_cases hx : pc ≤ x.last
    · refine ⟨0, x, ?_, rfl, by omega, hx, ?_⟩
      · rw [List.findIdx?_cons, if_pos]
        simp
        omega
      · intro j y hy h3 h4
        cases j with
        | zero => rfl
        | succ j =>
          have := later rest j y (by simpa using hy)
          omega
    · obtain ⟨i, z, e, e2, h3, h4, h5⟩ := ih (by omega) h2
      refine ⟨i + 1, z, ?_, by simpa using e2, h3, h4, ?_⟩
      · rw [List.findIdx?_cons, if_neg, e]
        · rfl
        · simp
          omega
      · intro j y hy h6 h7
        cases j with
        | zero => simp at hy; subst hy; omega
        | succ j => rw [h5 j y (by simpa using hy) h6 h7]

/-- Whatever is in memory (also what is read beyond its end), the debugger shows rows that follow one
another without gaps from `PC - padding`, or 0, on, reach at least `PC + padding`, or the end of
memory, and exactly one of them, the highlighted one, contains PC. -/
theorem C47_window (get : Nat → Int) (pc padding : Nat) (hpc : pc ≤ 65535) :
    ∃ rows b i x, debuggerRows get pc padding = some (some (rows, some i)) ∧
      Tiles (pc - padding) b rows ∧ min (pc + padding) 65536 ≤ b ∧
      rows[i]? = some x ∧ x.first ≤ pc ∧ pc ≤ x.last ∧
      ∀ (j : Nat) (y : Found), rows[j]? = some y → y.first ≤ pc → pc ≤ y.last → j = i := by
  have e0 : (if ((pc : Int) - padding) < 0 then (0 : Int) else (pc : Int) - padding).toNat = pc - padding := by
    split <;> omega
  obtain ⟨rows, b, e, _, ht, hb, _⟩ := deductLoop_tiles get
    (if ((pc : Int) + padding) > 65536 then 65536 else (pc : Int) + padding)
    (((if ((pc : Int) + padding) > 65536 then 65536 else (pc : Int) + padding) -
      (if ((pc : Int) - padding) < 0 then (0 : Int) else (pc : Int) - padding)).toNat + 1)
    (pc - padding) (by split <;> split <;> omega)
  have hlt : pc < b := by
    by_cases h0 : padding = 0
    · have : pc - padding < b := by
        cases ht with
        | nil => contradiction
        | cons f l _ rest =>
          have : ∀ {a b : Nat} {rows : List Found}, Tiles a b rows → a ≤ b := by
            intro a b rows h
            induction h with
            | nil => exact Nat.le_refl _
            | cons => omega
          have := this rest
          omega
      omega
    · split at hb <;> omega
  obtain ⟨i, x, h1, h2, h3, h4, h5⟩ := ht.find (pc := pc) (by omega) hlt
  refine ⟨rows, b, i, x, ?_, ht, by split at hb <;> omega, h2, h3, h4, h5⟩
  unfold debuggerRows deductOperationOf
  rw [if_neg (by omega)]
  simp only
  rw [e0, e]
  simp only [Option.map_some, h1]

/-- The highlighted row need not begin at PC: the window is disassembled from its first cell, which may
be inside an instruction. Here the cells are `74 74 00 00 FF` and PC is 1, at the jump to 0; the row
shown is `JMP 740`, from 0 to 2. -/
theorem C47_misaligned : debuggerRows (fun k => ([0x74, 0x74, 0, 0, 0xFF] : List Int).getD k 0) 1 1 =
    some (some ([⟨"JMP 740".toList, 0, 2⟩], some 0)) := by decide +kernel

end Mpp.Front
