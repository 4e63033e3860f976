import Verif.Props.Source
import Verif.Loader
/-!
# C92: every program can be typed and every state can be brought about
-/
namespace Mpp.Front

/-- A statement whose operand is of the kind of its instruction and whose labels begin with T and consist of letters,
digits and underscores. -/
def Writable (st : Stmt) : Prop :=
  (∀ l, st.label = some l → IsLabel l ∧ ∀ c ∈ l, WordChar c) ∧
  match st.arg with
  | .none => kindOf st.instr = .none
  | .num _ => kindOf st.instr ≠ .none
  | .label l => kindOf st.instr ≠ .none ∧ IsLabel l ∧ ∀ c ∈ l, WordChar c

/-- How an operand is written here: numbers with a zero in front, so that no number is AC. -/
def writeArg : Arg → Str
  | .none => []
  | .num n => '0' :: toHex n
  | .label l => l

theorem writeArg_text {st : Stmt} (h : Writable st) : ArgText st.instr (writeArg st.arg) st.arg ∧
    (kindOf st.instr ≠ .none → writeArg st.arg ≠ [] ∧ ∀ c ∈ writeArg st.arg, isWord c = true) := by
  obtain ⟨_, h⟩ := h
  cases ha : st.arg with
  | none =>
    rw [ha] at h
    refine ⟨?_, fun hk => absurd h hk⟩
    simp only [ArgText, show kindOf st.instr = .none from h]
  | num n =>
    rw [ha] at h
    have hv := (toHex_value n).zeros
    refine ⟨?_, fun _ => ⟨hv.ne_nil, hv.word⟩⟩
    unfold ArgText
    cases hk : kindOf st.instr with
    | none => exact absurd hk h
    | byte =>
      refine ⟨hv, fun hs => ?_⟩
      simp only [SameName, acName, writeArg] at hs
      revert hs
      simp
    | addr => exact hv
  | label l =>
    rw [ha] at h
    refine ⟨?_, fun _ => ⟨?_, fun c hc => ?_⟩⟩
    · unfold ArgText
      cases hk : kindOf st.instr with
      | none => exact absurd hk h.1
      | byte => exact ⟨rfl, h.2⟩
      | addr => exact ⟨rfl, h.2⟩
    · have := h.2.1.1
      rintro e
      simp only [writeArg] at e
      rw [e] at this
      cases this
    · exact (isWord_iff c).2 (h.2.2 c hc)

theorem neat_lineOf {st : Stmt} (h : Writable st) : Neat (lineOf st (writeArg st.arg)) := by
  have n := neat_textOf st.instr (writeArg_text h).2
  unfold lineOf
  cases hl : st.label with
  | none => exact n
  | some l =>
    obtain ⟨⟨h1, h2⟩, h3⟩ := h.1 l hl
    have w : ∀ c ∈ l, isWord c = true := fun c hc => (isWord_iff c).2 (h3 c hc)
    refine ⟨by simp, ?_, ?_, ?_, ?_, ?_⟩
    · simp only [List.mem_append, List.mem_cons, not_or]
      exact ⟨fun h => (word_plain (w _ h)).1 rfl, by decide, n.noHash⟩
    · simp only [List.mem_append, List.mem_cons, not_or]
      exact ⟨fun h => (word_plain (w _ h)).2.1 rfl, by decide, n.noNl⟩
    · intro c hc
      simp only [List.mem_append, List.mem_cons] at hc
      rcases hc with hc | rfl | hc
      · exact (word_plain (w _ hc)).2.2.1
      · decide
      · exact n.noTerm c hc
    · intro c hc
      rw [List.head?_append_of_ne_nil _ (by rintro rfl; cases h1)] at hc
      exact (word_plain (w _ (List.mem_of_head? hc))).2.2.2
    · intro c hc
      rw [List.getLast?_append_of_ne_nil _ (by simp), List.getLast?_cons_of_ne_nil n.ne] at hc
      exact n.last c hc

/-- **C92.** Every program can be written: any statements, with operands of the kind of the instruction, are the
statements of some text. -/
theorem C92_text (prog : List Stmt) (hne : prog ≠ []) (h : ∀ st ∈ prog, Writable st) : ∃ text, Source text prog := by
  refine ⟨join '\n' (prog.map fun st => lineOf st (writeArg st.arg)), source_join (by simpa using hne) ?_ ?_⟩
  · intro l hl
    obtain ⟨st, hst, rfl⟩ := List.mem_map.1 hl
    exact neat_lineOf (h st hst)
  · clear hne
    induction prog with
    | nil => exact .nil
    | cons st sts ih =>
      refine .cons (reads_lineOf (writeArg_text (h st (by simp))).1 fun l hl => ((h st (by simp)).1 l hl).1) ?_
      exact ih fun s hs => h s (by simp [hs])

/-- The bytes of one instruction: an opcode and as many bytes as its operand has. -/
def Encoded (b : List (BitVec 8)) : Prop :=
  ∃ op rest i, b = op :: rest ∧ decode op = some i ∧ b.length = i.size

theorem statement_of {b : List (BitVec 8)} (h : Encoded b) : ∃ st, (∀ q, StmtCode q st b) ∧ Writable st ∧
    (∀ l, st.arg ≠ .label l) ∧ ∀ n, st.arg = .num n → n < 256 ^ (st.instr.size - 1) := by
  obtain ⟨op, rest, i, rfl, hd, hl⟩ := h
  rw [List.length_cons] at hl
  have hk : kindOf i = match i.size with | 2 => .byte | 3 => .addr | _ => .none := rfl
  have hpos := Instr.size_pos i
  have hle : i.size ≤ 3 := by
    cases i with
    | mov a _ => cases a <;> simp [Instr.size, Operand.size]
    | alu _ a => cases a <;> simp [Instr.size, Operand.size]
    | _ => simp [Instr.size]
  match rest, hl with
  | [], hl =>
    have e : i.size = 1 := by rw [← hl]; rfl
    rw [e] at hk
    refine ⟨⟨none, i, .none⟩, fun q => ⟨op, [], 0, rfl, hd, trivial, ?_⟩, ⟨by simp, hk⟩, by simp, by simp⟩
    simp only [hk]
  | [x], hl =>
    have e : i.size = 2 := by rw [← hl]; rfl
    rw [e] at hk
    refine ⟨⟨none, i, .num x.toNat⟩, fun q => ⟨op, [x], x.toNat, rfl, hd, rfl, ?_⟩, ⟨by simp, ?_⟩, by simp, ?_⟩
    · simp only [hk]
      exact ⟨x.isLt, by simp⟩
    · simp only [hk]; decide
    · rintro n h
      cases h
      simp only [e]
      exact x.isLt
  | [x, y], hl =>
    have e : i.size = 3 := by rw [← hl]; rfl
    rw [e] at hk
    have hx := x.isLt
    have hy := y.isLt
    refine ⟨⟨none, i, .num (256 * x.toNat + y.toNat)⟩,
      fun q => ⟨op, [x, y], 256 * x.toNat + y.toNat, rfl, hd, rfl, ?_⟩, ⟨by simp, ?_⟩, by simp, ?_⟩
    · simp only [hk]
      refine ⟨by omega, ?_⟩
      rw [show (256 * x.toNat + y.toNat) / 256 = x.toNat by omega,
        show (256 * x.toNat + y.toNat) % 256 = y.toNat by omega]
      simp
    · simp only [hk]; decide
    · rintro n h
      cases h
      simp only [e]
      omega
  | _ :: _ :: _ :: _, hl => simp only [List.length_cons] at hl; omega

theorem statements_of {bss : List (List (BitVec 8))} (h : ∀ b ∈ bss, Encoded b) : ∃ prog,
    (∀ q, List.Forall₂ (StmtCode q) prog bss) ∧ (∀ st ∈ prog, Writable st) ∧ ∀ st ∈ prog,
      (∀ l, st.arg ≠ .label l) ∧ ∀ n, st.arg = .num n → n < 256 ^ (st.instr.size - 1) := by
  induction bss with
  | nil => exact ⟨[], fun _ => .nil, by simp, by simp⟩
  | cons b bss ih =>
    obtain ⟨prog, h1, h2, h3⟩ := ih fun b hb => h b (by simp [hb])
    obtain ⟨st, s1, s2, s3⟩ := statement_of (h b (by simp))
    refine ⟨st :: prog, fun q => .cons (s1 q) (h1 q), ?_, ?_⟩
    · intro x hx
      rcases List.mem_cons.1 hx with rfl | hx
      · exact s2
      · exact h2 x hx
    · intro x hx
      rcases List.mem_cons.1 hx with rfl | hx
      · exact s3
      · exact h3 x hx

/-- **C92.** Every sequence of instructions that fits in memory can be put there with the code drawer: for some text
saving is enabled and puts exactly these bytes at the beginning of memory; the next instruction is the first of them. -/
theorem C92_bytes (bss : List (List (BitVec 8))) (hne : bss ≠ []) (hb : ∀ b ∈ bss, Encoded b)
    (hsz : bss.flatten.length ≤ 65536) : ∃ text, ∀ (before : List Action), (∀ a ∈ before, ∃ t, a = .code t) →
    ∀ (ph : Phase) (h : H) (p : P), Reach ph h → ph.on = true → ph.ui = true → Shows h p →
      ∃ e vs h1 m, Editor.start.acts (before ++ [.code text]) = some e ∧ e.canSave = true ∧
        execAll (e.saveCalls ++ e.pcCalls) h = some (vs, h1) ∧ Ready h1 { p with mem := m, pc := 0 } ∧
        Written p.mem 0 bss.flatten m := by
  obtain ⟨prog, h1, h2, h3⟩ := statements_of hb
  have hne' : prog ≠ [] := by
    rintro rfl
    cases h1 []
    exact hne rfl
  obtain ⟨text, hs⟩ := C92_text prog hne' h2
  refine ⟨text, fun before hcode ph h p r on ui s => ?_⟩
  obtain ⟨e, he, hcan, vs, h1, m, e1, r1, w⟩ := saved hs hne' (by
    intro st hst
    have := h3 st hst
    cases ha : st.arg with
    | none => trivial
    | num n => exact this.2 n ha
    | label l => exact absurd ha (this.1 l)) (by
    intro st hst l hl
    exact absurd hl ((h3 st hst).1 l)) (h1 prog) hsz hcode r on ui s
  exact ⟨e, vs, h1, m, he, hcan, e1, r1, w⟩

/-! ## States -/

/-- Statements that set all registers and flags. -/
def setterProg (q : P) : List Stmt :=
  [⟨none, .mov .imm .ac, .num ((if q.fc then 0x80 else 0) + (if q.fz then 1 else 0))⟩, ⟨none, .sfa, .none⟩,
    ⟨none, .mov .imm (.reg .b), .num q.b.toNat⟩, ⟨none, .mov .imm (.reg .c), .num q.c.toNat⟩,
    ⟨none, .mov .imm (.reg .d), .num q.d.toNat⟩, ⟨none, .mov .imm (.reg .e), .num q.e.toNat⟩,
    ⟨none, .inisp, .num q.sp.toNat⟩, ⟨none, .mov .imm .ac, .num q.ac.toNat⟩]

theorem setter_run (q p : P) (m : BitVec 16 → BitVec 8) : (Src.start p m).run (setterProg q) 8 =
    some ⟨8, q.ac, q.b, q.c, q.d, q.e, q.sp, q.fc, q.fz, m⟩ := by
  have e : (Src.start p m).run (setterProg q) 8 = some ⟨8, BitVec.ofNat 8 q.ac.toNat, BitVec.ofNat 8 q.b.toNat,
      BitVec.ofNat 8 q.c.toNat, BitVec.ofNat 8 q.d.toNat, BitVec.ofNat 8 q.e.toNat, BitVec.ofNat 16 q.sp.toNat,
      (BitVec.ofNat 8 ((if q.fc then 0x80 else 0) + (if q.fz then 1 else 0))).getLsbD 7,
      (BitVec.ofNat 8 ((if q.fc then 0x80 else 0) + (if q.fz then 1 else 0))).getLsbD 0, m⟩ := rfl
  rw [e]
  simp only [BitVec.ofNat_toNat, BitVec.setWidth_eq]
  cases q.fc <;> cases q.fz <;> rfl

theorem setter_fine (q : P) : (∀ st ∈ setterProg q, Writable st) ∧ Valid (setterProg q) ∧
    LabelsAreAddresses (setterProg q) ∧ sizeOf (setterProg q) = 16 := by
  have hb := q.b.isLt
  have hc := q.c.isLt
  have hd := q.d.isLt
  have he := q.e.isLt
  have hs := q.sp.isLt
  have ha := q.ac.isLt
  refine ⟨?_, ?_, ?_, rfl⟩
  · intro st hst
    simp only [setterProg, List.mem_cons, List.not_mem_nil, or_false] at hst
    rcases hst with rfl | rfl | rfl | rfl | rfl | rfl | rfl | rfl <;> refine ⟨by simp, ?_⟩ <;> simp only <;> decide
  · intro st hst
    simp only [setterProg, List.mem_cons, List.not_mem_nil, or_false] at hst
    rcases hst with rfl | rfl | rfl | rfl | rfl | rfl | rfl | rfl <;> simp only [Instr.size, Operand.size]
    · cases q.fc <;> cases q.fz <;> decide
    all_goals omega
  · intro st hst l hl
    simp only [setterProg, List.mem_cons, List.not_mem_nil, or_false] at hst
    rcases hst with rfl | rfl | rfl | rfl | rfl | rfl | rfl | rfl <;> cases hl

/-- **C92.** Any values of the registers and flags can be brought about from any state of the machine, with the code
drawer and the run-instruction button: a text is typed and saved, PC is set and eight instructions are run. The memory
from the cell 16 on is as before, and no error is reported. -/
theorem C92_registers (q : P) : ∃ text, ∀ (before : List Action), (∀ a ∈ before, ∃ t, a = .code t) →
    ∀ (ph : Phase) (h : H) (p : P), Reach ph h → ph.on = true → ph.ui = true → Shows h p → ∀ u,
      ∃ e vs h1 h2 m, Editor.start.acts (before ++ [.code text]) = some e ∧ e.canSave = true ∧
        execAll (e.saveCalls ++ e.pcCalls) h = some (vs, h1) ∧ RunInstructions u 8 h1 h2 ∧
        Ready h2 { q with pc := 16, mem := m, errs := p.errs } ∧ ∀ i : BitVec 16, 16 ≤ i.toNat → m i = p.mem i := by
  obtain ⟨w, v, l, sz⟩ := setter_fine q
  have hne : setterProg q ≠ [] := by simp [setterProg]
  obtain ⟨text, hs⟩ := C92_text _ hne w
  refine ⟨text, fun before hcode ph h p r on ui s u => ?_⟩
  obtain ⟨e, vs, h1, bss, m, e1, e2, e3, hc, wr, ob⟩ := C75_saved text _ hs hne v l (by rw [sz]; decide) before hcode
    ph h p r on ui s
  obtain ⟨h2, run, r2⟩ := (ob u).instructions 8 _ (setter_run q p m)
  refine ⟨e, vs, h1, h2, m, e1, e2, e3, run, r2, fun i hi => wr.elsewhere i (.inr ?_)⟩
  rw [flatten_size hc, sz]
  omega

theorem Ready.fillCalls {h : H} {p : P} (r : Ready h p) (m : BitVec 16 → BitVec 8) (n : Nat) (hn : n ≤ 65536) :
    ∃ cs vs h', (∀ c ∈ cs, ∃ a v, c = Call.setMemoryValue a v) ∧ execAll cs h = some (vs, h') ∧
      Ready h' { p with mem := fun i => if i.toNat < n then m i else p.mem i } := by
  induction n with
  | zero => exact ⟨[], [], h, by simp, rfl, by simpa using r⟩
  | succ n ih =>
    obtain ⟨cs, vs, h1, hcs, e1, r1⟩ := ih (by omega)
    obtain ⟨h2, e2, r2⟩ := r1.setMem (BitVec.ofNat 16 n) (m (BitVec.ofNat 16 n))
    refine ⟨cs ++ [.setMemoryValue ((BitVec.ofNat 16 n).setWidth 32) ((m (BitVec.ofNat 16 n)).setWidth 32)],
      vs ++ [0], h2, ?_, ?_, ?_⟩
    · intro c hc
      rcases List.mem_append.1 hc with hc | hc
      · exact hcs c hc
      · exact ⟨_, _, List.mem_singleton.1 hc⟩
    · simp only [execAll_append, e1, execAll, e2, Option.bind_some, Option.map_some]
    have e : (fun i : BitVec 16 => if i.toNat < n + 1 then m i else p.mem i) =
        fun i => if i = BitVec.ofNat 16 n then m (BitVec.ofNat 16 n) else
          if i.toNat < n then m i else p.mem i := by
      funext i
      by_cases hi : i = BitVec.ofNat 16 n
      · subst hi
        rw [if_pos rfl, if_pos (by simp only [BitVec.toNat_ofNat]; omega)]
      · rw [if_neg hi]
        have : i.toNat ≠ n := fun h => hi (BitVec.eq_of_toNat_eq (by
          rw [h, BitVec.toNat_ofNat, Nat.mod_eq_of_lt (by omega)]))
        by_cases h2 : i.toNat < n
        · rw [if_pos h2, if_pos (by omega)]
        · rw [if_neg h2, if_neg (by omega)]
    rw [e]
    exact r2

/-- **C92.** Any state at all can be brought about from any state of the machine: after the text of `C92_registers`,
a host sets the memory and PC. No state is a trap. Only the list of the errors reported is not undone. -/
theorem C92_state (q : P) : ∃ text, ∀ (before : List Action), (∀ a ∈ before, ∃ t, a = .code t) →
    ∀ (ph : Phase) (h : H) (p : P), Reach ph h → ph.on = true → ph.ui = true → Shows h p → ∀ u,
      ∃ e vs h1 h2 cs ws h3, Editor.start.acts (before ++ [.code text]) = some e ∧ e.canSave = true ∧
        execAll (e.saveCalls ++ e.pcCalls) h = some (vs, h1) ∧ RunInstructions u 8 h1 h2 ∧
        (∀ c ∈ cs, (∃ a v, c = Call.setMemoryValue a v) ∨ ∃ a, c = .setRegisterPc a) ∧
        execAll cs h2 = some (ws, h3) ∧ Ready h3 { q with errs := p.errs } := by
  obtain ⟨text, ht⟩ := C92_registers q
  refine ⟨text, fun before hcode ph h p r on ui s u => ?_⟩
  obtain ⟨e, vs, h1, h2, m, e1, e2, e3, run, r2, _⟩ := ht before hcode ph h p r on ui s u
  obtain ⟨cs, ws, h3, hcs, e4, r3⟩ := Ready.fillCalls r2 q.mem 65536 (by omega)
  obtain ⟨h4, e5, r4⟩ := r3.setPc q.pc
  refine ⟨e, vs, h1, h2, cs ++ [.setRegisterPc (q.pc.setWidth 32)], ws ++ [0], h4, e1, e2, e3, run, ?_,
    by simp only [execAll_append, e4, execAll, e5, Option.bind_some, Option.map_some], ?_⟩
  · intro c hc
    rcases List.mem_append.1 hc with hc | hc
    · exact .inl (hcs c hc)
    · exact .inr ⟨_, List.mem_singleton.1 hc⟩
  · have : (fun i : BitVec 16 => if i.toNat < 65536 then q.mem i else m i) = q.mem := by
      funext i; rw [if_pos i.isLt]
    simp only [this] at r4
    exact r4

/-- MOV of the number AC, which must not be written `AC`, and a jump to a label. -/
example : ∀ st ∈ [(⟨some "T_1".toList, .mov .imm (.reg .b), .num 0xAC⟩ : Stmt), ⟨none, .jmp, .label "T_1".toList⟩],
    Writable st := by
  intro st hst
  simp only [List.mem_cons, List.not_mem_nil, or_false] at hst
  rcases hst with rfl | rfl
  · exact ⟨fun l hl => by cases hl; decide +kernel, by simp only; decide⟩
  · exact ⟨fun l hl => (by cases hl), by simp only; decide +kernel⟩
example : join '\n' ([(⟨some "T_1".toList, .mov .imm (.reg .b), .num 0xAC⟩ : Stmt),
    ⟨none, .jmp, .label "T_1".toList⟩].map fun st => lineOf st (writeArg st.arg)) =
      "T_1 MOV 0ac, RB\nJMP T_1".toList := by decide +kernel

/-- MOV AC, RB (0x40), MOV 0xAC, RB (0x60 0xAC) and FIN. -/
example : ∀ b ∈ [[0x40], [0x60, 0xAC], [0xFF]], Encoded b := by
  intro b hb
  simp only [List.mem_cons, List.not_mem_nil, or_false] at hb
  rcases hb with rfl | rfl | rfl
  · exact ⟨0x40, [], .mov .ac (.reg .b), rfl, by decide +kernel, rfl⟩
  · exact ⟨0x60, [0xAC], .mov .imm (.reg .b), rfl, by decide +kernel, rfl⟩
  · exact ⟨0xFF, [], .fin, rfl, by decide +kernel, rfl⟩

/-- No text puts a byte that is not an opcode first: the instruction set has gaps, and 0x76 is one. -/
example : ¬ Encoded [0x76] := by
  rintro ⟨op, rest, i, h, hd, _⟩
  cases h
  have : decode (0x76 : BitVec 8) = none := by decide +kernel
  rw [this] at hd
  cases hd

/-- A machine with a callback: where a host begins. -/
example : ∃ ph h p, Reach ph h ∧ ph.on = true ∧ ph.ui = true ∧ Shows h p := by
  obtain ⟨h, ph, r, on, ui, _, s⟩ := ready_all ⟨1, 2, 3, 4, 5, 6, 7, true, false, fun _ => 9, []⟩ rfl
  exact ⟨ph, h, _, r, on, ui, s⟩

end Mpp.Front
