import Verif.Front.SourceSim
import Verif.Props.Docs
/-!
# C75: a program does what its text says

`Front/SourceRun` explains the statements of a program without machine code. Here a text is assembled, saved and run
on any machine that a host can have brought about.
-/
namespace Mpp.Front

theorem RunInstruction.det {u : Bool} {n n' : Nat} {h h1 h2 : H} (r1 : RunInstruction u n h h1)
    (r2 : RunInstruction u n' h h2) : n = n' ∧ h1 = h2 := by
  induction r1 generalizing n' h2 with
  | last run done =>
    cases r2 with
    | last run' done' => rw [run] at run'; cases run'; exact ⟨rfl, rfl⟩
    | more run' state ne _ =>
      rw [run] at run'; cases run'
      exact absurd (some_inj (state.symm.trans done)) ne
  | more run state ne rest ih =>
    cases r2 with
    | last run' done =>
      rw [run] at run'; cases run'
      exact absurd (some_inj (state.symm.trans done)) ne
    | more run' _ _ rest' =>
      rw [run] at run'; cases run'
      obtain ⟨e1, e2⟩ := ih rest'
      exact ⟨by rw [e1], e2⟩

/-- The beginning of a program: at the first statement, with the registers of `p` and the memory `m`. -/
def Src.start (p : P) (m : BitVec 16 → BitVec 8) : Src :=
  ⟨0, p.ac, p.b, p.c, p.d, p.e, p.sp, p.fc, p.fz, m⟩

/-- The machine `h` does what the statements of `prog` say, beginning in the state `s`; `errs` are the errors
reported before, and there are no others. -/
structure Obeys (u : Bool) (prog : List Stmt) (errs : List Err) (h : H) (s : Src) : Prop where
  /-- After any number of statements, as many instructions lead to the same registers and memory; PC is at the
  first byte of the next statement. -/
  instructions : ∀ k s', s.run prog k = some s' →
    ∃ h', RunInstructions u k h h' ∧ Ready h' (s'.machine prog errs)
  /-- If the statements lead to a FIN, run-program ends with those registers and that memory, with PC at the
  statement after the FIN. -/
  ends : ∀ k s' st, s.run prog k = some s' → prog[s'.pos]? = some st → st.instr = .fin →
    ∃ n h', RunProgram u n h h' ∧ Ready h' ({ s' with pos := s'.pos + 1 }.machine prog errs)
  /-- If the statements go on for ever, run-program does not end. -/
  never : (∀ k, s.run prog k ≠ none) → ∀ n h', ¬ RunProgram u n h h'

theorem Src.run_loaded {prog : List Stmt} {bss : List (List (BitVec 8))} (hc : Code prog bss)
    (hsz : sizeOf prog < 65536) {k : Nat} {s s' : Src} (errs : List Err) (hm : Loaded bss s.mem)
    (h : s.run prog k = some s') : Loaded bss s'.mem ∧ (s.machine prog errs).run k = some (s'.machine prog errs) := by
  induction k generalizing s with
  | zero => cases h; exact ⟨hm, rfl⟩
  | succ k ih =>
    obtain ⟨t, h1, h2⟩ := Option.bind_eq_some_iff.1 h
    obtain ⟨a, b⟩ := ih (Src.step_loaded (flatten_size hc) hsz hm h1) h2
    refine ⟨a, ?_⟩
    rw [P.run, Src.sim hc hsz errs hm h1]
    exact b

theorem P.run_instructions {u : Bool} {k : Nat} {h : H} {p q : P} (r : Ready h p) (e : p.run k = some q) :
    ∃ h', RunInstructions u k h h' ∧ Ready h' q := by
  induction k generalizing h p with
  | zero => cases e; exact ⟨h, .none, r⟩
  | succ k ih =>
    obtain ⟨p1, e1, e2⟩ := Option.bind_eq_some_iff.1 e
    obtain ⟨_, n, h1, i, r1⟩ := r.step (u := u) e1
    obtain ⟨h', a, b⟩ := ih r1 e2
    exact ⟨h', .step i a, b⟩

theorem obeys {prog : List Stmt} {bss : List (List (BitVec 8))} (hc : Code prog bss) (hsz : sizeOf prog < 65536)
    {s : Src} (hm : Loaded bss s.mem) {errs : List Err} {h : H} (r : Ready h (s.machine prog errs)) (u : Bool) :
    Obeys u prog errs h s := by
  refine ⟨?_, ?_, ?_⟩
  · intro k s' hk
    exact P.run_instructions r (Src.run_loaded hc hsz errs hm hk).2
  · intro k s' st hk hst hi
    obtain ⟨hm', hr⟩ := Src.run_loaded hc hsz errs hm hk
    have f := fetches hc (p := s'.machine prog errs) hm' hst
    have hd : decode ((s'.machine prog errs).mem (s'.machine prog errs).pc) = some .fin := by
      rw [← hi]; exact f.op
    obtain ⟨n, h', a, b⟩ := C18_program u h _ _ r k hr hd
    refine ⟨n, h', a, ?_⟩
    have hp := place_succ hst
    rw [hi] at hp
    have hp : place prog (s'.pos + 1) = place prog s'.pos + 1 := hp
    have hle := place_le prog (s'.pos + 1)
    rw [← next_past, next_ofNat (n := place prog s'.pos) rfl (by omega), ← hp] at b
    exact b
  · intro hall n h' run
    obtain ⟨k, h1, p1, nf, r1, hf, -⟩ := C18_only_at_fin u h h' n _ r run
    clear run
    induction nf generalizing s with
    | none =>
      cases hs : s.step prog with
      | none => exact hall 1 (by simp [Src.run, hs])
      | some s1 =>
        have e := Src.sim hc hsz errs hm hs
        have := (r.step (u := u) e).1
        rw [r.unique r1] at this
        exact this hf
    | step b ne first rest ih =>
      cases hs : s.step prog with
      | none => exact hall 1 (by simp [Src.run, hs])
      | some s1 =>
        obtain ⟨_, n2, h2, i2, r2⟩ := r.step (u := u) (Src.sim hc hsz errs hm hs)
        obtain ⟨_, rfl⟩ := RunInstruction.det first i2
        refine ih (Src.step_loaded (flatten_size hc) hsz hm hs) r2 (fun k hk => hall (k + 1) ?_) r1
        simp [Src.run, hs, hk]

theorem Written.loaded {m m' : BitVec 16 → BitVec 8} {bss : List (List (BitVec 8))}
    (w : Written m 0 bss.flatten m') : Loaded bss m' := fun k b h => by
  have := w.here k b h
  rwa [Nat.zero_add] at this

/-- **C75.** A text of the language is typed, saved, and PC is set to its beginning; the machine may have stopped
anywhere. Then instructions and run-program do what the statements say. -/
theorem C75_saved (text : Str) (prog : List Stmt) (hs : Source text prog) (hne : prog ≠ []) (hv : Valid prog)
    (ha : LabelsAreAddresses prog) (hsz : sizeOf prog < 65536) (actions : List Action)
    (hcode : ∀ a ∈ actions, ∃ t, a = .code t) (ph : Phase) (h : H) (p : P) (r : Reach ph h) (on : ph.on = true)
    (ui : ph.ui = true) (s : Shows h p) :
    ∃ e vs h1 bss m, Editor.start.acts (actions ++ [.code text]) = some e ∧ e.canSave = true ∧
      execAll (e.saveCalls ++ e.pcCalls) h = some (vs, h1) ∧ Code prog bss ∧ Written p.mem 0 bss.flatten m ∧
      ∀ u, Obeys u prog p.errs h1 (.start p m) := by
  obtain ⟨_, bss, _, hc, _⟩ := C37_code text prog hs hne hv ha (by omega)
  have hl := flatten_size hc
  obtain ⟨e, he, hcan, vs, h1, m, e1, r1, w⟩ := saved hs hne hv ha hc (by omega) hcode r on ui s
  exact ⟨e, vs, h1, bss, m, he, hcan, e1, hc, w, obeys hc hsz w.loaded r1⟩

/-- **C75.** The same for a text in the address of the page, to which a FIN is added (C57). -/
theorem C75_opened (text : Str) (prog : List Stmt) (hs : Source text prog)
    (ht : endsFin text = false ∧ text ≠ []) (hv : Valid prog) (ha : LabelsAreAddresses prog)
    (hne : prog ≠ []) (hsz : sizeOf prog < 65535) (ph : Phase) (h : H) (p : P) (r : Reach ph h) (on : ph.on = true)
    (ui : ph.ui = true) (s : Shows h p) (st : Store) :
    ∃ e vs h1 bss m, Editor.start.acts [.code (load st (some text)).code] = some e ∧ e.canSave = true ∧
      execAll (e.saveCalls ++ e.pcCalls) h = some (vs, h1) ∧ Code prog bss ∧
      Written p.mem 0 (bss.flatten ++ [0xFF]) m ∧
      ∀ u, Obeys u (prog ++ [⟨none, .fin, .none⟩]) p.errs h1 (.start p m) := by
  obtain ⟨_, bss, _, hc, _⟩ := C37_code text prog hs hne hv ha (by omega)
  have hl := flatten_size hc
  obtain ⟨e, vs, h1, m, he, hcan, e1, r1, w⟩ := opened hs ht hv ha hc (by omega) r on ui s st
  refine ⟨e, vs, h1, bss, m, he, hcan, e1, hc, w, obeys (code_fin hc) ?_ (Written.loaded (m := p.mem) ?_) r1⟩
  · have : sizeOf (prog ++ [finStmt]) = sizeOf prog + 1 := by simp [sizeOf, finStmt, Instr.size]
    omega
  · show Written p.mem 0 _ m
    simpa using w

/-- Nothing keeps the statement `st` from being carried out: it writes outside the program, the stack stays in memory,
and a number or return address to jump to is that of a statement. -/
def Src.Clear (prog : List Stmt) (s : Src) (st : Stmt) : Prop :=
  match st.instr with
  | .sta => ∀ a, st.arg.addr prog = some a → sizeOf prog ≤ a.toNat
  | .stax => sizeOf prog ≤ (s.d ++ s.e).toNat
  | .push => sizeOf prog + 1 ≤ s.sp.toNat
  | .pop => s.sp.toNat + 1 < 65536
  | .jmp => ∀ n, st.arg = .num n → ∃ i < prog.length, place prog i = n
  | .beq => s.fz = true → ∀ n, st.arg = .num n → ∃ i < prog.length, place prog i = n
  | .bc => s.fc = true → ∀ n, st.arg = .num n → ∃ i < prog.length, place prog i = n
  | .call => sizeOf prog + 2 ≤ s.sp.toNat ∧ ∀ n, st.arg = .num n → ∃ i < prog.length, place prog i = n
  | .ret => s.sp.toNat + 2 < 65536 ∧
      ∃ i < prog.length, place prog i = 256 * (s.mem (s.sp + 1)).toNat + (s.mem s.sp).toNat
  | .iret => s.sp.toNat + 3 < 65536 ∧
      ∃ i < prog.length, place prog i = 256 * (s.mem (s.sp + 1)).toNat + (s.mem s.sp).toNat
  | .fin => False
  | _ => True

theorem startsAt_some {prog : List Stmt} {a : Nat} (h : ∃ i < prog.length, place prog i = a) :
    (startsAt prog a).isSome = true := by
  obtain ⟨i, hi, e⟩ := h
  unfold startsAt
  rw [List.find?_isSome]
  exact ⟨i, List.mem_range.2 hi, by simpa using e⟩

theorem Src.pop_some {s : Src} (h : s.sp.toNat + 1 < 65536) :
    s.pop = some (s.mem s.sp, { s with sp := s.sp + 1 }) := by
  unfold Src.pop
  rw [if_neg]
  intro e
  rw [e] at h
  revert h
  decide

theorem Src.push_some {prog : List Stmt} {s : Src} (x : BitVec 8) (h : sizeOf prog + 1 ≤ s.sp.toNat) :
    s.push prog x = some { s with sp := s.sp - 1, mem := fun i => if i = s.sp - 1 then x else s.mem i } := by
  unfold Src.push Src.write
  have e : (s.sp - 1).toNat = s.sp.toNat - 1 := by
    have h1 : (1 : BitVec 16).toNat = 1 := rfl
    rw [BitVec.toNat_sub_of_le (by rw [BitVec.le_def]; omega), h1]
  rw [if_neg, if_neg]
  · rw [e]; omega
  · intro e'
    rw [e'] at h
    simp at h

theorem Src.back_some {prog : List Stmt} {s : Src} (h : s.sp.toNat + 2 < 65536)
    (hi : ∃ i < prog.length, place prog i = 256 * (s.mem (s.sp + 1)).toNat + (s.mem s.sp).toNat) :
    ∃ i, s.back prog = some { s with sp := s.sp + 1 + 1, pos := i } := by
  have e : (s.sp + 1).toNat = s.sp.toNat + 1 := by
    have h1 : (1 : BitVec 16).toNat = 1 := rfl
    rw [BitVec.toNat_add, h1]
    omega
  obtain ⟨i, hi⟩ := Option.isSome_iff_exists.1 (startsAt_some hi)
  refine ⟨i, ?_⟩
  unfold Src.back
  rw [Src.pop_some (by omega), Option.bind_some, Src.pop_some (by simp only; omega), Option.bind_some]
  simp only [hi, Option.map_some]

theorem labelled_some {prog : List Stmt} {l : Str} (h : ∃ st ∈ prog, st.label = some l) :
    ∃ i, labelled prog l = some i := by
  unfold labelled
  rw [← Option.isSome_iff_exists, List.findIdx?_isSome, List.any_eq_true]
  obtain ⟨st, h1, h2⟩ := h
  exact ⟨st, h1, by simpa using h2⟩

/-- **C75.** The description gives up nowhere else: every statement of an accepted program that is not kept from it
is carried out. -/
theorem C75_goes_on (text : Str) (prog : List Stmt) (hs : Source text prog) (hv : Valid prog)
    (ha : LabelsAreAddresses prog) (s : Src) (st : Stmt) (hst : prog[s.pos]? = some st) (hc : s.Clear prog st) :
    ∃ s', s.step prog = some s' := by
  have hmem : st ∈ prog := List.mem_of_getElem? hst
  have harg : ∃ w, ArgText st.instr w st.arg := by
    obtain ⟨_, _, _, _, _, hr⟩ := hs
    obtain ⟨_, _, w, _, _, h, _⟩ := Forall₂.of_right hr hmem
    exact ⟨w, h⟩
  obtain ⟨w, harg⟩ := harg
  have hbyte : kindOf st.instr = .byte → ∃ n, st.arg = .num n := by
    intro hk
    cases hg : st.arg with
    | none => unfold ArgText at harg; rw [hk, hg] at harg; exact harg.elim
    | num n => exact ⟨n, rfl⟩
    | label l => have := ha st hmem l hg; rw [hk] at this; cases this
  have haddr : kindOf st.instr = .addr → (∃ a, st.arg.addr prog = some a) ∧
      ((∀ n, st.arg = .num n → ∃ i < prog.length, place prog i = n) → ∃ i, st.arg.dest prog = some i) := by
    intro hk
    cases hg : st.arg with
    | none => unfold ArgText at harg; rw [hk, hg] at harg; exact harg.elim
    | num n => exact ⟨⟨_, rfl⟩, fun h => Option.isSome_iff_exists.1 (startsAt_some (h n rfl))⟩
    | label l =>
      have := hv st hmem
      rw [hg] at this
      obtain ⟨i, hi⟩ := labelled_some this
      exact ⟨⟨_, by rw [Arg.addr, hi]; rfl⟩, fun _ => ⟨i, hi⟩⟩
  have hvalue : ∀ src : Operand, (src = .imm → kindOf st.instr = .byte) → ∃ x, s.value st.arg src = some x := by
    intro src hsrc
    cases src with
    | reg g => exact ⟨_, rfl⟩
    | ac => exact ⟨_, rfl⟩
    | imm =>
      obtain ⟨n, hn⟩ := hbyte (hsrc rfl)
      exact ⟨_, by rw [hn]; rfl⟩
  unfold Src.step
  rw [hst, Option.bind_some]
  unfold Src.Clear at hc
  cases hi : st.instr <;> rw [hi] at hc hbyte haddr hvalue <;> simp only at hc ⊢
  case mov src dst =>
    obtain ⟨x, hx⟩ := hvalue src (by rintro rfl; rfl)
    exact ⟨_, by rw [hx]; rfl⟩
  case alu op src =>
    obtain ⟨x, hx⟩ := hvalue src (by rintro rfl; rfl)
    exact ⟨_, by rw [hx]; rfl⟩
  case lda => obtain ⟨⟨a, h⟩, _⟩ := haddr rfl; exact ⟨_, by rw [h]; rfl⟩
  case inisp => obtain ⟨⟨a, h⟩, _⟩ := haddr rfl; exact ⟨_, by rw [h]; rfl⟩
  case sta =>
    obtain ⟨⟨a, h⟩, _⟩ := haddr rfl
    have := hc a h
    exact ⟨_, by rw [h, Option.bind_some, Src.write, if_neg (by omega)]⟩
  case stax => exact ⟨_, by rw [Src.write, if_neg (by omega)]⟩
  case jmp => obtain ⟨_, h⟩ := haddr rfl; obtain ⟨i, h⟩ := h hc; exact ⟨_, by rw [h]; rfl⟩
  case beq =>
    obtain ⟨_, h⟩ := haddr rfl
    split
    · rename_i hz; obtain ⟨i, h⟩ := h (hc hz); exact ⟨_, by rw [h]; rfl⟩
    · exact ⟨_, rfl⟩
  case bc =>
    obtain ⟨_, h⟩ := haddr rfl
    split
    · rename_i hz; obtain ⟨i, h⟩ := h (hc hz); exact ⟨_, by rw [h]; rfl⟩
    · exact ⟨_, rfl⟩
  case push => exact ⟨_, Src.push_some (s := { s with pos := s.pos + 1 }) _ hc⟩
  case pop => exact ⟨_, by rw [Src.pop_some (s := { s with pos := s.pos + 1 }) hc]; rfl⟩
  case call =>
    obtain ⟨_, h⟩ := haddr rfl
    obtain ⟨i, h⟩ := h hc.2
    have e : (s.sp - 1).toNat = s.sp.toNat - 1 := by
      have h1 : (1 : BitVec 16).toNat = 1 := rfl
      rw [BitVec.toNat_sub_of_le (by rw [BitVec.le_def]; omega), h1]
    rw [h, Option.bind_some, Src.push_some (s := { s with pos := s.pos + 1 }) _ (by simp only; omega),
      Option.bind_some, Src.push_some _ (by simp only; omega)]
    exact ⟨_, rfl⟩
  case ret => obtain ⟨i, h⟩ := Src.back_some hc.1 hc.2; exact ⟨_, h⟩
  case iret =>
    obtain ⟨i, h⟩ := Src.back_some (s := s) (prog := prog) (by omega) hc.2
    have e : (s.sp + 1 + 1).toNat = s.sp.toNat + 2 := by
      have h1 : (1 : BitVec 16).toNat = 1 := rfl
      rw [BitVec.toNat_add, BitVec.toNat_add, h1]
      omega
    rw [h, Option.bind_some, Src.pop_some (by simp only; omega)]
    exact ⟨_, rfl⟩
  all_goals exact ⟨_, rfl⟩

/-- The counting sample (comments, indentation, labels used before and after their definition): 20 statements lead to
the FIN, with AC = 5, whatever the registers and the memory were. -/
example (p : P) (m : BitVec 16 → BitVec 8) : ∃ s' st, (Src.start p m).run sampleProg 20 = some s' ∧
    sampleProg[s'.pos]? = some st ∧ st.instr = .fin ∧ s'.ac = 5 ∧ s'.mem = m := by
  obtain ⟨ac, b, c, d, e, pc, sp, fc, fz, mem, errs⟩ := p
  exact ⟨_, _, rfl, rfl, rfl, rfl, rfl⟩
example : Source sampleText sampleProg ∧ sampleProg ≠ [] ∧ Valid sampleProg ∧ LabelsAreAddresses sampleProg ∧
    sizeOf sampleProg < 65536 :=
  ⟨sample_source, sample_valid.2.2.1, sample_valid.1, sample_valid.2.1, by rw [sample_valid.2.2.2]; decide⟩

/-- Nothing keeps BEQ of the sample from being carried out, in any state. -/
example (s : Src) (hs : s.pos = 3) : ∃ st, sampleProg[s.pos]? = some st ∧ st.instr = .beq ∧ s.Clear sampleProg st :=
  ⟨⟨none, .beq, .label "T1".toList⟩, by rw [hs]; rfl, rfl, fun _ n h => by cases h⟩

/-- A function is called, and its result is stored outside the program:
`INISP FFF0`, `MOV 07, AC`, `CALL TF`, `STA 2000`, `FIN`, `TF INC AC`, `PUSH`, `POP`, `RET`. -/
def callingProg : List Stmt :=
  [⟨none, .inisp, .num 0xFFF0⟩, ⟨none, .mov .imm .ac, .num 7⟩, ⟨none, .call, .label "TF".toList⟩,
    ⟨none, .sta, .num 0x2000⟩, ⟨none, .fin, .none⟩, ⟨some "TF".toList, .inc .ac, .none⟩, ⟨none, .push, .none⟩,
    ⟨none, .pop, .none⟩, ⟨none, .ret, .none⟩]
example : ((Src.start ⟨1, 2, 3, 4, 5, 6, 0, true, true, fun _ => 9, []⟩ fun _ => 9).run callingProg 8).map
      (fun s => (s.pos, s.sp, [s.ac, s.mem 0x2000, s.mem 0xFFEF, s.mem 0xFFEE, s.mem 0xFFED])) =
    some (4, 0xFFF0, [8, 8, 0, 8, 8]) := by decide +kernel
example : callingProg ≠ [] ∧ Valid callingProg ∧ LabelsAreAddresses callingProg ∧ sizeOf callingProg < 65536 := by
  decide +kernel

/-- `T1 JMP T1` goes on for ever. -/
example (p : P) (m : BitVec 16 → BitVec 8) (k : Nat) :
    (Src.start p m).run [⟨some "T1".toList, .jmp, .label "T1".toList⟩] k = some (.start p m) := by
  induction k with
  | zero => rfl
  | succ k ih => exact ih

/-- The description gives up when the program would write on itself. -/
example (p : P) (m : BitVec 16 → BitVec 8) : (Src.start p m).run [⟨none, .sta, .num 3⟩, ⟨none, .fin, .none⟩] 1 = none := rfl

end Mpp.Front
