import Verif.Front.Elsewhere
import Verif.Props.Source
/-!
# C90: programs saved at another offset

The drawer has a field for the address at which the code is saved (`Coder/index.tsx:29-38`, `47-49`,
`CodeEditor.tsx:109-125`); the field is disabled (`CodeEditor.tsx:186`), and `parseInput` resolves the labels as if it
were 0 (`CodeEditor.tsx:66`).
-/
namespace Mpp.Front

/-- The machine `h` does what the statements of `prog` at the address `o` say, beginning in the state `s`; `errs`
are the errors reported before, and there are no others. -/
structure ObeysFrom (u : Bool) (o : Nat) (prog : List Stmt) (errs : List Err) (h : H) (s : Src) : Prop where
  /-- After any number of statements, as many instructions lead to the same registers and memory; PC is at the
  first byte of the next statement. -/
  instructions : ∀ k s', s.runFrom o prog k = some s' →
    ∃ h', RunInstructions u k h h' ∧ Ready h' (s'.machineFrom o prog errs)
  /-- If the statements lead to a FIN, run-program ends with those registers and that memory, with PC at the
  statement after the FIN. -/
  ends : ∀ k s' st, s.runFrom o prog k = some s' → prog[s'.pos]? = some st → st.instr = .fin →
    ∃ n h', RunProgram u n h h' ∧ Ready h' ({ s' with pos := s'.pos + 1 }.machineFrom o prog errs)
  /-- If the statements go on for ever, run-program does not end. -/
  never : (∀ k, s.runFrom o prog k ≠ none) → ∀ n h', ¬ RunProgram u n h h'

theorem Src.runFrom_loaded {o : Nat} {prog : List Stmt} {bss : List (List (BitVec 8))} (hc : Code prog bss)
    (hnl : NoLabels prog) (hsz : o + sizeOf prog < 65536) {k : Nat} {s s' : Src} (errs : List Err)
    (hm : LoadedFrom o bss s.mem) (h : s.runFrom o prog k = some s') :
    LoadedFrom o bss s'.mem ∧ (s.machineFrom o prog errs).run k = some (s'.machineFrom o prog errs) := by
  induction k generalizing s with
  | zero => cases h; exact ⟨hm, rfl⟩
  | succ k ih =>
    obtain ⟨t, h1, h2⟩ := Option.bind_eq_some_iff.1 h
    obtain ⟨a, b⟩ := ih (Src.stepFrom_loaded (flatten_size hc) hsz hm h1) h2
    refine ⟨a, ?_⟩
    rw [P.run, Src.simFrom hc hnl hsz errs hm h1]
    exact b

theorem obeysFrom {o : Nat} {prog : List Stmt} {bss : List (List (BitVec 8))} (hc : Code prog bss)
    (hnl : NoLabels prog) (hsz : o + sizeOf prog < 65536) {s : Src} (hm : LoadedFrom o bss s.mem) {errs : List Err}
    {h : H} (r : Ready h (s.machineFrom o prog errs)) (u : Bool) :
    ObeysFrom u o prog errs h s := by
  refine ⟨?_, ?_, ?_⟩
  · intro k s' hk
    exact P.run_instructions r (Src.runFrom_loaded hc hnl hsz errs hm hk).2
  · intro k s' st hk hst hi
    obtain ⟨hm', hr⟩ := Src.runFrom_loaded hc hnl hsz errs hm hk
    have f := fetchesFrom hc hnl (p := s'.machineFrom o prog errs) hm' hst
    have hd : decode ((s'.machineFrom o prog errs).mem (s'.machineFrom o prog errs).pc) = some .fin := by
      rw [← hi]; exact f.op
    obtain ⟨n, h', a, b⟩ := C18_program u h _ _ r k hr hd
    refine ⟨n, h', a, ?_⟩
    have hp := place_succ hst
    rw [hi] at hp
    have hp : o + place prog (s'.pos + 1) = o + place prog s'.pos + 1 := by
      rw [hp]; rfl
    have hle := place_le prog (s'.pos + 1)
    rw [← next_past, next_ofNat (n := o + place prog s'.pos) rfl (by omega), ← hp] at b
    exact b
  · intro hall n h' run
    obtain ⟨k, h1, p1, nf, r1, hf, -⟩ := C18_only_at_fin u h h' n _ r run
    clear run
    induction nf generalizing s with
    | none =>
      cases hs : s.stepFrom o prog with
      | none => exact hall 1 (by simp [Src.runFrom, hs])
      | some s1 =>
        have e := Src.simFrom hc hnl hsz errs hm hs
        have := (r.step (u := u) e).1
        rw [r.unique r1] at this
        exact this hf
    | step b ne first rest ih =>
      cases hs : s.stepFrom o prog with
      | none => exact hall 1 (by simp [Src.runFrom, hs])
      | some s1 =>
        obtain ⟨_, n2, h2, i2, r2⟩ := r.step (u := u) (Src.simFrom hc hnl hsz errs hm hs)
        obtain ⟨_, rfl⟩ := RunInstruction.det first i2
        refine ih (Src.stepFrom_loaded (flatten_size hc) hsz hm hs) r2 (fun k hk => hall (k + 1) ?_) r1
        simp [Src.runFrom, hs, hk]

/-- The program in which every label operand is the number of bytes before the statement it names. -/
def countedFromZero (prog : List Stmt) : List Stmt :=
  prog.map fun st => { st with arg := match st.arg with
    | .label l => match labelled prog l with
      | some i => .num (place prog i)
      | none => .label l
    | a => a }

theorem labelled_of_at {prog : List Stmt} {l : Str} {v : Nat} (h : LabelAt prog l v) :
    ∃ i, labelled prog l = some i ∧ place prog i = v := by
  have h' := h
  obtain ⟨before, st, after, rfl, hl, _, _⟩ := h
  obtain ⟨i, hi⟩ := labelled_some (prog := before ++ st :: after) (l := l) ⟨st, by simp, hl⟩
  exact ⟨i, hi, (labelled_place hi h').symm⟩

theorem counted_code {prog : List Stmt} {bss : List (List (BitVec 8))} (hc : Code prog bss) :
    Code (countedFromZero prog) bss := by
  unfold Code countedFromZero at *
  rw [List.forall₂_map_left_iff]
  refine hc.imp ?_
  rintro st bs ⟨op, rest, v, e, hd, hv, hk⟩
  refine ⟨op, rest, v, e, hd, ?_, hk⟩
  cases hg : st.arg with
  | none => rw [hg] at hv; exact hv
  | num n => rw [hg] at hv; exact hv
  | label l =>
    rw [hg] at hv
    obtain ⟨i, h1, h2⟩ := labelled_of_at hv
    simp only [h1]
    exact h2.symm

theorem counted_noLabels {prog : List Stmt} (hv : Valid prog) : NoLabels (countedFromZero prog) := by
  intro st hst l e
  obtain ⟨st0, h0, rfl⟩ := List.mem_map.1 hst
  have := hv st0 h0
  cases hg : st0.arg with
  | none => rw [hg] at e; cases e
  | num n => rw [hg] at e; cases e
  | label k =>
    rw [hg] at this
    obtain ⟨i, hi⟩ := labelled_some this
    simp only [hg, hi] at e
    cases e

theorem counted_size (prog : List Stmt) : sizeOf (countedFromZero prog) = sizeOf prog := by
  unfold sizeOf countedFromZero
  rw [List.map_map]
  rfl

theorem counted_same {prog : List Stmt} (h : NoLabels prog) : countedFromZero prog = prog := by
  unfold countedFromZero
  conv_rhs => rw [← List.map_id prog]
  apply List.map_congr_left
  intro st hst
  cases hg : st.arg with
  | label l => exact absurd hg (h st hst l)
  | none => simp [← hg]
  | num n => simp [← hg]

/-- With `o = 0` the description is that of C75. -/
theorem Src.stepFrom_zero (prog : List Stmt) (s : Src) : s.stepFrom 0 prog = s.step prog := by
  have h1 : ∀ a, startsFrom 0 prog a = startsAt prog a := fun a => by
    unfold startsFrom startsAt; simp only [Nat.zero_add]
  have h2 : ∀ arg : Arg, arg.destFrom 0 prog = arg.dest prog := fun arg => by
    cases arg <;> simp [Arg.destFrom, Arg.dest, h1]
  have h3 : ∀ arg : Arg, arg.addrFrom 0 prog = arg.addr prog := fun arg => by
    cases arg <;> simp [Arg.addrFrom, Arg.addr]
  have h4 : ∀ (t : Src) a x, t.writeFrom 0 prog a x = t.write prog a x := fun t a x => by
    simp [Src.writeFrom, Src.write]
  have h5 : ∀ (t : Src) x, t.pushFrom 0 prog x = t.push prog x := fun t x => by
    simp [Src.pushFrom, Src.push, h4]
  have h6 : ∀ (t : Src), t.backFrom 0 prog = t.back prog := fun t => by simp [Src.backFrom, Src.back, h1]
  unfold Src.stepFrom Src.step
  congr 1
  funext st
  cases st.instr <;> simp only [h2, h3, h4, h5, h6, Nat.zero_add]

theorem Written.loadedFrom {m m' : BitVec 16 → BitVec 8} {o : Nat} {bss : List (List (BitVec 8))}
    (w : Written m o bss.flatten m') : LoadedFrom o bss m' := fun k b h => w.here k b h

/-- Save and then set PC, whatever the offset in the drawer. -/
theorem savedFrom {text : Str} {prog : List Stmt} (hs : Source text prog) (ha : LabelsAreAddresses prog)
    {actions : List Action} {e : Editor} (he : Editor.start.acts (actions ++ [.code text]) = some e)
    (hcan : e.canSave = true) (hval : e.offsetValid = true) {ph : Phase} {h : H} {p : P} (r : Reach ph h)
    (on : ph.on = true) (ui : ph.ui = true) (s : Shows h p) :
    ∃ vs h1 bss m, execAll (e.saveCalls ++ e.pcCalls) h = some (vs, h1) ∧ Code prog bss ∧
      Written p.mem e.offset.toNat bss.flatten m ∧
      Ready h1 { p with mem := m, pc := BitVec.ofNat 16 e.offset.toNat } := by
  have hplain : Plain text := by
    obtain ⟨lines, cores, h1, h2, h3, _⟩ := hs
    exact ⟨lines, cores, h1, h2, h3⟩
  obtain ⟨prog', q1, _, _, q4⟩ := C41_program actions text e he hcan hplain ph h p r on ui s
  have hp : prog' = prog := q1.unique hs
  subst hp
  obtain ⟨bss, vs, h1, m, c1, c2, c3, c4, -⟩ := q4 ha
  have hf := Editor.fine_start.acts he
  obtain ⟨h2, e2, r2⟩ := c3.setPc (BitVec.ofNat 16 e.offset.toNat)
  refine ⟨vs ++ [0], h2, bss, m, ?_, c1, c4, r2⟩
  have hpc : e.pcCalls = [.setRegisterPc ((BitVec.ofNat 16 e.offset.toNat).setWidth 32)] := by
    unfold Editor.pcCalls
    rw [if_pos hval, hf.shown hval]
    congr 2
    apply BitVec.eq_of_toInt_eq
    have := hf.lo
    have := hf.hi
    rw [BitVec.toInt_ofInt, Int.bmod_eq_of_le (by omega) (by omega), BitVec.toInt_setWidth]
    rw [BitVec.toNat_ofNat, Nat.mod_eq_of_lt (by omega), Int.bmod_eq_of_le (by omega) (by omega)]
    omega
  rw [execAll_append, c2, hpc]
  simp only [Option.bind_some, execAll, e2, Option.map_some]

/-- **C90.** What a program saved at any offset does: what its statements say at that offset, with every label
operand replaced by its distance from the first statement. -/
theorem C90_counted (text : Str) (prog : List Stmt) (hs : Source text prog) (hv : Valid prog)
    (ha : LabelsAreAddresses prog) (actions : List Action) (e : Editor)
    (he : Editor.start.acts (actions ++ [.code text]) = some e) (hcan : e.canSave = true)
    (hval : e.offsetValid = true) (hsz : e.offset.toNat + sizeOf prog < 65536) (ph : Phase) (h : H) (p : P)
    (r : Reach ph h) (on : ph.on = true) (ui : ph.ui = true) (s : Shows h p) :
    ∃ vs h1 bss m, execAll (e.saveCalls ++ e.pcCalls) h = some (vs, h1) ∧ Code prog bss ∧
      Written p.mem e.offset.toNat bss.flatten m ∧
      ∀ u, ObeysFrom u e.offset.toNat (countedFromZero prog) p.errs h1 (.start p m) := by
  obtain ⟨vs, h1, bss, m, e1, hc, w, r1⟩ := savedFrom hs ha he hcan hval r on ui s
  exact ⟨vs, h1, bss, m, e1, hc, w,
    obeysFrom (counted_code hc) (counted_noLabels hv) (by rw [counted_size]; exact hsz) w.loadedFrom r1⟩

/-- **C90.** A program that uses no label as an operand does what its text says, at any offset. Partial: it does not
when an operand is a label (`C90_label`). -/
theorem C90_saved_partial (text : Str) (prog : List Stmt) (hs : Source text prog) (hv : Valid prog)
    (ha : LabelsAreAddresses prog) (hnl : ∀ st ∈ prog, ∀ l, st.arg ≠ .label l) (actions : List Action) (e : Editor)
    (he : Editor.start.acts (actions ++ [.code text]) = some e) (hcan : e.canSave = true)
    (hval : e.offsetValid = true) (hsz : e.offset.toNat + sizeOf prog < 65536) (ph : Phase) (h : H) (p : P)
    (r : Reach ph h) (on : ph.on = true) (ui : ph.ui = true) (s : Shows h p) :
    ∃ vs h1 bss m, execAll (e.saveCalls ++ e.pcCalls) h = some (vs, h1) ∧ Code prog bss ∧
      Written p.mem e.offset.toNat bss.flatten m ∧
      ∀ u, ObeysFrom u e.offset.toNat prog p.errs h1 (.start p m) := by
  have := C90_counted text prog hs hv ha actions e he hcan hval hsz ph h p r on ui s
  rwa [counted_same hnl] at this

/-- **C90.** A program that begins with a jump to a label does not do what its text says at any offset but 0: PC is
`o` bytes short of the statement. -/
theorem C90_label (text : Str) (prog : List Stmt) (hs : Source text prog) (hv : Valid prog)
    (ha : LabelsAreAddresses prog) (st : Stmt) (l : Str) (h0 : prog[0]? = some st) (hj : st.instr = .jmp)
    (hl : st.arg = .label l) (actions : List Action) (e : Editor)
    (he : Editor.start.acts (actions ++ [.code text]) = some e) (hcan : e.canSave = true)
    (hval : e.offsetValid = true) (hsz : e.offset.toNat + sizeOf prog < 65536) (hne : e.offset ≠ 0) (ph : Phase)
    (h : H) (p : P) (r : Reach ph h) (on : ph.on = true) (ui : ph.ui = true) (s : Shows h p) :
    ∃ vs h1 bss m i, execAll (e.saveCalls ++ e.pcCalls) h = some (vs, h1) ∧ Code prog bss ∧
      Written p.mem e.offset.toNat bss.flatten m ∧ labelled prog l = some i ∧
      ∀ u, (∃ h2, RunInstructions u 1 h1 h2 ∧ Ready h2 { p with mem := m, pc := BitVec.ofNat 16 (place prog i) }) ∧
        ¬ ObeysFrom u e.offset.toNat prog p.errs h1 (.start p m) := by
  obtain ⟨vs, h1, bss, m, e1, hc, w, r1⟩ := savedFrom hs ha he hcan hval r on ui s
  have hlo := (Editor.fine_start.acts he).lo
  have hmem := hv st (List.mem_of_getElem? h0)
  rw [hl] at hmem
  obtain ⟨i, hi⟩ := labelled_some hmem
  refine ⟨vs, h1, bss, m, i, e1, hc, w, hi, fun u => ?_⟩
  generalize ho : e.offset.toNat = o at *
  have hn0 : o ≠ 0 := by omega
  have hst : (countedFromZero prog)[0]? = some { st with arg := .num (place prog i) } := by
    unfold countedFromZero
    rw [List.getElem?_map, h0]
    simp [hl, hi]
  let q : P := { p with mem := m, pc := BitVec.ofNat 16 o }
  have f := fetchesFrom (o := o) (counted_code hc) (counted_noLabels hv) (p := q) w.loadedFrom hst
  have hz : ∀ pr, place pr 0 = 0 := fun pr => rfl
  rw [hz, Nat.add_zero] at f
  have hsize : 3 ≤ sizeOf prog := by
    have := place_succ h0
    have h3 : st.instr.size = 3 := by rw [hj]; rfl
    have := place_le prog (0 + 1)
    omega
  have hstep : q.step = some { p with mem := m, pc := BitVec.ofNat 16 (place prog i) } := by
    rw [P.step_of .jmp (by rw [← hj]; exact f.op) (by intro e; cases e) (by
      intro _ e
      have := congrArg BitVec.toNat e
      have h2 : (0xFFFF : BitVec 16).toNat = 65535 := rfl
      simp only [q, BitVec.toNat_ofNat] at this
      omega)]
    congr 1
    have ad := f.addr _ (show kindOf st.instr = .addr by rw [hj]; rfl) rfl
    have ad' : P.address { q with pc := BitVec.ofNat 16 (o + 1) } =
        (BitVec.ofNat 16 (place prog i), { q with pc := BitVec.ofNat 16 (o + 3) }) := by
      unfold P.address P.byte
      rw [next_ofNat (n := o + 1) rfl (by omega), next_ofNat (n := o + 1 + 1) rfl (by omega)]
      rw [← ad]
    unfold P.instr
    rw [next_ofNat (p := q) (n := o) rfl (by omega)]
    simp only [ad']
    rfl
  obtain ⟨_, n, h2, i2, r2⟩ := Ready.step (u := u) (p := q) r1 hstep
  refine ⟨⟨h2, .step i2 .none, r2⟩, fun ob => ?_⟩
  have hrun : (Src.start p m).runFrom o prog 1 = some { Src.start p m with pos := i } := by
    unfold Src.runFrom Src.stepFrom
    simp [Src.start, h0, hj, hl, Arg.destFrom, hi, Src.runFrom]
  obtain ⟨h3, i3, r3⟩ := ob.instructions 1 _ hrun
  cases i3 with
  | step i4 rest =>
    cases rest
    obtain ⟨_, rfl⟩ := RunInstruction.det i2 i4
    have := congrArg P.pc (r2.unique r3)
    have := congrArg BitVec.toNat this
    have hle := place_le prog i
    simp only [Src.machineFrom, BitVec.toNat_ofNat] at this
    omega

/-- The address is not one of the program. -/
def Outside (o : Nat) (prog : List Stmt) (a : Nat) : Prop := a < o ∨ o + sizeOf prog ≤ a

/-- Nothing keeps the statement `st` from being carried out: it writes outside the program, the stack stays in memory,
and a number or return address to jump to is that of a statement. -/
def Src.ClearFrom (o : Nat) (prog : List Stmt) (s : Src) (st : Stmt) : Prop :=
  match st.instr with
  | .sta => ∀ a, st.arg.addrFrom o prog = some a → Outside o prog a.toNat
  | .stax => Outside o prog (s.d ++ s.e).toNat
  | .push => 1 ≤ s.sp.toNat ∧ Outside o prog (s.sp.toNat - 1)
  | .pop => s.sp.toNat + 1 < 65536
  | .jmp => ∀ n, st.arg = .num n → ∃ i < prog.length, o + place prog i = n
  | .beq => s.fz = true → ∀ n, st.arg = .num n → ∃ i < prog.length, o + place prog i = n
  | .bc => s.fc = true → ∀ n, st.arg = .num n → ∃ i < prog.length, o + place prog i = n
  | .call => 2 ≤ s.sp.toNat ∧ Outside o prog (s.sp.toNat - 1) ∧ Outside o prog (s.sp.toNat - 2) ∧
      ∀ n, st.arg = .num n → ∃ i < prog.length, o + place prog i = n
  | .ret => s.sp.toNat + 2 < 65536 ∧
      ∃ i < prog.length, o + place prog i = 256 * (s.mem (s.sp + 1)).toNat + (s.mem s.sp).toNat
  | .iret => s.sp.toNat + 3 < 65536 ∧
      ∃ i < prog.length, o + place prog i = 256 * (s.mem (s.sp + 1)).toNat + (s.mem s.sp).toNat
  | .fin => False
  | _ => True

theorem startsFrom_some {o : Nat} {prog : List Stmt} {a : Nat} (h : ∃ i < prog.length, o + place prog i = a) :
    (startsFrom o prog a).isSome = true := by
  obtain ⟨i, hi, e⟩ := h
  unfold startsFrom
  rw [List.find?_isSome]
  exact ⟨i, List.mem_range.2 hi, by simpa using e⟩

theorem Src.pushFrom_some {o : Nat} {prog : List Stmt} {s : Src} (x : BitVec 8) (h : 1 ≤ s.sp.toNat)
    (h' : Outside o prog (s.sp.toNat - 1)) :
    s.pushFrom o prog x = some { s with sp := s.sp - 1, mem := fun i => if i = s.sp - 1 then x else s.mem i } := by
  unfold Src.pushFrom Src.writeFrom
  have e : (s.sp - 1).toNat = s.sp.toNat - 1 := by
    have h1 : (1 : BitVec 16).toNat = 1 := rfl
    rw [BitVec.toNat_sub_of_le (by rw [BitVec.le_def]; omega), h1]
  rw [if_neg, if_neg]
  · rw [e]; unfold Outside at h'; omega
  · intro e'
    rw [e'] at h
    simp at h

theorem Src.backFrom_some {o : Nat} {prog : List Stmt} {s : Src} (h : s.sp.toNat + 2 < 65536)
    (hi : ∃ i < prog.length, o + place prog i = 256 * (s.mem (s.sp + 1)).toNat + (s.mem s.sp).toNat) :
    ∃ i, s.backFrom o prog = some { s with sp := s.sp + 1 + 1, pos := i } := by
  have e : (s.sp + 1).toNat = s.sp.toNat + 1 := by
    have h1 : (1 : BitVec 16).toNat = 1 := rfl
    rw [BitVec.toNat_add, h1]
    omega
  obtain ⟨i, hi⟩ := Option.isSome_iff_exists.1 (startsFrom_some hi)
  refine ⟨i, ?_⟩
  unfold Src.backFrom
  rw [Src.pop_some (by omega), Option.bind_some, Src.pop_some (by simp only; omega), Option.bind_some]
  simp only [hi, Option.map_some]

/-- **C90.** The description gives up nowhere else: every statement of an accepted program that is not kept from it
is carried out. -/
theorem C90_goes_on (o : Nat) (text : Str) (prog : List Stmt) (hs : Source text prog) (hv : Valid prog)
    (ha : LabelsAreAddresses prog) (s : Src) (st : Stmt) (hst : prog[s.pos]? = some st) (hc : s.ClearFrom o prog st) :
    ∃ s', s.stepFrom o prog = some s' := by
  have hmem : st ∈ prog := List.mem_of_getElem? hst
  have harg : ∃ w, ArgText st.instr w st.arg := by
    obtain ⟨_, _, _, _, _, hr⟩ := hs
    obtain ⟨_, _, w, _, _, h, _⟩ := Forall₂.of_right hr hmem
    exact ⟨w, h⟩
  obtain ⟨w, harg⟩ := harg
  have hbyte : kindOf st.instr = .byte → ∃ n, st.arg = .num n := by
    intro hk
    cases hg : st.arg with
    | none => unfold ArgText at harg; rw [hk, hg] at harg; exact harg.elim
    | num n => exact ⟨n, rfl⟩
    | label l => have := ha st hmem l hg; rw [hk] at this; cases this
  have haddr : kindOf st.instr = .addr → (∃ a, st.arg.addrFrom o prog = some a) ∧
      ((∀ n, st.arg = .num n → ∃ i < prog.length, o + place prog i = n) → ∃ i, st.arg.destFrom o prog = some i) := by
    intro hk
    cases hg : st.arg with
    | none => unfold ArgText at harg; rw [hk, hg] at harg; exact harg.elim
    | num n => exact ⟨⟨_, rfl⟩, fun h => Option.isSome_iff_exists.1 (startsFrom_some (h n rfl))⟩
    | label l =>
      have := hv st hmem
      rw [hg] at this
      obtain ⟨i, hi⟩ := labelled_some this
      exact ⟨⟨_, by rw [Arg.addrFrom, hi]; rfl⟩, fun _ => ⟨i, hi⟩⟩
  have hvalue : ∀ src : Operand, (src = .imm → kindOf st.instr = .byte) → ∃ x, s.value st.arg src = some x := by
    intro src hsrc
    cases src with
    | reg g => exact ⟨_, rfl⟩
    | ac => exact ⟨_, rfl⟩
    | imm =>
      obtain ⟨n, hn⟩ := hbyte (hsrc rfl)
      exact ⟨_, by rw [hn]; rfl⟩
  unfold Src.stepFrom
  rw [hst, Option.bind_some]
  unfold Src.ClearFrom at hc
  cases hi : st.instr <;> rw [hi] at hc hbyte haddr hvalue <;> simp only at hc ⊢
  case mov src dst =>
    obtain ⟨x, hx⟩ := hvalue src (by rintro rfl; rfl)
    exact ⟨_, by rw [hx]; rfl⟩
  case alu op src =>
    obtain ⟨x, hx⟩ := hvalue src (by rintro rfl; rfl)
    exact ⟨_, by rw [hx]; rfl⟩
  case lda => obtain ⟨⟨a, h⟩, _⟩ := haddr rfl; exact ⟨_, by rw [h]; rfl⟩
  case inisp => obtain ⟨⟨a, h⟩, _⟩ := haddr rfl; exact ⟨_, by rw [h]; rfl⟩
  case sta =>
    obtain ⟨⟨a, h⟩, _⟩ := haddr rfl
    have := hc a h
    exact ⟨_, by rw [h, Option.bind_some, Src.writeFrom, if_neg (by unfold Outside at this; omega)]⟩
  case stax => exact ⟨_, by rw [Src.writeFrom, if_neg (by unfold Outside at hc; omega)]⟩
  case jmp => obtain ⟨_, h⟩ := haddr rfl; obtain ⟨i, h⟩ := h hc; exact ⟨_, by rw [h]; rfl⟩
  case beq =>
    obtain ⟨_, h⟩ := haddr rfl
    split
    · rename_i hz; obtain ⟨i, h⟩ := h (hc hz); exact ⟨_, by rw [h]; rfl⟩
    · exact ⟨_, rfl⟩
  case bc =>
    obtain ⟨_, h⟩ := haddr rfl
    split
    · rename_i hz; obtain ⟨i, h⟩ := h (hc hz); exact ⟨_, by rw [h]; rfl⟩
    · exact ⟨_, rfl⟩
  case push => exact ⟨_, Src.pushFrom_some (s := { s with pos := s.pos + 1 }) _ hc.1 hc.2⟩
  case pop => exact ⟨_, by rw [Src.pop_some (s := { s with pos := s.pos + 1 }) hc]; rfl⟩
  case call =>
    obtain ⟨_, h⟩ := haddr rfl
    obtain ⟨i, h⟩ := h hc.2.2.2
    have e : (s.sp - 1).toNat = s.sp.toNat - 1 := by
      have h1 : (1 : BitVec 16).toNat = 1 := rfl
      rw [BitVec.toNat_sub_of_le (by rw [BitVec.le_def]; omega), h1]
    rw [h, Option.bind_some, Src.pushFrom_some (s := { s with pos := s.pos + 1 }) _ (by simp only; omega) hc.2.1,
      Option.bind_some, Src.pushFrom_some _ (by simp only; omega) (by
        simp only [e, Nat.sub_sub]; exact hc.2.2.1)]
    exact ⟨_, rfl⟩
  case ret => obtain ⟨i, h⟩ := Src.backFrom_some hc.1 hc.2; exact ⟨_, h⟩
  case iret =>
    obtain ⟨i, h⟩ := Src.backFrom_some (o := o) (s := s) (prog := prog) (by omega) hc.2
    have e : (s.sp + 1 + 1).toNat = s.sp.toNat + 2 := by
      have h1 : (1 : BitVec 16).toNat = 1 := rfl
      rw [BitVec.toNat_add, BitVec.toNat_add, h1]
      omega
    rw [h, Option.bind_some, Src.pop_some (by simp only; omega)]
    exact ⟨_, rfl⟩
  all_goals exact ⟨_, rfl⟩


/-- The counting sample with numbers instead of labels, for the address 10h. -/
def movedText : Str := "MOV 00, AC\nINC AC\nCMP 05\nBEQ 001B\nJMP 0012\nFIN".toList

def movedProg : List (Stmt × Str) :=
  [(⟨none, .mov .imm .ac, .num 0⟩, "00".toList), (⟨none, .inc .ac, .none⟩, []),
    (⟨none, .alu .cmp .imm, .num 5⟩, "05".toList), (⟨none, .beq, .num 0x1B⟩, "001B".toList),
    (⟨none, .jmp, .num 0x12⟩, "0012".toList), (⟨none, .fin, .none⟩, [])]

theorem moved_source : Source movedText (movedProg.map (·.1)) :=
  source_of movedProg (by decide +kernel) (by decide +kernel) (by decide +kernel)

/-- 20 statements lead to the FIN, with AC = 5. -/
example : ((Src.start ⟨1, 2, 3, 4, 5, 6, 0x1000, true, true, fun _ => 9, []⟩ fun _ => 9).runFrom 0x10
      (movedProg.map (·.1)) 20).map (fun s => (s.pos, s.ac, s.fz)) = some (5, 5, true) := by decide +kernel
example : ∃ e, Editor.start.acts ([.offset 0x10] ++ [.code movedText]) = some e ∧ e.canSave = true ∧
    e.offsetValid = true ∧ e.offset = 0x10 ∧ e.offset.toNat + sizeOf (movedProg.map (·.1)) < 65536 :=
  ⟨⟨true, ["64", "00", "4B", "67", "05", "72", "00", "1b", "74", "00", "12", "FF"].map String.toList, 0x10, 0x10, true⟩,
    by decide +kernel, rfl, rfl, rfl, by decide +kernel⟩
example : Valid (movedProg.map (·.1)) ∧ LabelsAreAddresses (movedProg.map (·.1)) ∧ NoLabels (movedProg.map (·.1)) := by
  refine ⟨by decide +kernel, by decide +kernel, ?_⟩
  intro st h l e
  have : ∀ st ∈ movedProg.map (·.1), (match st.arg with | .label _ => false | _ => true) = true := by decide +kernel
  have := this st h
  rw [e] at this
  cases this

/-- A call from the address 1FDh: the return address is 200h, and RET comes back to the statement there. -/
example : ((Src.start ⟨1, 2, 3, 4, 5, 6, 0x1000, true, true, fun _ => 9, []⟩ fun _ => 9).runFrom 0x1FD
      [⟨none, .call, .num 0x201⟩, ⟨none, .fin, .none⟩, ⟨none, .ret, .none⟩] 2).map
        (fun s => (s.pos, s.sp, [s.mem 0xFFF, s.mem 0xFFE])) = some (1, 0x1000, [2, 0]) := by decide +kernel

/-- `JMP T1`, `T1 FIN` at the address 10h: C90_label applies. -/
def jumpingProg : List (Stmt × Str) :=
  [(⟨none, .jmp, .label "T1".toList⟩, "T1".toList), (⟨some "T1".toList, .fin, .none⟩, [])]
example : Source "JMP T1\nT1 FIN".toList (jumpingProg.map (·.1)) :=
  source_of jumpingProg (by decide +kernel) (by decide +kernel) (by decide +kernel)
example : Valid (jumpingProg.map (·.1)) ∧ LabelsAreAddresses (jumpingProg.map (·.1)) ∧
    countedFromZero (jumpingProg.map (·.1)) = [⟨none, .jmp, .num 3⟩, ⟨some "T1".toList, .fin, .none⟩] := by
  decide +kernel
example : ∃ e, Editor.start.acts ([.offset 0x10] ++ [.code "JMP T1\nT1 FIN".toList]) = some e ∧ e.canSave = true ∧
    e.offsetValid = true ∧ e.offset = 0x10 ∧ e.slots = ["74", "00", "03", "FF"].map String.toList :=
  ⟨⟨true, ["74", "00", "03", "FF"].map String.toList, 0x10, 0x10, true⟩, by decide +kernel, rfl, rfl, rfl, rfl⟩

end Mpp.Front
