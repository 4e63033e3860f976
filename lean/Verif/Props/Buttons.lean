import Verif.Buttons
import Verif.Props.Cpu
import Verif.History
/-!
# Property C51: the run buttons, stopped and pressed again
-/
namespace Mpp

/-! ## What does not depend on who asked for the cycle -/

/-- The argument of `run_clock_cycle` only decides whether the callback is called. -/
theorem exec_cycle_ui {h h' : H} {r : CInt} {u : Bool} (hu : h.ui = true) {m : M} (t : At h m)
    (e : exec (.runClockCycle u) h = some (r, h')) : exec (.runClockCycle true) h = some (r, h') := by
  cases u with
  | true => exact e
  | false =>
    obtain ⟨h1, e1, _, _⟩ := t.cycle true (fun _ => hu)
    simp only [exec, Bool.false_eq_true, if_false, if_true] at e e1 ⊢
    cases hc : clockLoop 2 h with
    | none => rw [hc] at e; cases e
    | some h2 =>
      rw [hc] at e e1
      simp only [Option.bind_some] at e e1 ⊢
      cases e
      unfold H.callUi at e1 ⊢
      split
      · rfl
      · rename_i hn; rw [if_neg hn] at e1; cases e1

/-- All the run buttons do is run clock cycles. -/
theorem InstructionButton.cycles {n : Nat} {h h' : H} {e : Ended} (b : InstructionButton n h h' e) :
    cycles true n h = some h' := by
  induction b with
  | last run _ => simp [Mpp.cycles, run]
  | stop run _ _ => simp [Mpp.cycles, run]
  | more run _ _ _ ih => simp [Mpp.cycles, run, ih]

theorem ProgramButtonLoop.cycles {u s : Bool} {n : Nat} {h h' : H} {e : Ended}
    (b : ProgramButtonLoop u s n h h' e) {m : M} (t : At h m) (hu : h.ui = true) :
    Mpp.cycles true n h = some h' := by
  induction b generalizing m with
  | last run => simp [Mpp.cycles, exec_cycle_ui hu t run]
  | stop run _ _ => simp [Mpp.cycles, exec_cycle_ui hu t run]
  | more run _ _ _ ih =>
    have run' := exec_cycle_ui hu t run
    obtain ⟨h2, e2, t2, u2⟩ := t.cycle true (fun _ => hu)
    rw [run'] at e2; cases e2
    simp [Mpp.cycles, run', ih t2 (u2.trans hu)]

theorem cycles_add (u : Bool) (n k : Nat) (h : H) :
    cycles u (n + k) h = (cycles u n h).bind (cycles u k) := by
  induction n generalizing h with
  | zero => simp [cycles]
  | succ n ih =>
    rw [show n + 1 + k = n + k + 1 by omega]
    simp only [cycles]
    cases exec (.runClockCycle u) h with
    | none => rfl
    | some r => simp [ih]

theorem Presses.cycles {n : Nat} {h h' : H} (p : Presses n h h') {m : M} (t : At h m)
    (hu : h.ui = true) : Mpp.cycles true n h = some h' := by
  have go : ∀ {k n : Nat} {h h1 h' : H} {m : M}, At h m → h.ui = true →
      Mpp.cycles true k h = some h1 →
      (∀ {m : M}, At h1 m → h1.ui = true → Mpp.cycles true n h1 = some h') →
      Mpp.cycles true (k + n) h = some h' := by
    intro k n h h1 h' m t hu e ih
    obtain ⟨h2, e2, t2, u2⟩ := t.cycles true (fun _ => hu) k
    rw [e] at e2; cases e2
    rw [cycles_add, e]
    exact ih t2 (u2.trans hu)
  induction p generalizing m with
  | none => rfl
  | state first rest ih =>
    obtain ⟨r, first⟩ := first
    exact go t hu (by simp [Mpp.cycles, first]) ih
  | instruction first rest ih => exact go t hu first.cycles ih
  | program u first rest ih => exact go t hu (ProgramButtonLoop.cycles first t hu) ih

/-! ## Run-instruction -/

/-- **C51.** Left alone, run-instruction is the loop of `RunInstruction`. -/
theorem C51_instruction_done (n : Nat) (h h' : H) :
    InstructionButton n h h' .done ↔ RunInstruction true n h h' := by
  constructor
  · intro b
    generalize he : Ended.done = e at b
    induction b with
    | last run done => exact .last run done
    | stop => cases he
    | more run state ne _ ih => exact .more run state ne (ih he)
  · intro b
    induction b with
    | last run done => exact .last run done
    | more run state ne _ ih => exact .more run state ne ih

theorem run_more {u : Bool} {h h1 h' : H} {r x : CInt} (run : exec (.runClockCycle u) h = some (r, h1))
    (state : NextState h1 x) (ne : x ≠ 0) (j : Nat) :
    RunInstruction u j h1 h' ↔ RunInstruction u (j + 1) h h' := by
  constructor
  · intro b; exact .more run state ne b
  · intro b
    cases b with
    | last run' done =>
      rw [run] at run'; cases run'
      exact absurd (some_inj (state.symm.trans done)) ne
    | more run' _ _ rest => rw [run] at run'; cases run'; exact rest

theorem program_more {u : Bool} {h h1 h' : H} {r x bits : CInt}
    (run : exec (.runClockCycle u) h = some (r, h1))
    (ri : exec (.getRegisterValue .ri) h1 = some (x, h1))
    (max : exec .getMemoryValueSizeBits h1 = some (bits, h1)) (j : Nat) :
    ProgramLoop u (decide (x.toNat = 2 ^ bits.toNat - 1)) j h1 h' ↔ ProgramLoop u false (j + 1) h h' := by
  constructor
  · intro b; exact .more run ri max b
  · intro b
    cases b with
    | more run' ri' max' rest =>
      rw [run] at run'; cases run'
      rw [ri] at ri'; cases ri'
      rw [max] at max'; cases max'
      exact rest

/-- **C51.** Run-instruction, stopped after any number of cycles and pressed again, ends exactly
where it would have ended without the stop. -/
theorem C51_instruction_resume (n k : Nat) (h h1 h' : H) (stop : InstructionButton n h h1 .stopped) :
    InstructionButton k h1 h' .done ↔ InstructionButton (n + k) h h' .done := by
  rw [C51_instruction_done, C51_instruction_done]
  generalize he : Ended.stopped = e at stop
  induction stop with
  | last => cases he
  | stop run state ne => rw [Nat.add_comm]; exact run_more run state ne k
  | @more h h2 h1 r x n e run state ne _ ih =>
    rw [ih he, show n + 1 + k = n + k + 1 by omega]
    exact run_more run state ne (n + k)

theorem trace_suffix (o : BitVec 8) (fc fz : Bool) (n : Nat) (s0 s : BitVec 6) (l : List (BitVec 6))
    (h : fullTrace o fc fz n s0 = some l) (hs : s ∈ l) :
    s ≠ 0 ∧ ∃ k l', k ≤ n ∧ fullTrace o fc fz k s = some l' ∧ l'.length ≤ l.length := by
  induction n generalizing s0 l with
  | zero =>
    simp only [fullTrace] at h
    split at h <;> cases h
    cases hs
  | succ n ih =>
    have h' := h
    simp only [fullTrace] at h
    split at h
    · cases h; cases hs
    · rename_i hne
      cases e : fullTrace o fc fz n (A.nextOf s0 o fc fz) with
      | none => rw [e] at h; cases h
      | some l' =>
        rw [e] at h; cases h
        rcases List.mem_cons.1 hs with rfl | hs'
        · exact ⟨hne, n + 1, _, Nat.le_refl _, h', Nat.le_refl _⟩
        · obtain ⟨a1, k, l2, a2, a3, a4⟩ := ih _ _ e hs'
          exact ⟨a1, k, l2, by omega, a3, by simp; omega⟩

theorem path_early0 : ∀ o : BitVec 8, ∀ fc fz : Bool, ∀ s ∈ [(1 : BitVec 6), 16, 17],
    (s ∈ pathOf o fc fz ↔ s ∈ pathOf o false false) := by decide +kernel

theorem path_early (o : BitVec 8) (fc fz fc' fz' : Bool) (s : BitVec 6)
    (hs : s ∈ [(1 : BitVec 6), 16, 17]) (h : s ∈ pathOf o fc fz) : s ∈ pathOf o fc' fz' :=
  (path_early0 o fc' fz' s hs).2 ((path_early0 o fc fz s hs).1 h)

/-- From every reachable state the fetch comes next after at most nine cycles. -/
theorem InPath.finish {m : M} (h : InPath m) : ∃ n, n ≤ 8 ∧ (M.steps (n + 1) m).s = 0 ∧
    ∀ k, k < n → (M.steps (k + 1) m).s ≠ 0 := by
  by_cases h0 : m.s = 0
  · obtain ⟨v, s⟩ := m
    obtain rfl : s = 0 := h0
    obtain ⟨s1, s2⟩ := steps_instr v
    exact ⟨_, pathOf_len _ _ _, by rw [s1], s2⟩
  · obtain ⟨fc, fz, hm, hf⟩ : ∃ fc fz, m.s ∈ pathOf m.v.ri fc fz ∧ FlagsAt fc fz m := by
      rcases h with h | ⟨fc, fz, h⟩
      · exact absurd h h0
      · by_cases he : m.s = 1 ∨ m.s = 16 ∨ m.s = 17
        · refine ⟨m.v.fc, m.v.fz, path_early _ fc fz _ _ _ ?_ h, fun _ => ⟨rfl, rfl⟩⟩
          simpa using he
        · exact ⟨fc, fz, h, fun e => absurd e he⟩
    obtain ⟨_, k, l, _, tr, hl⟩ := trace_suffix _ _ _ _ _ _ _ (fullTrace_all m.v.ri fc fz) hm
    obtain ⟨r1, r2⟩ := steps_trace _ fc fz _ m l tr rfl hf
    have hl8 := pathOf_len m.v.ri fc fz
    cases l with
    | nil => exact absurd (congrArg M.s r1) h0
    | cons a l =>
      refine ⟨l.length, by simp at hl; omega, congrArg M.s r1, fun k hk => r2 (k + 1) ?_⟩
      simp; omega

/-- **C51.** Run-instruction ends by itself from every reachable state, also in the middle of an
instruction, after at most nine cycles, between two instructions. -/
theorem C51_instruction_ends (ph : Phase) (h : H) (hr : Reach ph h) (on : ph.on = true)
    (ui : ph.ui = true) : ∃ n h', InstructionButton n h h' .done ∧ 1 ≤ n ∧ n ≤ 9 ∧ Boundary h' := by
  obtain ⟨m, t⟩ := hr.at on
  obtain ⟨n, hn, e1, e2⟩ := (hr.inPath on t).finish
  obtain ⟨h', r, t', _⟩ := t.runInstruction true (fun _ => hr.inv.ui.trans ui) n e1 e2
  exact ⟨n + 1, h', (C51_instruction_done _ _ _).2 r, by omega, by omega, t'.boundary.2 e1⟩

/-! ## Run-program -/

/-- **C51.** Left alone, run-program is the loop of `RunProgram`. -/
theorem C51_program_done (u : Bool) (n : Nat) (h h' : H) :
    ProgramButton u n h h' .done ↔ RunProgram u n h h' := by
  unfold ProgramButton RunProgram
  generalize false = s
  constructor
  · intro b
    generalize he : Ended.done = e at b
    induction b with
    | last run => exact .stop run
    | stop => cases he
    | more run ri max _ ih => exact .more run ri max (ih he)
  · intro b
    induction b with
    | stop run => exact .last run
    | more run ri max _ ih => exact .more run ri max ih

/-- **C51.** Run-program, stopped after any number of cycles while RI does not hold FIN and pressed
again, ends exactly where it would have ended without the stop, and does not end if it would not have
ended. Missing: a stop when FIN has been fetched but not decoded, where this is false, see
`C51_program_resume_wrong`. -/
theorem C51_program_resume_partial (u : Bool) (n k : Nat) (h h1 h' : H) (x : CInt)
    (stop : ProgramButton u n h h1 .stopped) (hx : RegIs h1 .ri x) (hne : x ≠ 0xFF) :
    ProgramButton u k h1 h' .done ↔ ProgramButton u (n + k) h h' .done := by
  rw [C51_program_done, C51_program_done]
  unfold ProgramButton at stop
  unfold RunProgram
  have go : ∀ s n h h1, ProgramButtonLoop u s n h h1 .stopped → RegIs h1 .ri x →
      (ProgramLoop u false k h1 h' ↔ ProgramLoop u s (n + k) h h') := by
    intro s n h h1 stop hx
    generalize he : Ended.stopped = e at stop
    induction stop with
    | last => cases he
    | @stop h h1 r x' bits run ri max =>
      obtain rfl : x' = x := some_inj (ri.symm.trans hx)
      cases max
      have hd : decide (x'.toNat = 2 ^ (BitVec.ofInt 32 memValueSizeBits).toNat - 1) = false := by
        apply decide_eq_false
        intro e
        exact hne (BitVec.eq_of_toNat_eq e)
      rw [Nat.add_comm, ← program_more run ri rfl k, hd]
    | @more h h2 h1 r x' bits n e run ri max _ ih =>
      rw [show n + 1 + k = n + k + 1 by omega, ← program_more run ri max (n + k)]
      exact ih hx he
  exact go false n h h1 stop hx

/-- **C51** is false for a stop just after the fetch of a FIN. Not stopped, run-program ends between
two instructions with PC past the FIN. Stopped after the first cycle and pressed again, it also
fetches the byte after the FIN and ends in the middle of that instruction: RI holds it and S1 comes
next. -/
theorem C51_program_resume_wrong (u : Bool) (h : H) (p : P) (hr : Ready h p)
    (hf : p.mem p.pc = 0xFF) (hpc : p.pc.toNat + 2 ≤ 65535) :
    ∃ h1 h2 h3, ProgramButton u 1 h h1 .stopped ∧
      ProgramButton u 2 h h2 .done ∧ Ready h2 (p.skip 1) ∧
      ProgramButton u 2 h1 h3 .done ∧ NextState h3 1 ∧
      RegIs h3 .ri ((p.mem (p.pc + 1)).setWidth 32) ∧ RegIs h3 .pc ((p.pc + 2).setWidth 32) := by
  obtain ⟨h2, r2, l⟩ := hr.fin (u := u) hf
  obtain ⟨v, t, rfl⟩ := hr.at
  have hf' : v.mem v.pc = 0xFF := hf
  have hpc' : v.pc.toNat + 2 ≤ 65535 := hpc
  obtain ⟨h1, e1, t1, u1⟩ := t.cycle u (fun _ => hr.ui)
  obtain ⟨h2', e2, t2, u2⟩ := t1.cycle u (fun _ => u1.trans hr.ui)
  obtain ⟨h3, e3, t3, _⟩ := t2.cycle u (fun _ => u2.trans (u1.trans hr.ui))
  have hs1 : (M.step ⟨v, 0⟩).s = 1 := next_zero _ _ _
  have hne1 : v.pc ≠ 0xFFFF := fun e => by rw [e] at hpc'; revert hpc'; decide
  have hv1 : (M.step ⟨v, 0⟩).v = { v with ri := 0xFF }.setPc (v.pc + 1) := by
    show V.incPc _ = _
    unfold V.incPc
    rw [if_neg hne1, hf']
  have hs2 : (M.step (M.step ⟨v, 0⟩)).s = 0 := by
    show A.nextOf (M.step ⟨v, 0⟩).s (M.step ⟨v, 0⟩).v.ri _ _ = 0
    rw [hs1, step_ri, hf', next_flags 1 0xFF _ _ false false (by decide), nextOf_eq]
    decide +kernel
  have hv2 : (M.step (M.step ⟨v, 0⟩)).v = { v with ri := 0xFF }.setPc (v.pc + 1) := by
    show ((M.step ⟨v, 0⟩).v.rtl (M.step ⟨v, 0⟩).s.toNat) = _
    rw [hs1]; exact hv1
  have hm2 : M.step (M.step ⟨v, 0⟩) = ⟨{ v with ri := 0xFF }.setPc (v.pc + 1), 0⟩ := by
    have : ∀ (m : M) v', m.v = v' → m.s = 0 → m = ⟨v', 0⟩ := by
      rintro ⟨_, _⟩ _ rfl rfl; rfl
    exact this _ _ hv2 hs2
  have hne2 : v.pc + 1 ≠ 0xFFFF := fun e => by
    have := congrArg BitVec.toNat e
    simp only [BitVec.toNat_add] at this
    have h1 : (1 : BitVec 16).toNat = 1 := rfl
    have h2 : (0xFFFF : BitVec 16).toNat = 65535 := rfl
    omega
  rw [hm2] at t2 t3
  have hv3 : (M.step ⟨{ v with ri := 0xFF }.setPc (v.pc + 1), 0⟩).v =
      { v with ri := v.mem (v.pc + 1) }.setPc (v.pc + 1 + 1) := by
    show V.incPc _ = _
    unfold V.incPc V.setPc
    rw [if_neg hne2]
  have hs3 : (M.step ⟨{ v with ri := 0xFF }.setPc (v.pc + 1), 0⟩).s = 1 := next_zero _ _ _
  refine ⟨h1, h2, h3, ?_, ?_, ?_, ?_, ?_, ?_, ?_⟩
  · exact .stop e1 (t1.reg .ri) rfl
  · exact (C51_program_done _ _ _ _).2 ((l _ _).2 ⟨rfl, rfl⟩)
  · rw [← next_skip v.prog (show v.pc.toNat + 1 ≤ 65535 by omega)]; exact r2
  · rw [C51_program_done]
    show ProgramLoop u false 2 h1 h3
    refine (At.loop t2 e2).2 ?_
    show ProgramLoop u true 1 h2' h3
    exact .stop e3
  · have := t3.next; rw [hs3] at this; exact this
  · have := t3.reg .ri; rw [hv3] at this; exact this
  · have := t3.reg .pc; rw [hv3] at this
    have e : v.pc + 1 + 1 = v.pc + 2 := by rw [BitVec.add_assoc]; rfl
    rw [e] at this; exact this

/-! ## Any mixture of presses -/

/-- **C51.** Whatever run buttons are pressed and stopped in whatever order from an instruction
boundary, whenever the machine is between two instructions again, it is in a state that the same
number of clock cycles of running instruction by instruction leads to. -/
theorem C51_presses (n : Nat) (h h' : H) (p : P) (hr : Ready h p) (pr : Presses n h h')
    (hb : Boundary h') : ∃ k, RunInstructions true k h h' := by
  have e : cycles true n h = some h' := by
    obtain ⟨v, t, _⟩ := hr.at
    exact pr.cycles t hr.ui
  clear pr
  induction n using Nat.strongRecOn generalizing h p with
  | _ n ih =>
    obtain ⟨v, t, rfl⟩ := hr.at
    obtain ⟨s1, s2⟩ := steps_instr v
    obtain ⟨h1, r1, t1, rd1⟩ := hr.run t true
    by_cases hn : n ≥ (pathOf (v.mem v.pc) v.fc v.fz).length + 1
    · obtain ⟨j, rfl⟩ := Nat.exists_eq_add_of_le hn
      have c1 := ((C51_instruction_done _ _ _).2 r1).cycles
      rw [cycles_add, c1, Option.bind_some] at e
      obtain ⟨k, rs⟩ := ih j (by omega) h1 _ rd1 e
      exact ⟨k + 1, .step r1 rs⟩
    · cases n with
      | zero => cases e; exact ⟨0, .none⟩
      | succ n =>
        exfalso
        obtain ⟨h2, e2, t2, _⟩ := t.cycles true (fun _ => hr.ui) (n + 1)
        rw [e] at e2; cases e2
        exact s2 n (by omega) (t2.boundary.1 hb)

/-! ## Concrete cases -/

/-- PUSH stopped in the middle: two cycles run, the instruction not finished. -/
example : ∃ h h1 p, Ready h p ∧ InstructionButton 2 h h1 .stopped := by
  let p : P := ⟨5, 2, 3, 4, 5, 7, 9, true, false, fun _ => 0xC1, []⟩
  obtain ⟨h, r⟩ := ready_all p rfl
  obtain ⟨v, t, hv⟩ := r.at
  have hm : v.mem v.pc = 0xC1 := by
    have h1 : v.mem = p.mem := congrArg P.mem hv
    rw [h1]
  obtain ⟨_, s2⟩ := steps_instr v
  obtain ⟨h1, e1, t1, u1⟩ := t.cycle true (fun _ => r.ui)
  obtain ⟨h2, e2, t2, u2⟩ := t1.cycle true (fun _ => u1.trans r.ui)
  have hl : 2 ≤ (pathOf (v.mem v.pc) v.fc v.fz).length := by
    rw [hm]; generalize v.fc = a; generalize v.fz = b; revert a b; decide +kernel
  have ne : ∀ x : BitVec 6, x ≠ 0 → (x.setWidth 32 : CInt) ≠ 0 := fun x hx e =>
    hx (widen6_inj (y := 0) e)
  exact ⟨h, h2, p, r, .more e1 t1.next (ne _ (s2 0 (by omega))) (.stop e2 t2.next (ne _ (s2 1 (by omega))))⟩

/-- A FIN not at the end of memory, as `C51_program_resume_wrong` needs it. -/
example : ∃ h p, Ready h p ∧ p.mem p.pc = 0xFF ∧ p.pc.toNat + 2 ≤ 65535 := by
  let p : P := ⟨5, 2, 3, 4, 5, 7, 9, true, false, fun _ => 0xFF, []⟩
  obtain ⟨h, r⟩ := ready_all p rfl
  exact ⟨h, p, r, rfl, by decide⟩

/-- Run-program stopped after the fetch of INC RB. -/
example : ∃ u h h1 p, Ready h p ∧ ProgramButton u 1 h h1 .stopped ∧ RegIs h1 .ri 0x2C := by
  let p : P := ⟨5, 2, 3, 4, 5, 7, 9, true, false, fun _ => 0x2C, []⟩
  obtain ⟨h, r⟩ := ready_all p rfl
  obtain ⟨v, t, hv⟩ := r.at
  have hm : v.mem v.pc = 0x2C := by
    have h1 : v.mem = p.mem := congrArg P.mem hv
    rw [h1]
  obtain ⟨h1, e1, t1, u1⟩ := t.cycle true (fun _ => r.ui)
  refine ⟨true, h, h1, p, r, .stop e1 (t1.reg .ri) rfl, ?_⟩
  have := t1.reg .ri
  rw [show (M.step ⟨v, 0⟩).v.reg .ri = ((M.step ⟨v, 0⟩).v.ri).setWidth 32 from rfl, step_ri, hm] at this
  exact this

end Mpp
