import Verif.Front.Factorial
import Verif.Front.Malicious
import Verif.Front.Product0
import Verif.Front.Exercises
import Verif.Props.Examples
import Verif.Props.Stored
/-!
# Properties C63–C66: the programs and exercises of the documentation

The button of the documentation opens the page with the text in its address (`docs/src/components/Code/Code.tsx:67-72`);
the editor shows it, with a `FIN` added (C57). As in `Props/Examples`, each theorem starts with any machine that a host
can have brought about; what the browser stored before (`st`) is arbitrary. "Save to memory" and "Set PC" are pressed,
then a run button.
-/
namespace Mpp.Front

/-! ## Common to all -/

theorem stmtCode_fin {prog : List Stmt} : StmtCode prog finStmt [0xFF] :=
  ⟨0xFF, [], 0, rfl, by decide +kernel, trivial, rfl⟩

theorem StmtCode.append {prog : List Stmt} {st : Stmt} {bs : List (BitVec 8)} (h : StmtCode prog st bs)
    (more : List Stmt) : StmtCode (prog ++ more) st bs := by
  obtain ⟨op, rest, v, h1, h2, h3, h4⟩ := h
  refine ⟨op, rest, v, h1, h2, ?_, h4⟩
  cases ha : st.arg with
  | none => trivial
  | num n => rw [ha] at h3; exact h3
  | label l => rw [ha] at h3; exact h3.append more

theorem code_fin {prog : List Stmt} {bss : List (List (BitVec 8))} (h : Code prog bss) :
    Code (prog ++ [finStmt]) (bss ++ [[0xFF]]) :=
  List.rel_append (h.imp fun _ _ h => h.append _) (.cons stmtCode_fin .nil)

/-- The text ends in a character that is no blank. -/
theorem endsFin_false {s : Str} (a : Str) (c : Char) (h : s = a ++ [c]) (hc : isWs c = false) : endsFin s = false := by
  subst h
  unfold endsFin
  rw [List.reverse_append]
  split
  · rename_i e
    rw [List.reverse_singleton, List.singleton_append, List.cons.injEq] at e
    rw [← e.1, hc]
    rfl
  · rfl

/-- A text of lines whose last line ends in a character that is no blank. -/
theorem plain_end {lines : List Str} (a : List Str) (b : Str) (c : Char) (h : lines = a ++ [b ++ [c]])
    (hc : isWs c = false) : endsFin (join '\n' lines) = false ∧ join '\n' lines ≠ [] := by
  subst h
  by_cases ha : a = []
  · subst ha
    exact ⟨endsFin_false b c rfl hc, by simp [join]⟩
  · rw [join_append '\n' ha (by simp)]
    exact ⟨endsFin_false (join '\n' a ++ '\n' :: b) c (by simp [join]) hc, by simp⟩

theorem Written.program {m0 m : BitVec 16 → BitVec 8} {bs more : List (BitVec 8)} (w : Written m0 0 (bs ++ more) m) :
    Written m 0 bs m :=
  ⟨fun k b h => w.here k b (by rw [List.getElem?_append_left (List.getElem?_eq_some_iff.1 h).1]; exact h),
    fun _ _ => rfl⟩

/-- After the page is opened with the text, saving and setting PC leaves the machine code and a FIN in memory. -/
theorem opened {text : Str} {prog : List Stmt} {bss : List (List (BitVec 8))} (hs : Source text prog)
    (ht : endsFin text = false ∧ text ≠ []) (hv : Valid prog) (ha : LabelsAreAddresses prog) (hc : Code prog bss)
    (hsz : bss.flatten.length < 65536) {ph : Phase} {h : H} {p : P} (r : Reach ph h)
    (on : ph.on = true) (ui : ph.ui = true) (s : Shows h p) (st : Store) :
    ∃ e vs h1 m, Editor.start.acts [.code (load st (some text)).code] = some e ∧ e.canSave = true ∧
      execAll (e.saveCalls ++ e.pcCalls) h = some (vs, h1) ∧ Ready h1 { p with mem := m, pc := 0 } ∧
      Written p.mem 0 (bss.flatten ++ [0xFF]) m := by
  have hcode : (load st (some text)).code = text ++ "\nFIN".toList := by
    obtain ⟨h1, h2⟩ := C57_note st text ht.2
    rw [← endsFin_iff, ht.1] at h1
    rw [h2, if_pos]
    cases hap : (load st (some text)).appended with
    | true => rfl
    | false => exact absurd (h1.1 hap) (by simp)
  have hfl : (bss ++ [[(0xFF : BitVec 8)]]).flatten = bss.flatten ++ [0xFF] := by simp
  obtain ⟨e, he, hcan, vs, h1, m, e1, r1, w⟩ := saved (actions := []) (source_fin hs) (by simp) (valid_fin hv)
    (LabelsAreAddresses.append ha (fun st hst l hl => by
      rw [List.mem_singleton.1 hst] at hl
      cases hl)) (code_fin hc) (by rw [hfl, List.length_append]; exact hsz) (by simp) r on ui s
  rw [hcode]
  rw [hfl] at w
  exact ⟨e, vs, h1, m, he, hcan, e1, r1, w⟩

/-- Run-program ends if the instructions of the program lead to a FIN. -/
theorem opened_ends {text : Str} {prog : List Stmt} {bss : List (List (BitVec 8))} (hs : Source text prog)
    (ht : endsFin text = false ∧ text ≠ []) (hv : Valid prog) (ha : LabelsAreAddresses prog) (hc : Code prog bss)
    (hsz : bss.flatten.length < 65536) {ph : Phase} {h : H} {p : P} (r : Reach ph h)
    (on : ph.on = true) (ui : ph.ui = true) (s : Shows h p) (st : Store) (u : Bool) {Final : P → Prop}
    (run : ∀ m, Written p.mem 0 (bss.flatten ++ [0xFF]) m → ∃ q, Runs { p with mem := m, pc := 0 } q ∧
      decode (q.mem q.pc) = some .fin ∧ q.pc.toNat + 1 ≤ 65535 ∧ Final (q.skip 1)) :
    ∃ e vs h1 n h2 q, Editor.start.acts [.code (load st (some text)).code] = some e ∧ e.canSave = true ∧
      execAll (e.saveCalls ++ e.pcCalls) h = some (vs, h1) ∧ RunProgram u n h1 h2 ∧ Ready h2 q ∧ Final q := by
  obtain ⟨e, vs, h1, m, he, hcan, e1, r1, w⟩ := opened hs ht hv ha hc hsz r on ui s st
  obtain ⟨q, ⟨k, hk⟩, hf, hpc, fin⟩ := run m w
  obtain ⟨n, h2, rp, r2⟩ := program_skip (u := u) r1 hk hf hpc
  exact ⟨e, vs, h1, n, h2, q.skip 1, he, hcan, e1, rp, r2, fin⟩

/-! ## C63 -/

theorem factorial_plain (x : Str) : endsFin (factorialText x) = false ∧ factorialText x ≠ [] := by
  refine plain_end (["INISP EEEE".toList, []] ++ ["MOV ".toList ++ x ++ ", AC # 3!".toList] ++ factorialRest.dropLast)
    "RE".toList 'T' ?_ (by decide)
  rw [List.append_assoc _ _ [_]]
  congr 1

/-- **C63.** The factorial program, with any numeral `x` of a value n ≥ 1 in place of `3`, ends with AC = n!
(modulo 256) and the stack pointer back at 0xEEEE. Besides the program it writes only the stack, three cells for each
nested call and two for the first; no error is reported. -/
theorem C63_factorial (x : Str) (a : BitVec 8) (hx : HexValue x a.toNat) (hx' : ¬ SameName x acName) (ha : a ≠ 0)
    (ph : Phase) (h : H) (p : P) (r : Reach ph h) (on : ph.on = true) (ui : ph.ui = true) (s : Shows h p)
    (st : Store) (u : Bool) :
    ∃ e vs h1 n h2 q, Editor.start.acts [.code (load st (some (factorialText x))).code] = some e ∧
      e.canSave = true ∧ execAll (e.saveCalls ++ e.pcCalls) h = some (vs, h1) ∧ RunProgram u n h1 h2 ∧
      Ready h2 q ∧ q.ac.toNat = a.toNat.factorial % 256 ∧ q.d = p.d ∧ q.e = p.e ∧ q.pc = 9 ∧ q.sp = 0xEEEE ∧
      q.errs = p.errs ∧
      (∀ i : BitVec 16, 53 ≤ i.toNat → i.toNat + 3 * (a.toNat - 1) < 0xEEEC ∨ 0xEEEE ≤ i.toNat →
        q.mem i = p.mem i) := by
  have h1 : (a - 1).toNat = a.toNat - 1 := by
    have : a.toNat ≠ 0 := fun e => ha (BitVec.eq_of_toNat_eq e)
    rw [BitVec.toNat_sub]
    simp
    omega
  have h2 : (a - 1).toNat + 1 = a.toNat := by
    have : a.toNat ≠ 0 := fun e => ha (BitVec.eq_of_toNat_eq e)
    omega
  refine opened_ends (Final := fun q => q.ac.toNat = a.toNat.factorial % 256 ∧ q.d = p.d ∧ q.e = p.e ∧ q.pc = 9 ∧
      q.sp = 0xEEEE ∧ q.errs = p.errs ∧
      (∀ i : BitVec 16, 53 ≤ i.toNat → i.toNat + 3 * (a.toNat - 1) < 0xEEEC ∨ 0xEEEE ≤ i.toNat →
        q.mem i = p.mem i))
    (factorial_source ⟨hx, hx'⟩) (factorial_plain x) (factorial_valid a).1 (factorial_valid a).2
    (factorial_code a) (show 52 < 65536 by decide) r on ui s st u ?_
  intro m w
  obtain ⟨m', run, frame⟩ := factorial_runs w.program p
  rw [h1] at frame
  have hlt := a.isLt
  refine ⟨_, run, ?_, (show (_ : Nat) ≤ 65535 by simp), ?_, rfl, rfl, rfl, rfl, rfl, ?_⟩
  · have : m' 0x08#16 = 0xFF#8 := (frame _ (.inl (show 8 + _ < _ by omega))).trans (w.program.here 0x08 _ rfl)
    show decode (m' 0x08#16) = _
    rw [this]
    decide +kernel
  · rw [h2]
    exact BitVec.toNat_ofNat _ 8
  · intro i hi hi'
    exact (frame i hi').trans (w.elsewhere i (.inr (show 0 + 53 ≤ _ by omega)))

/-- For the numeral `0` the documentation's definition in Java gives 1, but the program ends with 0: `AC` is tested
for 1 only, so all 256 values are gone through. -/
theorem C63_zero_wrong (x : Str) (hx : HexValue x 0) (hx' : ¬ SameName x acName) (ph : Phase) (h : H) (p : P) (r : Reach ph h)
    (on : ph.on = true) (ui : ph.ui = true) (s : Shows h p) (st : Store) (u : Bool) :
    ∃ e vs h1 n h2 q, Editor.start.acts [.code (load st (some (factorialText x))).code] = some e ∧
      e.canSave = true ∧ execAll (e.saveCalls ++ e.pcCalls) h = some (vs, h1) ∧ RunProgram u n h1 h2 ∧
      Ready h2 q ∧ q.ac = 0 ∧ q.ac.toNat ≠ (0 : Nat).factorial % 256 := by
  refine opened_ends (Final := fun q => q.ac = 0 ∧ q.ac.toNat ≠ (0 : Nat).factorial % 256)
    (factorial_source (a := 0) ⟨hx, hx'⟩) (factorial_plain x) (factorial_valid 0).1 (factorial_valid 0).2
    (factorial_code 0) (show 52 < 65536 by decide) r on ui s st u ?_
  intro m w
  obtain ⟨m', run, frame⟩ := factorial_runs w.program p
  have e : BitVec.ofNat 8 (Nat.factorial 256) = 0#8 := by
    refine BitVec.eq_of_toNat_eq ?_
    rw [BitVec.toNat_ofNat]
    exact Nat.mod_eq_zero_of_dvd (Nat.dvd_factorial (by decide) (Nat.le_refl _))
  refine ⟨_, run, ?_, (show (_ : Nat) ≤ 65535 by simp), e, ?_⟩
  · have : m' 0x08#16 = 0xFF#8 := (frame _ (.inl (by decide))).trans (w.program.here 0x08 _ rfl)
    show decode (m' 0x08#16) = _
    rw [this]
    decide +kernel
  · show (BitVec.ofNat 8 (Nat.factorial 256)).toNat ≠ _
    rw [e]
    decide

/-! ## C64 -/

theorem malicious_plain : endsFin maliciousText = false ∧ maliciousText ≠ [] :=
  plain_end maliciousLines.dropLast "RE".toList 'T' (by decide +kernel) (by decide)

/-- **C64.** The "malicious function" never comes back: run-program does not end. However many instructions are run,
the stack pointer stays between 0xEEEA and 0xEEEE, no other cells than these four are written, B, C and the errors stay
as they were; after each round of 37 instructions the machine is in the same state, at the `CALL`. -/
theorem C64_endless (ph : Phase) (h : H) (p : P) (r : Reach ph h) (on : ph.on = true) (ui : ph.ui = true)
    (s : Shows h p) (st : Store) (u : Bool) :
    ∃ e vs h1, Editor.start.acts [.code (load st (some maliciousText)).code] = some e ∧ e.canSave = true ∧
      execAll (e.saveCalls ++ e.pcCalls) h = some (vs, h1) ∧
      (∀ n h2, ¬ RunProgram u n h1 h2) ∧
      (∀ k, ∃ h2 q, RunInstructions u (k + 1) h1 h2 ∧ Ready h2 q ∧ 0xEEEA ≤ q.sp.toNat ∧ q.sp.toNat ≤ 0xEEEE ∧
        q.b = p.b ∧ q.c = p.c ∧ q.errs = p.errs ∧
        ∀ i : BitVec 16, 49 ≤ i.toNat → i.toNat < 0xEEEA ∨ 0xEEEE ≤ i.toNat → q.mem i = p.mem i) ∧
      ∃ m, ∀ n, ∃ h2, RunInstructions u (1 + 37 * (n + 1)) h1 h2 ∧
        Ready h2 { p with ac := 3, d := 0, e := 3, pc := 3, sp := 0xEEEE, fc := false, fz := false, mem := m } := by
  obtain ⟨e, vs, h1, m, he, hcan, e1, r1, w⟩ := opened malicious_source malicious_plain malicious_valid.1
    malicious_valid.2 malicious_code (show 48 < 65536 by decide) r on ui s st
  obtain ⟨b1, b2⟩ := malicious_runs w.program p
  refine ⟨e, vs, h1, he, hcan, e1, ?_, ?_, four m 0x00#8 0x03#8 0x00#8 0x1C#8, fun n => ?_⟩
  · refine never_stops r1 fun k => ?_
    cases k with
    | zero => rfl
    | succ k =>
      obtain ⟨q, hq, _⟩ := b1 k
      exact Option.isSome_iff_exists.2 ⟨q, hq⟩
  · intro k
    obtain ⟨q, hq, g1, g2, g3, g4, g5, g6⟩ := b1 k
    obtain ⟨h2, ri, r2⟩ := Ready.instructions (u := u) r1 _ hq
    exact ⟨h2, q, ri, r2, g1, g2, g3, g4, g5, fun i hi hi' =>
      (g6 i hi').trans (w.elsewhere i (.inr (show 0 + 49 ≤ _ by omega)))⟩
  · exact Ready.instructions (u := u) r1 _ (b2 n)

/-- **C64.** Its helper `TFSUB` takes 1 from the 16 bits of D:E, with borrow, from any machine that holds the program
and is about to execute it, at any depth of the stack. -/
theorem C64_decrement (h : H) (p : P) (r : Ready h p) (hold : ∀ k v, maliciousCode.flatten[k]? = some v →
      p.mem (BitVec.ofNat 16 k) = v) (hpc : p.pc = 0x19) (h1 : 50 ≤ p.sp.toNat) (h2 : p.sp.toNat + 2 < 65536)
    (u : Bool) :
    ∃ k h' q, RunInstructions u k h h' ∧ Ready h' q ∧ (q.d ++ q.e : BitVec 16) = p.d ++ p.e - 1 ∧
      q.pc = p.mem (p.sp + 1) ++ p.mem p.sp ∧ q.sp = p.sp + 2 ∧ q.b = p.b ∧ q.c = p.c ∧ q.errs = p.errs ∧
      ∀ i : BitVec 16, i.toNat + 1 ≠ p.sp.toNat → i.toNat + 2 ≠ p.sp.toNat → q.mem i = p.mem i := by
  obtain ⟨ac, b, c, d, e, pc, sp, fc, fz, m, errs⟩ := p
  change pc = 0x19#16 at hpc
  change 50 ≤ sp.toNat at h1
  change sp.toNat + 2 < 65536 at h2
  subst hpc
  obtain ⟨j, hj⟩ : ∃ j, sp.toNat = j + 2 := ⟨sp.toNat - 2, by omega⟩
  have hsp : sp = BitVec.ofNat 16 (j + 2) := by rw [← hj, BitVec.ofNat_toNat, BitVec.setWidth_eq]
  obtain ⟨ac', d', e', fc', fz', m', ⟨k, run⟩, g1, g2⟩ := malicious_sub (m := m) hold ac b c d e fc fz errs (j := j)
    (by omega) (by omega) rfl
  have s1 : sp + 1 = BitVec.ofNat 16 (j + 3) := by rw [hsp]; exact ofNat16_add _
  have s2 : sp + 2 = BitVec.ofNat 16 (j + 4) := by
    rw [show sp + 2 = sp + 1 + 1 by rw [BitVec.add_assoc]; rfl, s1]; exact ofNat16_add _
  rw [← hsp] at run
  obtain ⟨h', ri, r'⟩ := Ready.instructions (u := u) r k run
  refine ⟨k, h', _, ri, r', g1, ?_, s2.symm, rfl, rfl, rfl, ?_⟩
  · show _ = (m (sp + 1) ++ m sp : BitVec 16)
    rw [s1, hsp]
  · intro i a1 a2
    change i.toNat + 1 ≠ sp.toNat at a1
    change i.toNat + 2 ≠ sp.toNat at a2
    exact g2 i (by omega) (by omega)

/-! ## C65 -/

theorem Exercise.plain (x : Exercise) : endsFin x.text = false ∧ x.text ≠ [] := by
  cases x <;> decide +kernel

/-- **C65.** The solutions of the exercises do what the exercises ask for, POP aside: after as many instructions as
the solution has, in any machine (for PUSH, with the stack pointer at 11 or above, so that the stack does not meet the
program). Besides the program they write only the cells asked for, and no error is reported. -/
theorem C65_solved_partial (x : Exercise) (hx : x ≠ .pop) (ph : Phase) (h : H) (p : P) (r : Reach ph h)
    (on : ph.on = true) (ui : ph.ui = true) (s : Shows h p) (hs : x = .push → 11 ≤ p.sp.toNat) (st : Store) (u : Bool) :
    ∃ e vs h1 h2 q, Editor.start.acts [.code (load st (some x.text)).code] = some e ∧ e.canSave = true ∧
      execAll (e.saveCalls ++ e.pcCalls) h = some (vs, h1) ∧ RunInstructions u x.prog.length h1 h2 ∧ Ready h2 q ∧
      x.Asks p q ∧ q.errs = p.errs ∧ (∀ i : BitVec 16, 10 ≤ i.toNat → i ∉ x.cells p → q.mem i = p.mem i) ∧
      (x.jumps = false → ∃ n h3 q', RunProgram u n h1 h3 ∧ Ready h3 q' ∧ x.Asks p q' ∧ q'.errs = p.errs ∧
        ∀ i : BitVec 16, 10 ≤ i.toNat → i ∉ x.cells p → q'.mem i = p.mem i) := by
  have hsm := x.small
  obtain ⟨e, vs, h1, m, he, hcan, e1, r1, w⟩ := opened x.source x.plain x.valid.1 x.valid.2 x.codes
    (by omega) r on ui s st
  have far : ∀ i : BitVec 16, x.code.flatten.length + 1 ≤ i.toNat → m i = p.mem i := fun i hi =>
    w.elsewhere i (.inr (by rw [List.length_append, Nat.zero_add]; exact hi))
  have fin : m (BitVec.ofNat 16 x.code.flatten.length) = 0xFF#8 := by
    have := w.here x.code.flatten.length 0xFF (by rw [List.getElem?_append_right (Nat.le_refl _)]; simp)
    rwa [Nat.zero_add] at this
  obtain ⟨q, hq, a1, a2, a3, a4⟩ := x.runs hx (p := p) (m := m) (fun e => by have := hs e; omega) w.program
    (far _ (show _ ≤ 0x1324 by omega))
  obtain ⟨h2, ri, r2⟩ := Ready.instructions (u := u) r1 _ hq
  refine ⟨e, vs, h1, h2, q, he, hcan, e1, ri, r2, a1, a3, fun i hi hn => ?_, fun hj => ?_⟩
  · exact (a4 i (by omega) hn).trans (far i (by omega))
  · have hn : BitVec.ofNat 16 x.code.flatten.length ∉ x.cells p := by
      cases x with
      | push =>
        intro hm
        have hs := hs rfl
        have hlt := p.sp.isLt
        have key : ∀ k : Nat, k ≤ 3 → BitVec.ofNat 16 7 = p.sp - BitVec.ofNat 16 k → False := by
          intro k hk e
          have := congrArg BitVec.toNat e
          rw [BitVec.toNat_sub, BitVec.toNat_ofNat, BitVec.toNat_ofNat] at this
          omega
        have hm : BitVec.ofNat 16 7 ∈ [p.sp - 1, p.sp - 2, p.sp - 3] := hm
        simp only [List.mem_cons, List.not_mem_nil, or_false] at hm
        rcases hm with hm | hm | hm
        · exact key 1 (by omega) hm
        · exact key 2 (by omega) hm
        · exact key 3 (by omega) hm
      | _ => simp [Exercise.cells, Exercise.code]
    have hpc := a2 hj
    have hlen : (BitVec.ofNat 16 x.code.flatten.length).toNat = x.code.flatten.length := by
      rw [BitVec.toNat_ofNat]; omega
    have hf : decode (q.mem q.pc) = some .fin := by
      rw [hpc, a4 _ (by omega) hn, fin]
      decide +kernel
    obtain ⟨n, h3, rp, r3⟩ := program_skip (u := u) r1 hq hf (by rw [hpc, hlen]; omega)
    refine ⟨n, h3, q.skip 1, rp, r3, ?_, a3, fun i hi hn => (a4 i (by omega) hn).trans (far i (by omega))⟩
    cases x <;> first | exact a1 | cases hj

/-- The POP exercise asks for the contents of 0x8523, its solution fetches those of 0x8563. -/
theorem C65_pop_wrong (ph : Phase) (h : H) (p : P) (r : Reach ph h) (on : ph.on = true) (ui : ph.ui = true)
    (s : Shows h p) (st : Store) (u : Bool) (hd : p.mem 0x8563 ≠ p.mem 0x8523) :
    ∃ e vs h1 n h2 q, Editor.start.acts [.code (load st (some (Exercise.text .pop))).code] = some e ∧
      e.canSave = true ∧ execAll (e.saveCalls ++ e.pcCalls) h = some (vs, h1) ∧ RunProgram u n h1 h2 ∧
      Ready h2 q ∧ q.ac = p.mem 0x8563 ∧ ¬ Exercise.Asks p q .pop := by
  refine opened_ends (Final := fun q => q.ac = p.mem 0x8563 ∧ ¬ Exercise.Asks p q .pop)
    (Exercise.source .pop) (Exercise.plain .pop) (Exercise.valid .pop).1 (Exercise.valid .pop).2 (Exercise.codes .pop)
    (by decide) r on ui s st u ?_
  intro m w
  obtain ⟨q, hq, a1, a2, a3, a4⟩ := Exercise.pop_runs (p := p) w.program
  have e : m 0x8563#16 = p.mem 0x8563#16 := w.elsewhere _ (.inr (by decide))
  have e2 : m 0x04#16 = 0xFF#8 := w.here 4 _ rfl
  refine ⟨q, ⟨_, hq⟩, ?_, ?_, a1.trans e, fun h => hd ?_⟩
  · rw [a3, a4, e2]
    decide +kernel
  · rw [a3]
    decide
  · exact ((a1.trans e).symm.trans h)

/-- With SP = 0, as after switching on, the solution of the PUSH exercise overwrites the first cell of the program
three times and reports three errors; nothing is left of the numbers 1 and 2. -/
theorem C65_push_wrong (ph : Phase) (h : H) (p : P) (r : Reach ph h) (on : ph.on = true) (ui : ph.ui = true)
    (s : Shows h p) (st : Store) (u : Bool) (h0 : p.sp = 0) :
    ∃ e vs h1 n h2 q, Editor.start.acts [.code (load st (some (Exercise.text .push))).code] = some e ∧
      e.canSave = true ∧ execAll (e.saveCalls ++ e.pcCalls) h = some (vs, h1) ∧ RunProgram u n h1 h2 ∧
      Ready h2 q ∧ q.sp = 0 ∧ q.mem 0 = 3 ∧ (∀ i : BitVec 16, 8 ≤ i.toNat → q.mem i = p.mem i) ∧
      q.errs = .spOverflow :: .spOverflow :: .spOverflow :: p.errs := by
  refine opened_ends (Final := fun q => q.sp = 0 ∧ q.mem 0 = 3 ∧
      (∀ i : BitVec 16, 8 ≤ i.toNat → q.mem i = p.mem i) ∧
      q.errs = .spOverflow :: .spOverflow :: .spOverflow :: p.errs)
    (Exercise.source .push) (Exercise.plain .push) (Exercise.valid .push).1 (Exercise.valid .push).2
    (Exercise.codes .push) (by decide) r on ui s st u ?_
  intro m w
  obtain ⟨q, hq, a1, a2, a3, a4, a5⟩ := Exercise.push_runs_zero (p := p) h0 w.program
  have e2 : q.mem 0x07#16 = 0xFF#8 := (a3 _ (by decide)).trans (w.here 7 _ rfl)
  refine ⟨q, ⟨_, hq⟩, ?_, ?_, a1, a2, fun i hi => ?_, a5⟩
  · rw [a4, e2]
    decide +kernel
  · rw [a4]
    decide
  · exact (a3 i (by omega)).trans (w.elsewhere i (.inr (show 0 + 8 ≤ _ by omega)))

/-! ## C66 -/

theorem product0_plain (x y : Str) : endsFin (product0Text x y) = false ∧ product0Text x y ≠ [] := by
  refine plain_end (["MOV ".toList ++ x ++ ", RB".toList] ++ (["MOV ".toList ++ y ++ ", RC".toList] ++
    product0Rest.dropLast)) "FI".toList 'N' ?_ (by decide)
  rw [List.append_assoc _ _ [_], List.append_assoc _ _ [_]]
  congr 1

/-- **C66.** The multiplication whose result starts at 0, with any numerals `x` and `y` in place of `05` and `03`, 0
included, ends with AC = a·b (modulo 256), C counted down to 0 and no error; besides the program only the cell 0x1233
is written. -/
theorem C66_product (x y : Str) (a b : BitVec 8) (hx : HexValue x a.toNat) (hx' : ¬ SameName x acName)
    (hy : HexValue y b.toNat) (hy' : ¬ SameName y acName) (ph : Phase) (h : H) (p : P) (r : Reach ph h)
    (on : ph.on = true) (ui : ph.ui = true) (s : Shows h p) (st : Store) (u : Bool) :
    ∃ e vs h1 n h2 q, Editor.start.acts [.code (load st (some (product0Text x y))).code] = some e ∧
      e.canSave = true ∧ execAll (e.saveCalls ++ e.pcCalls) h = some (vs, h1) ∧ RunProgram u n h1 h2 ∧
      Ready h2 q ∧ q.ac = a * b ∧ q.b = a ∧ q.c = 0 ∧ q.d = p.d ∧ q.e = p.e ∧ q.fz = true ∧ q.fc = false ∧
      q.pc = 28 ∧ q.sp = 0x1234 ∧ q.errs = p.errs ∧ q.mem 0x1233 = a * b ∧
      (∀ i : BitVec 16, 29 ≤ i.toNat → i ≠ 0x1233 → q.mem i = p.mem i) := by
  refine opened_ends (Final := fun q => q.ac = a * b ∧ q.b = a ∧ q.c = 0 ∧ q.d = p.d ∧ q.e = p.e ∧
      q.fz = true ∧ q.fc = false ∧ q.pc = 28 ∧ q.sp = 0x1234 ∧ q.errs = p.errs ∧ q.mem 0x1233 = a * b ∧
      (∀ i : BitVec 16, 29 ≤ i.toNat → i ≠ 0x1233 → q.mem i = p.mem i))
    (product0_source ⟨hx, hx'⟩ ⟨hy, hy'⟩) (product0_plain x y) (product0_valid a b).1 (product0_valid a b).2
    (product0_code a b) (show 28 < 65536 by decide) r on ui s st u ?_
  intro m w
  refine ⟨_, product0_runs w.program p, ?_, (show (_ : Nat) ≤ 65535 by simp), rfl, rfl, rfl, rfl, rfl, rfl, rfl, rfl,
    rfl, rfl, rfl, ?_⟩
  · have : put m 0x1233 (a * b) 0x1B#16 = 0xFF#8 := (put_other m (j := 0x1B) _ (by decide) (by decide) (by decide)).trans
      (w.program.here 0x1B _ rfl)
    show decode (put m 0x1233 (a * b) 0x1B#16) = _
    rw [this]
    decide +kernel
  · intro i h1 h2
    show put m 0x1233 (a * b) i = _
    exact (if_neg h2).trans (w.elsewhere i (.inr (show 0 + 29 ≤ _ by omega)))

/-- A machine in a state of one's choice, with different contents at 0x8563 and 0x8523 and the stack pointer at 0x4321;
the numerals `5`, `0` and `01f`. The factorial of 5 is 120 = 0x78, and `0 · 0x1F = 0`. -/
example : ∃ ph h p, Reach ph h ∧ ph.on = true ∧ ph.ui = true ∧ Shows h p ∧ p.ac = 0x77 ∧ p.pc = 0x1234 ∧
    p.mem 0x8563 ≠ p.mem 0x8523 ∧ 11 ≤ p.sp.toNat ∧ HexValue "5".toList (0x05#8).toNat ∧
    ¬ SameName "5".toList acName ∧ HexValue "0".toList 0 ∧ ¬ SameName "0".toList acName ∧
    HexValue "01f".toList (0x1F#8).toNat ∧ ¬ SameName "01f".toList acName ∧ (0x05#8).toNat.factorial % 256 = 0x78 := by
  obtain ⟨h, ph, r, on, ui, _, s⟩ := ready_all
    ⟨0x77, 1, 2, 3, 4, 0x1234, 0x4321, true, false, fun i => if i = 0x8563 then 5 else 0xAB, []⟩ rfl
  exact ⟨ph, h, _, r, on, ui, s, rfl, rfl, by decide, by decide, by decide +kernel, by decide +kernel, by decide +kernel,
    by decide +kernel, by decide +kernel, by decide +kernel, by decide +kernel⟩

/-- A machine that holds the malicious program, about to take 1 from D:E = 0x1200; and one with SP = 0. -/
example : (∃ h p, Ready h p ∧ (∀ k v, maliciousCode.flatten[k]? = some v → p.mem (BitVec.ofNat 16 k) = v) ∧
      p.pc = 0x19 ∧ 50 ≤ p.sp.toNat ∧ p.sp.toNat + 2 < 65536 ∧ (p.d ++ p.e - 1 : BitVec 16) = 0x11FF) ∧
    ∃ ph h p, Reach ph h ∧ ph.on = true ∧ ph.ui = true ∧ Shows h p ∧ p.sp = 0 := by
  constructor
  · obtain ⟨h, r⟩ := ready_all ⟨0, 0, 0, 0x12, 0x00, 0x19, 0x1000, false, false,
      fun i => (maliciousCode.flatten[i.toNat]?).getD 0, []⟩ rfl
    refine ⟨h, _, r, ?_, rfl, by decide, by decide, by decide⟩
    intro k v e
    have hk : k < 48 := (List.getElem?_eq_some_iff.1 e).1
    have : (BitVec.ofNat 16 k).toNat = k := by rw [BitVec.toNat_ofNat]; omega
    show (maliciousCode.flatten[(BitVec.ofNat 16 k).toNat]?).getD 0 = v
    rw [this, e]
    rfl
  · obtain ⟨h, ph, r, on, ui, _, s⟩ := ready_all ⟨0, 0, 0, 0, 0, 0, 0, false, false, fun _ => 0, []⟩ rfl
    exact ⟨ph, h, _, r, on, ui, s, rfl⟩

end Mpp.Front
