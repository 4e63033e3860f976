import Verif.Props.Plain
/-!
# C106: programs whose use of the stack can be seen in the text
-/
namespace Mpp.Front

/-- What a property of states kept by the statements says about the machine: either run-program ends at a FIN or
any number of instructions can be carried out; the property holds before each of them. -/
theorem kept_on {prog : List Stmt} {errs : List Err} {u : Bool} {h : H} {s : Src} (o : Obeys u prog errs h s)
    (I : Src → Prop) (hpos : ∀ s, I s → s.pos < prog.length)
    (hstep : ∀ s st, I s → prog[s.pos]? = some st → st.instr ≠ .fin → ∃ s', s.step prog = some s' ∧ I s')
    (h0 : I s) :
    (∃ n h' s' st, RunProgram u n h h' ∧ I s' ∧ prog[s'.pos]? = some st ∧ st.instr = .fin ∧
        Ready h' ({ s' with pos := s'.pos + 1 }.machine prog errs) ∧ Spared prog s s') ∨
      ((∀ n h', ¬ RunProgram u n h h') ∧
        ∀ k, ∃ h' s', RunInstructions u k h h' ∧ I s' ∧ Ready h' (s'.machine prog errs) ∧ Spared prog s s') := by
  have run : ∀ k (s : Src), I s → (∃ s', s.run prog k = some s' ∧ I s') ∨
      ∃ j s' st, s.run prog j = some s' ∧ I s' ∧ prog[s'.pos]? = some st ∧ st.instr = .fin := by
    intro k
    induction k with
    | zero => exact fun s hs => .inl ⟨s, rfl, hs⟩
    | succ k ih =>
      intro s hs
      have hlt := hpos s hs
      have hst := List.getElem?_eq_getElem hlt
      by_cases nf : prog[s.pos].instr = .fin
      · exact .inr ⟨0, s, _, rfl, hs, hst, nf⟩
      · obtain ⟨t, h1, h2⟩ := hstep s _ hs hst nf
        rcases ih t h2 with ⟨s', e, l⟩ | ⟨j, s', st', e, a⟩
        · exact .inl ⟨s', by rw [Src.run, h1]; exact e, l⟩
        · exact .inr ⟨j + 1, s', st', by rw [Src.run, h1]; exact e, a⟩
  by_cases hf : ∃ k s' st, s.run prog k = some s' ∧ I s' ∧ prog[s'.pos]? = some st ∧ st.instr = .fin
  · obtain ⟨k, s', st, hk, hI, hst, hi⟩ := hf
    obtain ⟨n, h', b1, b2⟩ := o.ends k s' st hk hst hi
    exact .inl ⟨n, h', s', st, b1, hI, hst, hi, b2, run_spared hk⟩
  · have go : ∀ k, ∃ s', s.run prog k = some s' ∧ I s' := fun k => by
      rcases run k s h0 with h | ⟨j, s', st, h⟩
      · exact h
      · exact absurd ⟨j, s', st, h⟩ hf
    refine .inr ⟨o.never fun k hk => ?_, fun k => ?_⟩
    · obtain ⟨s', hk', -⟩ := go k
      rw [hk] at hk'
      cases hk'
    · obtain ⟨s', hk, hl⟩ := go k
      obtain ⟨h', b1, b2⟩ := o.instructions k s' hk
      exact ⟨h', s', b1, hl, b2, run_spared hk⟩

/-- Where the statements other than CALL, RET and IRET lead. -/
theorem step_next {prog : List Stmt} {s s' : Src} {st : Stmt} (h : s.step prog = some s')
    (hst : prog[s.pos]? = some st) (hc : st.instr ≠ .call) (hr : st.instr ≠ .ret) (hir : st.instr ≠ .iret) :
    (s'.pos = s.pos + 1 ∧ st.instr ≠ .jmp) ∨
      (st.arg.dest prog = some s'.pos ∧ (st.instr = .jmp ∨ st.instr = .beq ∨ st.instr = .bc)) := by
  unfold Src.step at h
  rw [hst, Option.bind_some] at h
  cases hi : st.instr <;> rw [hi] at h <;> simp only at h
  case mov src dst =>
    obtain ⟨x, -, rfl⟩ := Option.map_eq_some_iff.1 h
    exact .inl ⟨(put_spares _ _ _).2.2.2.2.1, nofun⟩
  case alu op src =>
    obtain ⟨x, -, rfl⟩ := Option.map_eq_some_iff.1 h
    exact .inl ⟨(compute_same _ _ _).2.2.1, nofun⟩
  case inc dst => cases h; exact .inl ⟨(put_spares _ _ _).2.2.2.2.1, nofun⟩
  case sta =>
    obtain ⟨a, -, h⟩ := Option.bind_eq_some_iff.1 h
    obtain ⟨-, rfl⟩ := Src.write_inv h
    exact .inl ⟨rfl, nofun⟩
  case stax => obtain ⟨-, rfl⟩ := Src.write_inv h; exact .inl ⟨rfl, nofun⟩
  case push => obtain ⟨-, rfl⟩ := Src.push_inv h; exact .inl ⟨rfl, nofun⟩
  case call => exact absurd hi hc
  case ret => exact absurd hi hr
  case iret => exact absurd hi hir
  case pop =>
    obtain ⟨x, h2, rfl⟩ := Option.map_eq_some_iff.1 h
    unfold Src.pop at h2
    split at h2 <;> cases h2
    exact .inl ⟨rfl, nofun⟩
  case beq =>
    split at h
    · obtain ⟨i, hd, rfl⟩ := Option.map_eq_some_iff.1 h; exact .inr ⟨hd, by simp⟩
    · cases h; exact .inl ⟨rfl, nofun⟩
  case bc =>
    split at h
    · obtain ⟨i, hd, rfl⟩ := Option.map_eq_some_iff.1 h; exact .inr ⟨hd, by simp⟩
    · cases h; exact .inl ⟨rfl, nofun⟩
  case jmp => obtain ⟨i, hd, rfl⟩ := Option.map_eq_some_iff.1 h; exact .inr ⟨hd, by simp⟩
  case inisp => obtain ⟨i, -, rfl⟩ := Option.map_eq_some_iff.1 h; exact .inl ⟨rfl, nofun⟩
  case lda => obtain ⟨i, -, rfl⟩ := Option.map_eq_some_iff.1 h; exact .inl ⟨rfl, nofun⟩
  case fin => cases h
  all_goals cases h; exact .inl ⟨rfl, nofun⟩

/-- What the statements other than CALL, RET and IRET do to the stack pointer. -/
theorem step_sp {prog : List Stmt} {s s' : Src} {st : Stmt} (h : s.step prog = some s')
    (hst : prog[s.pos]? = some st) (hc : st.instr ≠ .call) (hr : st.instr ≠ .ret) (hir : st.instr ≠ .iret) :
    (st.instr = .push ∧ s'.sp = s.sp - 1) ∨ (st.instr = .pop ∧ s'.sp = s.sp + 1) ∨
      (st.instr = .inisp ∧ st.arg.addr prog = some s'.sp) ∨ (Instr.setsSp st.instr = false ∧ s'.sp = s.sp) := by
  unfold Src.step at h
  rw [hst, Option.bind_some] at h
  cases hi : st.instr <;> rw [hi] at h <;> simp only at h
  case mov src dst =>
    obtain ⟨x, -, rfl⟩ := Option.map_eq_some_iff.1 h
    exact .inr (.inr (.inr ⟨rfl, (put_spares _ _ _).2.2.1⟩))
  case alu op src =>
    obtain ⟨x, -, rfl⟩ := Option.map_eq_some_iff.1 h
    exact .inr (.inr (.inr ⟨rfl, (compute_same _ _ _).1⟩))
  case inc dst => cases h; exact .inr (.inr (.inr ⟨rfl, (put_spares _ _ _).2.2.1⟩))
  case sta =>
    obtain ⟨a, -, h⟩ := Option.bind_eq_some_iff.1 h
    obtain ⟨-, rfl⟩ := Src.write_inv h
    exact .inr (.inr (.inr ⟨rfl, rfl⟩))
  case stax => obtain ⟨-, rfl⟩ := Src.write_inv h; exact .inr (.inr (.inr ⟨rfl, rfl⟩))
  case push => obtain ⟨-, rfl⟩ := Src.push_inv h; exact .inl ⟨rfl, rfl⟩
  case call => exact absurd hi hc
  case ret => exact absurd hi hr
  case iret => exact absurd hi hir
  case pop =>
    obtain ⟨x, h2, rfl⟩ := Option.map_eq_some_iff.1 h
    unfold Src.pop at h2
    split at h2 <;> cases h2
    exact .inr (.inl ⟨rfl, rfl⟩)
  case beq =>
    split at h
    · obtain ⟨i, hd, rfl⟩ := Option.map_eq_some_iff.1 h; exact .inr (.inr (.inr ⟨rfl, rfl⟩))
    · cases h; exact .inr (.inr (.inr ⟨rfl, rfl⟩))
  case bc =>
    split at h
    · obtain ⟨i, hd, rfl⟩ := Option.map_eq_some_iff.1 h; exact .inr (.inr (.inr ⟨rfl, rfl⟩))
    · cases h; exact .inr (.inr (.inr ⟨rfl, rfl⟩))
  case jmp => obtain ⟨i, hd, rfl⟩ := Option.map_eq_some_iff.1 h; exact .inr (.inr (.inr ⟨rfl, rfl⟩))
  case inisp => obtain ⟨i, hd, rfl⟩ := Option.map_eq_some_iff.1 h; exact .inr (.inr (.inl ⟨rfl, hd⟩))
  case lda => obtain ⟨i, -, rfl⟩ := Option.map_eq_some_iff.1 h; exact .inr (.inr (.inr ⟨rfl, rfl⟩))
  case fin => cases h
  all_goals cases h; exact .inr (.inr (.inr ⟨rfl, rfl⟩))

/-! ## Depths -/

/-- The depths `dep` fit the statement `st` with the number `i`, when the stack begins at `a`: `dep i` bytes are on
the stack before it. -/
def DepthStmt (prog : List Stmt) (a : Nat) (dep : Nat → Nat) (i : Nat) (st : Stmt) : Prop :=
  match st.instr with
  | .stax | .call | .ret | .iret | .inisp => False
  | .push => dep (i + 1) = dep i + 1 ∧ sizeOf prog + dep i + 1 ≤ a
  | .pop => dep i = dep (i + 1) + 1
  | .sta => dep (i + 1) = dep i ∧ ∀ b, st.arg.addr prog = some b → sizeOf prog ≤ b.toNat
  | .jmp => (∀ n, st.arg = .num n → ∃ j < prog.length, place prog j = n) ∧
      ∀ j, st.arg.dest prog = some j → j = 0 ∨ dep j = dep i
  | .beq | .bc => dep (i + 1) = dep i ∧ (∀ n, st.arg = .num n → ∃ j < prog.length, place prog j = n) ∧
      ∀ j, st.arg.dest prog = some j → j = 0 ∨ dep j = dep i
  | .fin => True
  | _ => dep (i + 1) = dep i

/-- A program that begins with INISP `a` and whose statements have depths; at the end a FIN or a JMP. -/
structure DepthProg (prog : List Stmt) (a : Nat) (dep : Nat → Nat) : Prop where
  first : ∃ st, prog[0]? = some st ∧ st.instr = .inisp ∧ ∀ b, st.arg.addr prog = some b → b.toNat = a
  zero : dep 1 = 0
  stmts : ∀ i st, 0 < i → prog[i]? = some st → DepthStmt prog a dep i st
  last : ∃ l st, prog = l ++ [st] ∧ (st.instr = .fin ∨ st.instr = .jmp)

/-- The stack pointer is where the depth says. -/
def AtDepth (prog : List Stmt) (a : Nat) (dep : Nat → Nat) (s : Src) : Prop :=
  s.pos < prog.length ∧ (s.pos = 0 ∨ s.sp.toNat + dep s.pos = a)

theorem depth_step {text : Str} {prog : List Stmt} (hs : Source text prog) (hv : Valid prog)
    (ha : LabelsAreAddresses prog) {a : Nat} {dep : Nat → Nat} (hp : DepthProg prog a dep) {s : Src} {st : Stmt}
    (hI : AtDepth prog a dep s) (hst : prog[s.pos]? = some st) (nf : st.instr ≠ .fin) :
    ∃ s', s.step prog = some s' ∧ AtDepth prog a dep s' := by
  obtain ⟨hpos, hd⟩ := hI
  have alast : ∃ b : BitVec 16, b.toNat = a := by
    obtain ⟨st0, h0, hi0, hb⟩ := hp.first
    obtain ⟨t, ht⟩ := C75_goes_on text prog hs hv ha { s with pos := 0 } st0 h0 (by
      unfold Src.Clear; rw [hi0]; trivial)
    rcases step_sp ht h0 (by rw [hi0]; nofun) (by rw [hi0]; nofun) (by rw [hi0]; nofun) with
      ⟨e, -⟩ | ⟨e, -⟩ | ⟨-, e⟩ | ⟨e, -⟩
    · rw [hi0] at e; cases e
    · rw [hi0] at e; cases e
    · exact ⟨_, hb _ e⟩
    · rw [hi0] at e; cases e
  have hlt : a < 65536 := by obtain ⟨b, rfl⟩ := alast; exact b.isLt
  have inside : ∀ s', s.step prog = some s' → s'.pos < prog.length := by
    intro s' h
    rcases step_pos h hst with ⟨e, nj⟩ | h'
    · obtain ⟨l, la, el, hl⟩ := hp.last
      have hlt := hpos
      rw [e]
      rw [el, List.length_append, List.length_singleton] at hlt ⊢
      rcases Nat.lt_or_ge s.pos l.length with h1 | h1
      · omega
      · have e1 : s.pos = l.length := by omega
        rw [el, e1, List.getElem?_concat_length] at hst
        cases hst
        rcases hl with hl | hl
        · exact absurd hl nf
        · exact absurd hl nj
    · exact h'
  by_cases hz : s.pos = 0
  · obtain ⟨st0, h0, hi0, hb⟩ := hp.first
    rw [hz, h0] at hst
    cases hst
    obtain ⟨s', h⟩ := C75_goes_on text prog hs hv ha s st (by rw [hz]; exact h0) (by
      unfold Src.Clear; rw [hi0]; trivial)
    refine ⟨s', h, inside s' h, .inr ?_⟩
    rw [← hz] at h0
    rcases step_next h h0 (by rw [hi0]; nofun) (by rw [hi0]; nofun) (by rw [hi0]; nofun) with ⟨e, -⟩ | ⟨-, e⟩
    · rw [e, hz, hp.zero]
      rcases step_sp h h0 (by rw [hi0]; nofun) (by rw [hi0]; nofun) (by rw [hi0]; nofun) with
        ⟨e, -⟩ | ⟨e, -⟩ | ⟨-, e⟩ | ⟨e, -⟩
      · rw [hi0] at e; cases e
      · rw [hi0] at e; cases e
      · exact hb _ e
      · rw [hi0] at e; cases e
    · rw [hi0] at e
      rcases e with e | e | e <;> cases e
  · have hd := hd.resolve_left hz
    have hS := hp.stmts s.pos st (by omega) hst
    have hcl : s.Clear prog st := by
      unfold DepthStmt at hS
      unfold Src.Clear
      cases hi : st.instr <;> simp only [hi] at hS ⊢
      case fin => exact nf hi
      case push => omega
      case pop => omega
      case sta => exact hS.2
      case jmp => exact hS.1
      case beq => exact fun _ => hS.2.1
      case bc => exact fun _ => hS.2.1
    obtain ⟨s', h⟩ := C75_goes_on text prog hs hv ha s st hst hcl
    refine ⟨s', h, inside s' h, ?_⟩
    have n1 : st.instr ≠ .call := by intro e; unfold DepthStmt at hS; rw [e] at hS; exact hS
    have n2 : st.instr ≠ .ret := by intro e; unfold DepthStmt at hS; rw [e] at hS; exact hS
    have n3 : st.instr ≠ .iret := by intro e; unfold DepthStmt at hS; rw [e] at hS; exact hS
    rcases step_sp h hst n1 n2 n3 with ⟨e, e2⟩ | ⟨e, e2⟩ | ⟨e, -⟩ | ⟨e, e2⟩
    · unfold DepthStmt at hS
      rw [e] at hS
      simp only at hS
      rcases step_next h hst n1 n2 n3 with ⟨e1, -⟩ | ⟨-, e1⟩
      · right
        have h1 : (1 : BitVec 16).toNat = 1 := rfl
        rw [e1, e2, BitVec.toNat_sub_of_le (by rw [BitVec.le_def]; omega), h1]
        omega
      · rw [e] at e1
        rcases e1 with e1 | e1 | e1 <;> cases e1
    · unfold DepthStmt at hS
      rw [e] at hS
      simp only at hS
      rcases step_next h hst n1 n2 n3 with ⟨e1, -⟩ | ⟨-, e1⟩
      · right
        have h1 : (1 : BitVec 16).toNat = 1 := rfl
        rw [e1, e2, BitVec.toNat_add, h1]
        omega
      · rw [e] at e1
        rcases e1 with e1 | e1 | e1 <;> cases e1
    · unfold DepthStmt at hS
      rw [e] at hS
      exact hS.elim
    · rcases step_next h hst n1 n2 n3 with ⟨e1, nj⟩ | ⟨e1, e3⟩
      · right
        rw [e1, e2]
        have : dep (s.pos + 1) = dep s.pos := by
          unfold DepthStmt at hS
          cases hi : st.instr <;> simp only [hi] at hS <;> first
            | exact hS
            | exact hS.1
            | exact hS.elim
            | exact absurd hi nj
            | exact absurd hi nf
            | (rw [hi] at e; cases e)
        omega
      · have : s'.pos = 0 ∨ dep s'.pos = dep s.pos := by
          unfold DepthStmt at hS
          rcases e3 with e3 | e3 | e3 <;> rw [e3] at hS <;> simp only at hS
          · exact hS.2 _ e1
          · exact hS.2.2 _ e1
          · exact hS.2.2 _ e1
        rcases this with h0 | h0
        · exact .inl h0
        · right; rw [e2, h0]; exact hd

/-- **C106.** A program that begins with INISP and whose PUSHes and POPs fit to depths of its statements cannot go
wrong. After it is typed, saved and PC set to its beginning, on any machine that a host can have brought about, either
run-program ends at a FIN of the program, or any number of instructions can be carried out and run-program does not
end. Whenever a statement other than the first is reached, SP is as far below its beginning as the depth of this
statement says, no error is reported, and the program in memory is as it was saved. -/
theorem C106_depth (text : Str) (prog : List Stmt) (hs : Source text prog) (hv : Valid prog)
    (ha : LabelsAreAddresses prog) (a : Nat) (dep : Nat → Nat) (hp : DepthProg prog a dep)
    (hsz : sizeOf prog < 65536) (actions : List Action)
    (hcode : ∀ a ∈ actions, ∃ t, a = .code t) (ph : Phase) (h : H) (p : P) (r : Reach ph h) (on : ph.on = true)
    (ui : ph.ui = true) (s : Shows h p) :
    ∃ e vs h1 bss m, Editor.start.acts (actions ++ [.code text]) = some e ∧ e.canSave = true ∧
      execAll (e.saveCalls ++ e.pcCalls) h = some (vs, h1) ∧ Code prog bss ∧ Written p.mem 0 bss.flatten m ∧
      ∀ u, (∃ n h' s' st, RunProgram u n h1 h' ∧ AtDepth prog a dep s' ∧ prog[s'.pos]? = some st ∧
            st.instr = .fin ∧ Ready h' ({ s' with pos := s'.pos + 1 }.machine prog p.errs) ∧
            Spared prog (.start p m) s') ∨
          ((∀ n h', ¬ RunProgram u n h1 h') ∧
            ∀ k, ∃ h' s', RunInstructions u k h1 h' ∧ AtDepth prog a dep s' ∧
              Ready h' (s'.machine prog p.errs) ∧ Spared prog (.start p m) s') := by
  have hne : prog ≠ [] := by
    obtain ⟨l, st, e, -⟩ := hp.last
    rw [e]; simp
  obtain ⟨e, vs, h1, bss, m, a1, a2, a3, a4, a5, o⟩ :=
    C75_saved text prog hs hne hv ha hsz actions hcode ph h p r on ui s
  refine ⟨e, vs, h1, bss, m, a1, a2, a3, a4, a5, fun u => ?_⟩
  exact kept_on (o u) (AtDepth prog a dep) (fun s h => h.1)
    (fun s st hI hst nf => depth_step hs hv ha hp hI hst nf) ⟨List.length_pos_iff.2 hne, .inl rfl⟩

/-- A loop that keeps AC on the stack: `INISP 2000`, `T1 PUSH`, `CMA`, `POP`, `INC AC`, `BEQ T2`, `JMP T1`, `T2 FIN`. -/
def keepingProg : List Stmt :=
  [⟨none, .inisp, .num 0x2000⟩, ⟨some "T1".toList, .push, .none⟩, ⟨none, .cma, .none⟩, ⟨none, .pop, .none⟩,
    ⟨none, .inc .ac, .none⟩, ⟨none, .beq, .label "T2".toList⟩, ⟨none, .jmp, .label "T1".toList⟩,
    ⟨some "T2".toList, .fin, .none⟩]
def keepingDepth (i : Nat) : Nat := if i = 2 ∨ i = 3 then 1 else 0
example : DepthProg keepingProg 0x2000 keepingDepth ∧ Valid keepingProg ∧ LabelsAreAddresses keepingProg ∧
    sizeOf keepingProg < 65536 ∧
    ((Src.start ⟨0xFE, 2, 3, 4, 5, 6, 0, true, true, fun _ => 9, []⟩ fun _ => 9).run keepingProg 12).map
      (fun s => (s.pos, s.sp, s.ac, s.mem 0x1FFF)) = some (7, 0x2000, 0, 0xFF) := by
  refine ⟨⟨⟨_, rfl, rfl, fun b h => by cases h; rfl⟩, rfl, ?_, keepingProg.take 7, _, rfl, .inl rfl⟩,
    by decide +kernel, by decide +kernel, by decide, by decide +kernel⟩
  intro i st h0 h
  have hi : i < 8 := (List.getElem?_eq_some_iff.1 h).1
  have : i = 1 ∨ i = 2 ∨ i = 3 ∨ i = 4 ∨ i = 5 ∨ i = 6 ∨ i = 7 := by omega
  rcases this with rfl | rfl | rfl | rfl | rfl | rfl | rfl <;> cases h
  · exact ⟨rfl, by decide⟩
  · rfl
  · rfl
  · rfl
  · exact ⟨rfl, nofun, fun j h => .inr (by rw [show j = 7 by cases h; rfl]; rfl)⟩
  · exact ⟨nofun, fun j h => .inr (by rw [show j = 1 by cases h; rfl]; rfl)⟩
  · trivial

/-- **C106.** The depths are needed: with a POP too many the stack passes the end of memory. -/
theorem C106_depth_wrong : ¬ ∀ prog : List Stmt, (∃ st, prog[0]? = some st ∧ st.instr = .inisp) →
    (∃ l st, prog = l ++ [st] ∧ (st.instr = .fin ∨ st.instr = .jmp)) →
    (∀ st ∈ prog, st.instr = .inisp ∨ st.instr = .push ∨ st.instr = .pop ∨ PlainStmt prog st) → ∀ s : Src,
    s.pos = 0 → ∀ k, s.run prog k ≠ none ∨
      ∃ j s' st, s.run prog j = some s' ∧ prog[s'.pos]? = some st ∧ st.instr = .fin := by
  intro h
  rcases h [⟨none, .inisp, .num 0xFFFF⟩, ⟨some "T1".toList, .pop, .none⟩, ⟨none, .jmp, .label "T1".toList⟩]
    ⟨_, rfl, rfl⟩ ⟨[_, _], _, rfl, .inr rfl⟩ (by
      intro st h
      simp only [List.mem_cons, List.not_mem_nil, or_false] at h
      rcases h with rfl | rfl | rfl
      · exact .inl rfl
      · exact .inr (.inr (.inl rfl))
      · exact .inr (.inr (.inr nofun)))
    ⟨0, 0, 0, 0, 0, 0, 0, false, false, fun _ => 0⟩ rfl 2 with h | ⟨j, s', st, -, h, hf⟩
  · exact h (by rfl)
  · have := List.mem_of_getElem? h
    simp only [List.mem_cons, List.not_mem_nil, or_false] at this
    rcases this with rfl | rfl | rfl <;> cases hf

end Mpp.Front
