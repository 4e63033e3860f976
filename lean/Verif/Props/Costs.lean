import Verif.Props.Calls
import Verif.Props.Every
import Verif.Props.Time
/-!
# C107: programs that end

`RunButtons.tsx` runs a program until it reaches FIN, and the browser waits. Here is what in the text of a program is
enough for it to end, and after how many instructions at most: jumps that lead forwards; costs written beside the
statements, with functions; or a number that each statement makes smaller.
-/
namespace Mpp.Front

/-- What a machine that obeys a program does when the program ends: after at most `m` instructions it is before a FIN,
and run-program ends, after three to nine clock cycles for each of these instructions and two for the FIN. -/
def EndsIn (u : Bool) (prog : List Stmt) (errs : List Err) (h : H) (s : Src) (J : Src → Prop) (m : Nat) : Prop :=
  ∃ k h1 n h2 s' st, k ≤ m ∧ RunInstructions u k h h1 ∧ Ready h1 (s'.machine prog errs) ∧ J s' ∧
    prog[s'.pos]? = some st ∧ st.instr = .fin ∧ RunProgram u n h h2 ∧ 3 * k + 2 ≤ n ∧ n ≤ 9 * k + 2 ∧
    Ready h2 ({ s' with pos := s'.pos + 1 }.machine prog errs) ∧ Spared prog s s'

theorem Src.cycles_bounds {prog : List Stmt} {k : Nat} {s s' : Src} (h : s.run prog k = some s') :
    3 * k ≤ s.cycles prog k ∧ s.cycles prog k ≤ 9 * k := by
  induction k generalizing s with
  | zero => exact ⟨Nat.zero_le _, Nat.le_refl _⟩
  | succ k ih =>
    obtain ⟨t, h1, h2⟩ := Option.bind_eq_some_iff.1 h
    obtain ⟨st, hst, hx⟩ := Option.bind_eq_some_iff.1 (show prog[s.pos]?.bind _ = some t from h1)
    have hb := ih h2
    have hc : st.instr ≠ .fin := fun e => by rw [e] at hx; cases hx
    simp only [Src.cycles, hst, h1]
    have : 3 ≤ clockCycles s.fc s.fz st.instr ∧ clockCycles s.fc s.fz st.instr ≤ 9 := by
      unfold clockCycles
      cases hi : st.instr <;> simp only <;> first
        | exact absurd hi hc
        | decide
        | (split <;> decide)
    omega

/-- C75 and C91 about one and the same machine. -/
theorem saved_timed (text : Str) (prog : List Stmt) (hs : Source text prog) (hne : prog ≠ []) (hv : Valid prog)
    (ha : LabelsAreAddresses prog) (hsz : sizeOf prog < 65536) (actions : List Action)
    (hcode : ∀ a ∈ actions, ∃ t, a = .code t) (ph : Phase) (h : H) (p : P) (r : Reach ph h) (on : ph.on = true)
    (ui : ph.ui = true) (s : Shows h p) :
    ∃ e vs h1 bss m, Editor.start.acts (actions ++ [.code text]) = some e ∧ e.canSave = true ∧
      execAll (e.saveCalls ++ e.pcCalls) h = some (vs, h1) ∧ Code prog bss ∧ Written p.mem 0 bss.flatten m ∧
      ∀ u, Obeys u prog p.errs h1 (.start p m) ∧
        ∀ k s' st, (Src.start p m).run prog k = some s' → prog[s'.pos]? = some st → st.instr = .fin →
          ∀ n h2, RunProgram u n h1 h2 → n = (Src.start p m).cycles prog k + 2 := by
  obtain ⟨e, vs, h1, bss, m, a1, a2, a3, a4, a5, o⟩ :=
    C75_saved text prog hs hne hv ha hsz actions hcode ph h p r on ui s
  refine ⟨e, vs, h1, bss, m, a1, a2, a3, a4, a5, fun u => ⟨o u, fun k s' st hk hst hi n h2 run => ?_⟩⟩
  obtain ⟨h0, b1, r0⟩ := (o u).instructions 0 _ rfl
  cases b1
  obtain ⟨h3, nf, r3⟩ := Src.timed a4 hsz a5.loaded r0 hk u
  have hm' := (Src.run_loaded a4 hsz p.errs (s := Src.start p m) a5.loaded hk).1
  have f := fetches a4 (p := s'.machine prog p.errs) hm' hst
  have hd : decode ((s'.machine prog p.errs).mem (s'.machine prog p.errs).pc) = some .fin := by
    rw [← hi]; exact f.op
  obtain ⟨h4, run', _⟩ := C18_stops u h1 h3 _ _ nf r3 (decode_code _ _ hd)
  exact (C18_deterministic u h1 _ _ _ _ run run').1

theorem ends_by {prog : List Stmt} {errs : List Err} {u : Bool} {h : H} {s : Src} (o : Obeys u prog errs h s ∧
      ∀ k s' st, s.run prog k = some s' → prog[s'.pos]? = some st → st.instr = .fin →
        ∀ n h2, RunProgram u n h h2 → n = s.cycles prog k + 2)
    (I : Nat → Src → Prop) (J : Src → Prop) (hpos : ∀ m s, I m s → s.pos < prog.length ∧ J s)
    (hstep : ∀ m s st, I m s → prog[s.pos]? = some st → st.instr ≠ .fin →
      ∃ s' m', s.step prog = some s' ∧ m' < m ∧ I m' s') {m : Nat} (h0 : I m s) :
    EndsIn u prog errs h s J m := by
  have run : ∀ m (s : Src), I m s → ∃ k s' st, k ≤ m ∧ s.run prog k = some s' ∧ J s' ∧
      prog[s'.pos]? = some st ∧ st.instr = .fin := by
    intro m
    induction m using Nat.strongRecOn with
    | ind m ih =>
      intro s hs
      obtain ⟨hlt, hJ⟩ := hpos m s hs
      have hst := List.getElem?_eq_getElem hlt
      by_cases nf : prog[s.pos].instr = .fin
      · exact ⟨0, s, _, Nat.zero_le _, rfl, hJ, hst, nf⟩
      · obtain ⟨t, m', h1, h2, h3⟩ := hstep m s _ hs hst nf
        obtain ⟨k, s', st, a, b, c⟩ := ih m' h2 t h3
        exact ⟨k + 1, s', st, by omega, by rw [Src.run, h1]; exact b, c⟩
  obtain ⟨k, s', st, a, b, c, d, e⟩ := run m s h0
  obtain ⟨h1, b1, b2⟩ := o.1.instructions k s' b
  obtain ⟨n, h2, b3, b4⟩ := o.1.ends k s' st b d e
  have hn := o.2 k s' st b d e n h2 b3
  have hb := Src.cycles_bounds b
  exact ⟨k, h1, n, h2, s', st, a, b1, b2, c, d, e, b3, by omega, by omega, b4, run_spared b⟩

/-- **C107.** A number that every statement makes smaller. If `J` holds at the beginning and before each statement
that is reached, and no statement other than FIN makes `μ` anything but smaller, the program ends: after at most as
many instructions as `μ` was at the beginning it is before a FIN, `J` holds there, and run-program ends. -/
theorem C107_ranked (text : Str) (prog : List Stmt) (hs : Source text prog) (hne : prog ≠ []) (hv : Valid prog)
    (ha : LabelsAreAddresses prog) (hsz : sizeOf prog < 65536) (J : Src → Prop) (μ : Src → Nat)
    (hpos : ∀ s, J s → s.pos < prog.length)
    (hstep : ∀ s st, J s → prog[s.pos]? = some st → st.instr ≠ .fin →
      ∃ s', s.step prog = some s' ∧ J s' ∧ μ s' < μ s)
    (actions : List Action) (hcode : ∀ a ∈ actions, ∃ t, a = .code t) (ph : Phase) (h : H) (p : P) (r : Reach ph h)
    (on : ph.on = true) (ui : ph.ui = true) (s : Shows h p) (h0 : ∀ m, J (.start p m)) :
    ∃ e vs h1 bss m, Editor.start.acts (actions ++ [.code text]) = some e ∧ e.canSave = true ∧
      execAll (e.saveCalls ++ e.pcCalls) h = some (vs, h1) ∧ Code prog bss ∧ Written p.mem 0 bss.flatten m ∧
      ∀ u, EndsIn u prog p.errs h1 (.start p m) J (μ (.start p m)) := by
  obtain ⟨e, vs, h1, bss, m, a1, a2, a3, a4, a5, o⟩ :=
    saved_timed text prog hs hne hv ha hsz actions hcode ph h p r on ui s
  refine ⟨e, vs, h1, bss, m, a1, a2, a3, a4, a5, fun u => ?_⟩
  refine ends_by (o u) (fun n s => J s ∧ μ s = n) J (fun n s h => ⟨hpos s h.1, h.1⟩) ?_ ⟨h0 m, rfl⟩
  intro n s st ⟨hJ, hn⟩ hst nf
  obtain ⟨s', c1, c2, c3⟩ := hstep s st hJ hst nf
  exact ⟨s', μ s', c1, hn ▸ c3, c2, rfl⟩

/-- All jumps lead forwards. -/
def Forward (prog : List Stmt) : Prop :=
  ∀ i (st : Stmt) j, prog[i]? = some st → st.instr = .jmp ∨ st.instr = .beq ∨ st.instr = .bc →
    st.arg.dest prog = some j → i < j

/-- **C107.** A plain program whose jumps lead forwards ends after fewer instructions than it has statements. -/
theorem C107_forward (text : Str) (prog : List Stmt) (hs : Source text prog) (hv : Valid prog)
    (ha : LabelsAreAddresses prog) (hp : PlainProg prog) (hf : Forward prog) (hsz : sizeOf prog < 65536)
    (actions : List Action) (hcode : ∀ a ∈ actions, ∃ t, a = .code t) (ph : Phase) (h : H) (p : P) (r : Reach ph h)
    (on : ph.on = true) (ui : ph.ui = true) (s : Shows h p) :
    ∃ e vs h1 bss m, Editor.start.acts (actions ++ [.code text]) = some e ∧ e.canSave = true ∧
      execAll (e.saveCalls ++ e.pcCalls) h = some (vs, h1) ∧ Code prog bss ∧ Written p.mem 0 bss.flatten m ∧
      ∀ u, EndsIn u prog p.errs h1 (.start p m) (fun s => s.pos < prog.length) (prog.length - 1) := by
  have hne : prog ≠ [] := by
    obtain ⟨l, st, e, -⟩ := hp.last
    rw [e]; simp
  obtain ⟨e, vs, h1, bss, m, a1, a2, a3, a4, a5, o⟩ :=
    saved_timed text prog hs hne hv ha hsz actions hcode ph h p r on ui s
  refine ⟨e, vs, h1, bss, m, a1, a2, a3, a4, a5, fun u => ?_⟩
  refine ends_by (o u) (fun n s => s.pos < prog.length ∧ n = prog.length - 1 - s.pos) _ (fun n s h => ⟨h.1, h.1⟩) ?_
    ⟨List.length_pos_iff.2 hne, rfl⟩
  intro n s st ⟨hl, hn⟩ hst nf
  obtain ⟨s', c1, c2⟩ := plain_step hs hv ha hp hst nf
  refine ⟨s', _, c1, ?_, c2, rfl⟩
  have hS := hp.stmts st (List.mem_of_getElem? hst)
  have n1 : st.instr ≠ .call := by intro e; unfold PlainStmt at hS; rw [e] at hS; exact hS
  have n2 : st.instr ≠ .ret := by intro e; unfold PlainStmt at hS; rw [e] at hS; exact hS
  have n3 : st.instr ≠ .iret := by intro e; unfold PlainStmt at hS; rw [e] at hS; exact hS
  rcases step_next c1 hst n1 n2 n3 with ⟨e1, -⟩ | ⟨e1, e2⟩
  · omega
  · have := hf _ st _ hst e2 e1
    omega

/-- The statement `st` with the number `i` costs one instruction more than what it leads to; a CALL costs in addition
what the function costs until it returns. -/
def CostStmt (prog : List Stmt) (cost : Nat → Nat) (i : Nat) (st : Stmt) : Prop :=
  match st.instr with
  | .fin => True
  | .ret => 0 < cost i
  | .call => ∀ j, st.arg.dest prog = some j → cost j + cost (i + 1) < cost i
  | .jmp => ∀ j, st.arg.dest prog = some j → cost j < cost i
  | .beq | .bc => cost (i + 1) < cost i ∧ ∀ j, st.arg.dest prog = some j → cost j < cost i
  | _ => cost (i + 1) < cost i

/-- **C107.** A program with functions (C106) ends if costs can be written beside its statements, after at most as many
instructions as its first statement costs. -/
theorem C107_costs (text : Str) (prog : List Stmt) (hs : Source text prog) (hv : Valid prog)
    (ha : LabelsAreAddresses prog) (N : Nest) (hp : NestProg prog N) (cost : Nat → Nat)
    (hc : ∀ i st, prog[i]? = some st → CostStmt prog cost i st) (hsz : sizeOf prog < 65536)
    (actions : List Action) (hcode : ∀ a ∈ actions, ∃ t, a = .code t) (ph : Phase) (h : H) (p : P) (r : Reach ph h)
    (on : ph.on = true) (ui : ph.ui = true) (s : Shows h p) :
    ∃ e vs h1 bss m, Editor.start.acts (actions ++ [.code text]) = some e ∧ e.canSave = true ∧
      execAll (e.saveCalls ++ e.pcCalls) h = some (vs, h1) ∧ Code prog bss ∧ Written p.mem 0 bss.flatten m ∧
      ∀ u, EndsIn u prog p.errs h1 (.start p m) (Nested prog N) (cost 0) := by
  have hne : prog ≠ [] := by
    obtain ⟨l, st, e, -⟩ := hp.last
    rw [e]; simp
  obtain ⟨e, vs, h1, bss, m, a1, a2, a3, a4, a5, o⟩ :=
    saved_timed text prog hs hne hv ha hsz actions hcode ph h p r on ui s
  refine ⟨e, vs, h1, bss, m, a1, a2, a3, a4, a5, fun u => ?_⟩
  refine ends_by (o u) (fun n s => ∃ rs, NestedBy prog N s rs ∧ n = cost s.pos + (rs.map cost).sum) _
    (fun n s h => ⟨h.elim fun _ h => h.1.1, nested_iff.2 (h.elim fun rs h => ⟨rs, h.1⟩)⟩) ?_
    ⟨[], ⟨List.length_pos_iff.2 hne, .inl ⟨rfl, rfl⟩⟩, by simp [Src.start]⟩
  intro n s st ⟨rs, hI, hn⟩ hst nf
  obtain ⟨s', rs', c1, c2, c3⟩ := nest_moves hs hv ha hsz hp hI hst nf
  refine ⟨s', _, c1, ?_, rs', c2, rfl⟩
  have hC := hc _ st hst
  unfold CostStmt at hC
  rcases c3 with ⟨hi, hd, rfl⟩ | ⟨hi, rfl⟩ | ⟨n1, n2, rfl, h3⟩
  · rw [hi] at hC
    have := hC _ hd
    rw [List.map_cons, List.sum_cons]
    omega
  · rw [hi] at hC
    simp only at hC
    rw [List.map_cons, List.sum_cons] at hn
    omega
  · have : cost s'.pos < cost s.pos := by
      rcases h3 with ⟨e1, nj⟩ | ⟨e1, e2⟩
      · rw [e1]
        cases hi : st.instr <;> simp only [hi] at hC <;> first
          | exact hC
          | exact hC.1
          | exact absurd hi nf
          | exact absurd hi nj
          | exact absurd hi n1
          | exact absurd hi n2
      · rcases e2 with e2 | e2 | e2 <;> rw [e2] at hC
        · exact hC _ e1
        · exact hC.2 _ e1
        · exact hC.2 _ e1
    omega

/-- What the statements of `callingProg` cost: eight instructions in all. -/
example : NestProg callingProg callingNest →
    ∀ i st, callingProg[i]? = some st → CostStmt callingProg ([8, 7, 6, 1, 0, 4, 3, 2, 1].getD · 0) i st := by
  intro _ i st h
  have hi : i < 9 := (List.getElem?_eq_some_iff.1 h).1
  have : i = 0 ∨ i = 1 ∨ i = 2 ∨ i = 3 ∨ i = 4 ∨ i = 5 ∨ i = 6 ∨ i = 7 ∨ i = 8 := by omega
  rcases this with rfl | rfl | rfl | rfl | rfl | rfl | rfl | rfl | rfl <;> cases h
  · show (7 : Nat) < 8; decide
  · show (6 : Nat) < 7; decide
  · exact fun j h => by rw [show j = 5 by cases h; rfl]; decide
  · show (0 : Nat) < 1; decide
  · trivial
  · show (3 : Nat) < 4; decide
  · show (2 : Nat) < 3; decide
  · show (1 : Nat) < 2; decide
  · show (0 : Nat) < 1; decide

/-- `INC AC`, `BEQ T1`, `INC AC`, `T1 FIN`. -/
def forwardProg : List Stmt :=
  [⟨none, .inc .ac, .none⟩, ⟨none, .beq, .label "T1".toList⟩, ⟨none, .inc .ac, .none⟩,
    ⟨some "T1".toList, .fin, .none⟩]
example : PlainProg forwardProg ∧ Forward forwardProg ∧ Valid forwardProg ∧ LabelsAreAddresses forwardProg := by
  refine ⟨⟨?_, forwardProg.take 3, _, rfl, .inl rfl⟩, ?_, by decide +kernel, by decide +kernel⟩
  · intro st h
    simp only [forwardProg, List.mem_cons, List.not_mem_nil, or_false] at h
    rcases h with rfl | rfl | rfl | rfl
    · trivial
    · exact nofun
    · trivial
    · trivial
  · intro i st j h hi hd
    have hi : i < 4 := (List.getElem?_eq_some_iff.1 h).1
    have : i = 0 ∨ i = 1 ∨ i = 2 ∨ i = 3 := by omega
    rcases this with rfl | rfl | rfl | rfl <;> cases h
    · cases hd
    · cases hd; decide
    · cases hd
    · cases hd

/-- A loop: `T1 INC AC`, `BEQ T2`, `JMP T1`, `T2 FIN`. -/
def upwardsProg : List Stmt :=
  [⟨some "T1".toList, .inc .ac, .none⟩, ⟨none, .beq, .label "T2".toList⟩, ⟨none, .jmp, .label "T1".toList⟩,
    ⟨some "T2".toList, .fin, .none⟩]
/-- What holds before its statements. -/
def Counting (s : Src) : Prop :=
  s.pos = 0 ∨ (s.pos = 1 ∧ s.fz = (s.ac == 0)) ∨ (s.pos = 2 ∧ s.ac ≠ 0) ∨ (s.pos = 3 ∧ s.ac = 0)
/-- What its statements make smaller. -/
def countLeft (s : Src) : Nat :=
  if s.pos = 3 then 0 else if s.pos = 1 ∧ s.ac = 0 then 1 else
    3 * (256 - s.ac.toNat) + (if s.pos = 1 then 2 else if s.pos = 2 then 1 else 0)

theorem counting_step (s : Src) (st : Stmt) (hJ : Counting s) (hst : upwardsProg[s.pos]? = some st)
    (nf : st.instr ≠ .fin) : ∃ s', s.step upwardsProg = some s' ∧ Counting s' ∧ countLeft s' < countLeft s := by
  have hlt := s.ac.isLt
  rcases hJ with h0 | ⟨h1, hz⟩ | ⟨h2, hz⟩ | ⟨h3, -⟩
  · rw [h0] at hst
    cases hst
    refine ⟨{ s with pos := 1, ac := s.ac + 1, fc := false, fz := s.ac + 1 == 0 }, by unfold Src.step; rw [h0]; rfl,
      .inr (.inl ⟨rfl, rfl⟩), ?_⟩
    unfold countLeft
    rw [h0]
    dsimp only
    by_cases hc : s.ac + 1 = 0
    · rw [if_neg (by omega), if_pos ⟨rfl, hc⟩, if_neg (by omega), if_neg (by omega)]; omega
    · have : (s.ac + 1).toNat = s.ac.toNat + 1 := by
        have := BitVec.toNat_ne.1 hc
        rw [BitVec.toNat_add] at this ⊢
        change (s.ac.toNat + 1) % 256 ≠ 0 at this
        change (s.ac.toNat + 1) % 256 = _
        omega
      have hn : ¬ (1 = 1 ∧ s.ac + 1 = 0) := fun h => hc h.2
      rw [if_neg (by decide : ¬ 1 = 3), if_neg hn, this, if_neg (by decide : ¬ 0 = 3),
        if_neg fun h : 0 = 1 ∧ s.ac = 0 => absurd h.1 (by decide)]
      simp
      omega
  · rw [h1] at hst
    cases hst
    by_cases hc : s.ac = 0
    · refine ⟨{ s with pos := 3 }, ?_, .inr (.inr (.inr ⟨rfl, hc⟩)), ?_⟩
      · unfold Src.step
        rw [h1]
        show (if s.fz = true then _ else _) = _
        rw [if_pos (by rw [hz, hc]; rfl)]
        rfl
      · unfold countLeft
        simp [h1, hc]
    · refine ⟨{ s with pos := 2 }, ?_, .inr (.inr (.inl ⟨rfl, hc⟩)), ?_⟩
      · unfold Src.step
        rw [h1]
        show (if s.fz = true then _ else _) = _
        rw [if_neg (by rw [hz]; simpa using hc)]
      · unfold countLeft
        rw [h1, if_neg (by decide : ¬ 1 = 3), if_neg fun h : 1 = 1 ∧ s.ac = 0 => hc h.2]
        simp
  · rw [h2] at hst
    cases hst
    refine ⟨{ s with pos := 0 }, ?_, .inl rfl, ?_⟩
    · unfold Src.step
      rw [h2]
      rfl
    · unfold countLeft
      simp [h2]
  · rw [h3] at hst
    cases hst
    exact absurd rfl nf

/-- **C107.** An instance of `C107_ranked`: a loop that counts AC up ends with AC 0, whatever the machine was, after at
most 768 instructions. -/
theorem C107_counting (text : Str) (hs : Source text upwardsProg) (actions : List Action)
    (hcode : ∀ a ∈ actions, ∃ t, a = .code t) (ph : Phase) (h : H) (p : P) (r : Reach ph h)
    (on : ph.on = true) (ui : ph.ui = true) (s : Shows h p) :
    ∃ e vs h1, Editor.start.acts (actions ++ [.code text]) = some e ∧ e.canSave = true ∧
      execAll (e.saveCalls ++ e.pcCalls) h = some (vs, h1) ∧
      ∀ u, ∃ k h2 n h3 p', k ≤ 768 ∧ RunInstructions u k h1 h2 ∧ RunProgram u n h1 h3 ∧ n ≤ 9 * k + 2 ∧ Ready h3 p' ∧
        p'.ac = 0 ∧ p'.b = p.b ∧ p'.c = p.c ∧ p'.d = p.d ∧ p'.e = p.e ∧ p'.sp = p.sp := by
  obtain ⟨e, vs, h1, bss, m, a1, a2, a3, -, -, o⟩ := C107_ranked text upwardsProg hs (by simp [upwardsProg])
    (by decide +kernel) (by decide +kernel) (by decide) Counting countLeft
    (fun s h => by
      show s.pos < 4
      rcases h with h | ⟨h, -⟩ | ⟨h, -⟩ | ⟨h, -⟩ <;> omega)
    counting_step actions hcode ph h p r on ui s (fun _ => .inl rfl)
  refine ⟨e, vs, h1, a1, a2, a3, fun u => ?_⟩
  obtain ⟨k, h2, n, h3, s', st, b1, b2, -, b3, b4, b5, b6, -, bn, b7, b8⟩ := o u
  have hp : s'.pos = 3 ∧ s'.ac = 0 := by
    rcases b3 with h | ⟨h, -⟩ | ⟨h, -⟩ | h
    · rw [h] at b4; cases b4; cases b5
    · rw [h] at b4; cases b4; cases b5
    · rw [h] at b4; cases b4; cases b5
    · exact h
  refine ⟨k, h2, n, h3, _, ?_, b2, b6, bn, b7, hp.2, ?_⟩
  · have : countLeft (.start p m) ≤ 768 := by
      unfold countLeft Src.start
      simp
      omega
    omega
  · refine ⟨b8.reg .b (by decide), b8.reg .c (by decide), b8.reg .d (by decide), b8.reg .e (by decide),
      b8.sp (by decide)⟩

/-- **C107.** Plain programs need not end. -/
theorem C107_ends_wrong : ¬ ∀ prog : List Stmt, PlainProg prog → ∀ s : Src, s.pos < prog.length →
    ∃ k s' st, s.run prog k = some s' ∧ prog[s'.pos]? = some st ∧ st.instr = .fin := by
  intro h
  obtain ⟨k, s', st, -, h1, h2⟩ := h [⟨some "T1".toList, .jmp, .label "T1".toList⟩]
    ⟨fun st hm => by rw [List.mem_singleton.1 hm]; exact nofun, [], _, rfl, .inr rfl⟩
    ⟨0, 0, 0, 0, 0, 0, 0, false, false, fun _ => 0⟩ (by decide)
  rw [List.mem_singleton.1 (List.mem_of_getElem? h1)] at h2
  cases h2

/-- There are texts of the programs of these examples. -/
example : (∃ text, Source text upwardsProg) ∧ (∃ text, Source text forwardProg) ∧ (∃ text, Source text callingProg) ∧
    ∃ text, Source text keepingProg := by
  have w : ∀ st : Stmt, (st.label.all fun l => decide (IsLabel l) && decide (∀ c ∈ l, WordChar c)) = true →
      (match st.arg with
        | .none => kindOf st.instr = .none
        | .num _ => kindOf st.instr ≠ .none
        | .label l => kindOf st.instr ≠ .none ∧ IsLabel l ∧ ∀ c ∈ l, WordChar c) → Writable st := by
    intro st h1 h2
    refine ⟨fun l hl => ?_, h2⟩
    rw [hl] at h1
    simpa using h1
  refine ⟨C92_text _ (by simp [upwardsProg]) ?_, C92_text _ (by simp [forwardProg]) ?_,
    C92_text _ (by simp [callingProg]) ?_, C92_text _ (by simp [keepingProg]) ?_⟩
  all_goals
    intro st h
    refine w st ?_ ?_
    · revert st; decide
    · simp only [upwardsProg, forwardProg, callingProg, keepingProg, List.mem_cons, List.not_mem_nil, or_false] at h
      rcases h with rfl | h <;> first | decide | skip
      all_goals (repeat' (rcases h with rfl | h)) <;> decide

end Mpp.Front
