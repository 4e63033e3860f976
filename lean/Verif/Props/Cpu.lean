import Verif.Undefined
import Verif.Props.Instructions
/-!
# Properties C11, C12, C16, C17, C18, C20, C31, C32, C33: the processor as a whole
-/
namespace Mpp

/-! ## Helpers -/

theorem At.cycleState {h : H} {m : M} (t : At h m) (u : Bool) (hu : u = true → h.ui = true) :
    ∃ h', exec (.runClockCycle u) h = some (0, h') ∧ At h' m.step ∧ h'.ui = h.ui ∧
      exec .getState h' = some (m.s.setWidth 32, h') := by
  obtain ⟨a, o, e1, e2⟩ := t
  obtain ⟨h', e, o', s, _⟩ := o.cycle u hu
  obtain ⟨c1, _, c3, c4, _⟩ := A.cycle_spec a o.settled o.ok.lt
  refine ⟨h', e, ⟨a.cycle, o', ?_, ?_⟩, s.2.1, ?_⟩
  · rw [c1, e1, e2]; rfl
  · rw [c4, e2]
    show A.nextOf m.s a.view.ri a.view.fc a.view.fz = _
    rw [e1]; rfl
  · rw [o'.getState, c3, e2]

/-! ## C11 -/

/-- **C11.** From every instruction boundary, whatever byte is there, the run-instruction loop ends
after at most nine clock cycles. -/
theorem C11_finishes (u : Bool) (ph : Phase) (h : H) (hr : Reach ph h) (on : ph.on = true)
    (hu : u = true → ph.ui = true) (hb : Boundary h) :
    ∃ n h', RunInstruction u n h h' ∧ 1 ≤ n ∧ n ≤ 9 := by
  obtain ⟨m, t⟩ := hr.at on
  have e := (t.boundary).1 hb
  obtain ⟨v, s⟩ := m
  obtain rfl : s = 0 := e
  obtain ⟨h', r, _, _⟩ := t.instruction u (fun e => hr.inv.ui.trans (hu e))
  exact ⟨_, h', r, Nat.succ_pos _, Nat.succ_le_succ (pathOf_len _ _ _)⟩

/-- A boundary with an undefined opcode, callback installed. -/
example : ∃ ph h, Reach ph h ∧ ph.on = true ∧ ph.ui = true ∧ Boundary h ∧ Cell h 7 0xC6 ∧
    RegIs h .pc 7 := by
  let p : P := ⟨5, 2, 3, 4, 5, 7, 6, true, false, fun _ => 0xC6, []⟩
  obtain ⟨h, ph, hr, on, ui, hb, hs⟩ := ready_all p rfl
  exact ⟨ph, h, hr, on, ui, hb, hs.mem 7, hs.pc⟩

/-! ## C12 -/

/-- **C12.** Every byte outside the operation table either always does exactly what one fixed
documented instruction does, or always changes nothing that a getter shows but PC (with its halves
PCH and PCL), RI and 2OP. -/
theorem C12_undefined (o : BitVec 8) (ho : decode o = none) :
    (∃ i : Instr, ∀ u h p, Ready h p → p.mem p.pc = o → Does u h (p.instr i)) ∨
    (∀ u h p, Ready h p → p.mem p.pc = o → ∃ n h', RunInstruction u n h h' ∧
      (∀ t : WType, t ∉ [WType.pc, .pch, .pcl, .ri, .op2] → ∀ x, RegIs h t x → RegIs h' t x) ∧
      (∀ i x, Cell h i x → Cell h' i x) ∧ (Ready h' p.next ∨ Ready h' p.next.next)) := by
  cases hu : undefinedOp o with
  | alias i =>
    refine .inl ⟨i, fun u h p hr hp => ?_⟩
    obtain ⟨v, t, rfl⟩ := hr.at
    obtain ⟨h', e1, _, e3⟩ := hr.run t u
    have hp' : v.mem v.pc = o := hp
    have e : pathOf (v.mem v.pc) v.fc v.fz = i.path v.fc v.fz := by
      unfold pathOf; rw [hp', ho, hu]
    rw [e, alias_sim v i (by rw [hp', hu])] at e3
    exact ⟨_, h', e1, e3⟩
  | inert l =>
    refine .inr fun u h p hr hp => ?_
    obtain ⟨v, t, rfl⟩ := hr.at
    obtain ⟨h', e1, e2, e3⟩ := hr.run t u
    have hp' : v.mem v.pc = o := hp
    have e : pathOf (v.mem v.pc) v.fc v.fz = l := by
      unfold pathOf; rw [hp', ho, hu]
    rw [e] at e2 e3
    obtain ⟨s1, s2, s3⟩ := inert_sim v l (inert_paths o l hu)
    refine ⟨_, h', e1, fun w hw x hx => ?_, fun i x hx => ?_, ?_⟩
    · have : x = v.reg w := some_inj (hx.symm.trans (t.reg w))
      show exec _ _ = _
      rw [this, ← s1 w (by cases w <;> first | rfl | exact absurd (by decide) hw)]
      exact e2.reg w
    · have : x = v.mem i := widen8_inj (some_inj (hx.symm.trans (t.mem i)))
      show exec _ _ = _
      rw [this, ← s2]
      exact e2.mem i
    · rcases s3 with e | e
      · rw [e] at e3; exact .inl e3
      · rw [e] at e3; exact .inr e3

/-- There are 168 such bytes; 0x3F is one that always acts as `ADD RE`, and 0x6B one that only
moves PC by two. -/
example : (List.range 256).countP (fun n => (decode (BitVec.ofNat 8 n)).isNone) = 168 := by
  decide +kernel
example : decode 0x3F = none ∧ decode 0x6B = none := by decide +kernel

/-! ## C16 -/

/-- What the stack instructions of a run put on the stack and got back. -/
inductive StackEvent
  | push (x : BitVec 8)
  | pop (x : BitVec 8)
deriving DecidableEq

/-- A run of any number of instructions in which the stack below `base` is used by PUSH and POP
only: the other instructions leave SP and the cells from SP to `base` alone. A `push` event carries
the value AC had at the PUSH, a `pop` event the value AC has after the POP. POPs do not go above
`base`, PUSHes do not go below address 0. -/
inductive StackRun (u : Bool) (base : BitVec 16) : H → List StackEvent → H → Prop
  | done {h : H} : StackRun u base h [] h
  | push {h h1 h' : H} {p p1 : P} {n : Nat} {l : List StackEvent} (before : Ready h p)
      (op : decode (p.mem p.pc) = some .push) (room : p.sp ≠ 0)
      (run : RunInstruction u n h h1) (after : Ready h1 p1) (rest : StackRun u base h1 l h') :
      StackRun u base h (.push p.ac :: l) h'
  | pop {h h1 h' : H} {p p1 : P} {n : Nat} {l : List StackEvent} (before : Ready h p)
      (op : decode (p.mem p.pc) = some .pop) (some : p.sp.toNat < base.toNat)
      (run : RunInstruction u n h h1) (after : Ready h1 p1) (rest : StackRun u base h1 l h') :
      StackRun u base h (.pop p1.ac :: l) h'
  | other {h h1 h' : H} {p p1 : P} {n : Nat} {l : List StackEvent} (before : Ready h p)
      (run : RunInstruction u n h h1) (after : Ready h1 p1) (sp : p1.sp = p.sp)
      (cells : ∀ i : BitVec 16, p.sp.toNat ≤ i.toNat → i.toNat < base.toNat → p1.mem i = p.mem i)
      (rest : StackRun u base h1 l h') : StackRun u base h l h'

/-- A stack: `Lifo s l s'` says that the events `l` are possible for a last-in-first-out store
holding `s` and leave it holding `s'`. -/
inductive Lifo : List (BitVec 8) → List StackEvent → List (BitVec 8) → Prop
  | done {s} : Lifo s [] s
  | push {s s' x l} (rest : Lifo (x :: s) l s') : Lifo s (.push x :: l) s'
  | pop {s s' x l} (rest : Lifo s l s') : Lifo (x :: s) (.pop x :: l) s'

/-- The stack area holds `s`. -/
def Holds (base : BitVec 16) (p : P) (s : List (BitVec 8)) : Prop :=
  p.sp.toNat + s.length = base.toNat ∧
    ∀ k (hk : k < s.length), p.mem (BitVec.ofNat 16 (p.sp.toNat + k)) = s[k]

theorem ready_after {u : Bool} {h h1 : H} {p p1 : P} {n : Nat} {i : Instr} (r : Ready h p)
    (hd : decode (p.mem p.pc) = some i) (hc : i = .call → p.pc ≠ 0xFFFF)
    (run : RunInstruction u n h h1) (after : Ready h1 p1) : p1 = p.instr i := by
  obtain ⟨n', h', run', r'⟩ := r.instr u hd hc
  obtain ⟨_, e⟩ := run.det run'
  cases e
  obtain ⟨_, _, _, _, _, s1⟩ := after
  obtain ⟨_, _, _, _, _, s2⟩ := r'
  exact s1.unique s2

theorem Ready.unique {h : H} {p p' : P} (r : Ready h p) (r' : Ready h p') : p = p' := by
  obtain ⟨_, _, _, _, _, s⟩ := r
  obtain ⟨_, _, _, _, _, s'⟩ := r'
  exact s.unique s'

theorem next_sp (p : P) : p.next.sp = p.sp ∧ p.next.mem = p.mem ∧ p.next.ac = p.ac := by
  unfold P.next; split <;> exact ⟨rfl, rfl, rfl⟩

theorem holds_push {base : BitVec 16} {p : P} {s : List (BitVec 8)} (hh : Holds base p s)
    (hsp : p.sp ≠ 0) : Holds base (p.instr .push) (p.ac :: s) := by
  obtain ⟨n1, n2, n3⟩ := next_sp p
  have hpos : 0 < p.sp.toNat := by
    rcases Nat.eq_zero_or_pos p.sp.toNat with h | h
    · exact absurd (BitVec.eq_of_toNat_eq h) hsp
    · exact h
  have hlt := p.sp.isLt
  have e1 : (p.instr .push).sp = p.sp - 1 := by
    simp only [P.instr, P.down_eq, P.store, n1, satDec, if_neg hsp]
  have e2 : (p.instr .push).mem = fun i => if i = p.sp - 1 then p.ac else p.mem i := by
    simp only [P.instr, P.down_eq, P.store, n1, n2, n3, satDec, if_neg hsp]
  have e3 : (p.sp - 1).toNat = p.sp.toNat - 1 := by
    simp only [BitVec.toNat_sub, BitVec.ofNat_eq_ofNat, BitVec.toNat_ofNat]
    omega
  have hb := base.isLt
  refine ⟨by rw [e1, e3, List.length_cons, ← hh.1]; omega, fun k hk => ?_⟩
  rw [e1, e2, e3]
  cases k with
  | zero =>
    have : BitVec.ofNat 16 (p.sp.toNat - 1 + 0) = p.sp - 1 := by
      apply BitVec.eq_of_toNat_eq; rw [e3, BitVec.toNat_ofNat]; omega
    simp only [this, if_true, List.getElem_cons_zero]
  | succ k =>
    simp only [List.length_cons] at hk
    have hx : p.sp.toNat - 1 + (k + 1) = p.sp.toNat + k := by omega
    have hh1 := hh.1
    have hne : BitVec.ofNat 16 (p.sp.toNat + k) ≠ p.sp - 1 := fun e => by
      have := congrArg BitVec.toNat e
      rw [e3, BitVec.toNat_ofNat] at this
      omega
    simp only [hx, if_neg hne, List.getElem_cons_succ]
    exact hh.2 k (by omega)

theorem holds_pop {base : BitVec 16} {p : P} {x : BitVec 8} {s : List (BitVec 8)}
    (hh : Holds base p (x :: s)) : (p.instr .pop).ac = x ∧ Holds base (p.instr .pop) s := by
  obtain ⟨n1, n2, n3⟩ := next_sp p
  have hh1 := hh.1
  simp only [List.length_cons] at hh1
  have hb := base.isLt
  have h0 : p.sp ≠ 0xFFFF := fun e => by
    have := congrArg BitVec.toNat e
    simp only [BitVec.ofNat_eq_ofNat, BitVec.toNat_ofNat] at this
    omega
  have e1 : (p.instr .pop).sp = p.sp + 1 := by simp only [P.instr, P.up_eq, n1, satInc, if_neg h0]
  have e2 : (p.instr .pop).mem = p.mem := by simp only [P.instr, P.up_eq, n2]
  have e3 : (p.instr .pop).ac = p.mem p.sp := by simp only [P.instr, P.top, n1, n2]
  have e4 : (p.sp + 1).toNat = p.sp.toNat + 1 := by
    simp only [BitVec.toNat_add, BitVec.ofNat_eq_ofNat, BitVec.toNat_ofNat]
    omega
  refine ⟨?_, by rw [e1, e4]; omega, fun k hk => ?_⟩
  · have := hh.2 0 (by simp)
    rw [e3, ← List.getElem_cons_zero (h := by simp) (a := x) (as := s), ← this]
    congr 1
    apply BitVec.eq_of_toNat_eq; rw [BitVec.toNat_ofNat]; have := p.sp.isLt; omega
  · have := hh.2 (k + 1) (by simpa using hk)
    rw [e1, e2, e4]
    simp only [List.getElem_cons_succ] at this
    rw [← this]
    congr 2
    omega

/-- **C16.** However many pushes and pops there are and however they are mixed, with any other
instructions in between that leave the stack area alone: the values popped are those a
last-in-first-out store would give, and SP is `base` less the number of values still stored. -/
theorem C16_lifo (u : Bool) (base : BitVec 16) (h h' : H) (l : List StackEvent) (p p' : P)
    (hr : Ready h p) (hs : p.sp = base) (run : StackRun u base h l h') (hr' : Ready h' p') :
    ∃ s, Lifo [] l s ∧ p'.sp.toNat + s.length = base.toNat := by
  have key : ∀ s, Holds base p s → ∃ s', Lifo s l s' ∧ Holds base p' s' := by
    clear hs
    induction run generalizing p with
    | done => intro s hh; cases hr.unique hr'; exact ⟨s, .done, hh⟩
    | push before op room run after rest ih =>
      intro s hh
      cases hr.unique before
      have e := ready_after before op (fun e => by cases e) run after
      obtain ⟨s', l1, l2⟩ := ih _ after hr' _ (e ▸ holds_push hh room)
      exact ⟨s', .push l1, l2⟩
    | pop before op some run after rest ih =>
      intro s hh
      cases hr.unique before
      have e := ready_after before op (fun e => by cases e) run after
      cases s with
      | nil => have := hh.1; simp only [List.length_nil] at this; omega
      | cons x s =>
        obtain ⟨h1, h2⟩ := holds_pop hh
        obtain ⟨s', l1, l2⟩ := ih _ after hr' _ (e ▸ h2)
        rw [e, h1]
        exact ⟨s', .pop l1, l2⟩
    | other before run after sp cells rest ih =>
      intro s hh
      cases hr.unique before
      refine ih _ after hr' s ⟨by rw [sp]; exact hh.1, fun k hk => ?_⟩
      have hh1 := hh.1
      have hb := base.isLt
      rw [sp, cells _ (by rw [BitVec.toNat_ofNat]; omega) (by rw [BitVec.toNat_ofNat]; omega)]
      exact hh.2 k hk
  obtain ⟨s, l1, l2⟩ := key [] ⟨by rw [hs]; rfl, fun k hk => by cases hk⟩
  exact ⟨s, l1, l2.1⟩

theorem lifo_pushes (xs : List (BitVec 8)) (s s' : List (BitVec 8)) (l : List StackEvent)
    (h : Lifo s (xs.map .push ++ l) s') : Lifo (xs.reverse ++ s) l s' := by
  induction xs generalizing s with
  | nil => exact h
  | cons x xs ih =>
    cases h with
    | push rest =>
      have := ih _ rest
      simpa using this

theorem lifo_pops (ys s s' : List (BitVec 8)) (h : Lifo s (ys.map .pop) s') : s = ys ++ s' := by
  induction ys generalizing s with
  | nil => cases h; rfl
  | cons y ys ih =>
    cases h with
    | pop rest => rw [ih _ rest]; rfl

/-- **C16.** Any list of values pushed one after the other is popped in reverse order, and SP
returns to where it was. -/
theorem C16_reverse (u : Bool) (h h' : H) (p p' : P) (hr : Ready h p) (xs ys : List (BitVec 8))
    (hl : ys.length = xs.length) (run : StackRun u p.sp h (xs.map .push ++ ys.map .pop) h')
    (hr' : Ready h' p') : ys = xs.reverse ∧ p'.sp = p.sp := by
  obtain ⟨s, h1, h2⟩ := C16_lifo u p.sp h h' _ p p' hr rfl run hr'
  have h3 := lifo_pops _ _ _ (lifo_pushes _ _ _ _ h1)
  rw [List.append_nil] at h3
  have h4 := congrArg List.length h3
  simp only [List.length_reverse, List.length_append] at h4
  have h5 : s = [] := List.eq_nil_of_length_eq_zero (by omega)
  subst h5
  refine ⟨by simpa using h3.symm, BitVec.eq_of_toNat_eq ?_⟩
  simpa using h2

theorem Ready.runPush {h : H} {p : P} (r : Ready h p) (u : Bool) (hd : decode (p.mem p.pc) = some .push)
    (base : BitVec 16) (room : p.sp ≠ 0) :
    ∃ h1, Ready h1 (p.instr .push) ∧ ∀ l h', StackRun u base h1 l h' →
      StackRun u base h (.push p.ac :: l) h' := by
  obtain ⟨n, h1, run, r1⟩ := r.instr u hd (fun e => by cases e)
  exact ⟨h1, r1, fun l h' rest => .push r hd room run r1 rest⟩

theorem Ready.runPop {h : H} {p : P} (r : Ready h p) (u : Bool) (hd : decode (p.mem p.pc) = some .pop)
    (base : BitVec 16) (some : p.sp.toNat < base.toNat) :
    ∃ h1, Ready h1 (p.instr .pop) ∧ ∀ l h', StackRun u base h1 l h' →
      StackRun u base h (.pop (p.instr .pop).ac :: l) h' := by
  obtain ⟨n, h1, run, r1⟩ := r.instr u hd (fun e => by cases e)
  exact ⟨h1, r1, fun l h' rest => .pop r hd some run r1 rest⟩

/-- PUSH, INC AC, PUSH, POP, POP with AC = 5: pushes 5 and 6, pops 6 and 5. -/
example : ∃ h h' p p', Ready h p ∧ Ready h' p' ∧
    StackRun false p.sp h ([0x05, 0x06].map .push ++ [0x06, 0x05].map .pop) h' := by
  let p : P := ⟨5, 2, 3, 4, 5, 0, 0x2000, true, false,
    fun i => if i = 0 then 0xC1 else if i = 1 then 0x4B else if i = 2 then 0xC1 else 0xC2, []⟩
  obtain ⟨h, r⟩ := ready_all p rfl
  obtain ⟨h1, r1, s1⟩ := r.runPush false (by decide +kernel) p.sp (by decide +kernel)
  obtain ⟨n, h2, run, r2⟩ := r1.instr false (i := .inc .ac) (by decide +kernel) (fun e => by cases e)
  obtain ⟨h3, r3, s3⟩ := r2.runPush false (by decide +kernel) p.sp (by decide +kernel)
  obtain ⟨h4, r4, s4⟩ := r3.runPop false (by decide +kernel) p.sp (by decide +kernel)
  obtain ⟨h5, r5, s5⟩ := r4.runPop false (by decide +kernel) p.sp (by decide +kernel)
  refine ⟨h, h5, p, _, r, r5, ?_⟩
  have := s1 _ _ (.other r1 run r2 (by decide +kernel) (fun i _ _ => rfl)
    (s3 _ _ (s4 _ _ (s5 _ _ .done))))
  refine (congrArg (StackRun false p.sp h · h5) ?_).mp this
  decide +kernel

/-! ## C17 -/

/-- **C17.** A fetch at 0xFFFF takes the byte there, leaves PC at 0xFFFF and reports an error; PCH,
PCL, AC, B..E, SP, flags and memory keep their values. -/
theorem C17_fetch (u : Bool) (ph : Phase) (h : H) (hr : Reach ph h) (on : ph.on = true)
    (hu : u = true → ph.ui = true) (hb : Boundary h) (hpc : RegIs h .pc 0xFFFF) :
    ∃ h', exec (.runClockCycle u) h = some (0, h') ∧ RegIs h' .pc 0xFFFF ∧
      h'.log = .pcOverflow :: h.log ∧
      (∀ x, Cell h 0xFFFF x → RegIs h' .ri (x.setWidth 32)) ∧
      (∀ t, t ≠ .ri → ∀ x, RegIs h t x → RegIs h' t x) ∧ (∀ i x, Cell h i x → Cell h' i x) := by
  obtain ⟨m, t⟩ := hr.at on
  have e := (t.boundary).1 hb
  obtain ⟨v, s⟩ := m
  obtain rfl : s = 0 := e
  obtain ⟨h', e1, t1, _⟩ := t.cycle u (fun e => hr.inv.ui.trans (hu e))
  have hv : v.pc = 0xFFFF := widen16_inj (some_inj ((t.reg .pc).symm.trans hpc))
  have hs : (M.step ⟨v, 0⟩).v = { v with ri := v.mem v.pc, log := .pcOverflow :: v.log } := by
    show V.incPc { v with ri := v.mem v.pc } = _
    unfold V.incPc; rw [if_pos hv]
  have hreg : ∀ t, t ≠ .ri → (M.step ⟨v, 0⟩).v.reg t = v.reg t := fun t ht => by
    rw [hs]; cases t <;> first | rfl | exact absurd rfl ht
  refine ⟨h', e1, ?_, ?_, fun x hx => ?_, fun w hw x hx => ?_, fun i x hx => ?_⟩
  · have := t1.reg .pc
    rw [hreg _ (by decide)] at this
    show exec _ _ = _
    rw [this, ← some_inj ((t.reg .pc).symm.trans hpc)]
  · rw [t1.log, hs, t.log]
  · have hx' : x = v.mem 0xFFFF := widen8_inj (some_inj (hx.symm.trans (t.mem 0xFFFF)))
    have := t1.reg .ri
    rw [hs] at this
    show exec _ _ = _
    rw [this, hx', ← hv]; rfl
  · have := t1.reg w
    rw [hreg _ hw] at this
    show exec _ _ = _
    rw [this, some_inj (hx.symm.trans (t.reg w))]
  · have := t1.mem i
    rw [hs] at this
    show exec _ _ = _
    rw [this, some_inj (hx.symm.trans (t.mem i))]

/-- **C17.** PUSH with SP = 0 overwrites cell 0, leaves SP at 0 and reports an error. -/
theorem C17_push (u : Bool) (h : H) (p : P) (hr : Ready h p)
    (hd : decode (p.mem p.pc) = some .push) (hsp : p.sp = 0) :
    Does u h { p.past 1 with
      mem := fun i => if i = 0 then p.ac else p.mem i, errs := .spOverflow :: (p.past 1).errs } := by
  have := hr.instr u hd (fun e => by cases e)
  have e : p.instr .push = { p.past 1 with
      mem := fun i => if i = 0 then p.ac else p.mem i, errs := .spOverflow :: (p.past 1).errs } := by
    have h0 : (p.past 1).sp = 0 := hsp
    simp only [P.instr, next_past p, P.down_eq, satDec, logIf, h0, if_true, P.store]
    simp only [P.past, hsp]
  rwa [e] at this

/-- **C17.** POP with SP = 0xFFFF loads AC from the last cell, leaves SP there and reports an
error. -/
theorem C17_pop (u : Bool) (h : H) (p : P) (hr : Ready h p)
    (hd : decode (p.mem p.pc) = some .pop) (hsp : p.sp = 0xFFFF) :
    Does u h { p.past 1 with ac := p.mem 0xFFFF, errs := .spOverflow :: (p.past 1).errs } := by
  have := hr.instr u hd (fun e => by cases e)
  have e : p.instr .pop =
      { p.past 1 with ac := p.mem 0xFFFF, errs := .spOverflow :: (p.past 1).errs } := by
    have h0 : (p.past 1).sp = 0xFFFF := hsp
    simp only [P.instr, next_past p, P.up_eq, satInc, logIf, h0, if_true, P.top]
    simp only [P.past, hsp]
  rwa [e] at this

example : ∃ h p, Ready h p ∧ p.pc = 0xFFFF := by
  let p : P := ⟨5, 2, 3, 4, 5, 0xFFFF, 6, true, false, fun _ => 0xC6, []⟩
  obtain ⟨h, r⟩ := ready_all p rfl
  exact ⟨h, p, r, rfl⟩
example : ∃ h p, Ready h p ∧ decode (p.mem p.pc) = some .push ∧ p.pc.toNat + 1 ≤ 65535 ∧ p.sp = 0 := by
  let p : P := ⟨5, 2, 3, 4, 5, 7, 0, true, false, fun _ => 0xC1, []⟩
  obtain ⟨h, r⟩ := ready_all p rfl
  exact ⟨h, p, r, by decide +kernel, by decide, rfl⟩
example : ∃ h p, Ready h p ∧ decode (p.mem p.pc) = some .pop ∧ p.pc.toNat + 1 ≤ 65535 ∧
    p.sp = 0xFFFF := by
  let p : P := ⟨5, 2, 3, 4, 5, 7, 0xFFFF, true, false, fun _ => 0xC2, []⟩
  obtain ⟨h, r⟩ := ready_all p rfl
  exact ⟨h, p, r, by decide +kernel, by decide, rfl⟩

/-! ## C18 -/

/-- Instructions run one after the other by the run-instruction loop, none of them FIN; `n` counts
clock cycles. -/
inductive NoFin (u : Bool) : Nat → H → H → Prop
  | none {h : H} : NoFin u 0 h h
  | step {h h1 h' : H} {p : P} {n k : Nat} (before : Ready h p) (ne : p.mem p.pc ≠ 0xFF)
      (first : RunInstruction u n h h1) (rest : NoFin u k h1 h') : NoFin u (n + k) h h'

theorem fin_test (x : BitVec 8) :
    decide ((x.setWidth 32 : CInt).toNat = 2 ^ (8 : CInt).toNat - 1) = decide (x = 0xFF) := by
  rw [decide_eq_decide, ← BitVec.toNat_inj]
  have := x.isLt
  have e : 2 ^ (8 : CInt).toNat - 1 = 255 := rfl
  rw [e]
  simp only [BitVec.toNat_setWidth, BitVec.ofNat_eq_ofNat, BitVec.toNat_ofNat]
  omega

theorem At.loop {u : Bool} {h h1 h' : H} {m : M} {n : Nat} {r : CInt} (t1 : At h1 m)
    (e : exec (.runClockCycle u) h = some (r, h1)) :
    ProgramLoop u false (n + 1) h h' ↔ ProgramLoop u (decide (m.v.ri = 0xFF)) n h1 h' := by
  constructor
  · intro l
    cases l with
    | more run ri max rest =>
      rw [e] at run; cases run
      rw [← some_inj ((t1.reg .ri).symm.trans ri)] at rest
      cases max
      have : (m.v.reg .ri).toNat = ((m.v.ri).setWidth 32 : CInt).toNat := rfl
      rw [← fin_test]
      exact rest
  · intro l
    rw [← fin_test] at l
    exact .more e (t1.reg .ri) rfl l

theorem RunInstruction.loop {u : Bool} {h h1 : H} {k : Nat} (run : RunInstruction u k h h1) {m : M}
    (t : At h m) (hu : u = true → h.ui = true) (hri : m.step.v.ri ≠ 0xFF) (n : Nat) (h' : H) :
    ProgramLoop u false (k + n) h h' ↔ ProgramLoop u false n h1 h' := by
  induction run generalizing m with
  | last run done =>
    obtain ⟨h2, e2, t2, _⟩ := t.cycle u hu
    rw [run] at e2; cases e2
    rw [Nat.add_comm, At.loop t2 run, decide_eq_false hri]
  | @more h h2 h' r x k run state ne rest ih =>
    obtain ⟨h3, e3, t3, u3⟩ := t.cycle u hu
    rw [run] at e3; cases e3
    have hne : m.step.s ≠ 0 := fun e => ne (by
      have := t3.next
      rw [e] at this
      exact some_inj (state.symm.trans this))
    have hri' : m.step.step.v.ri = m.step.v.ri :=
      rtl_ri m.step.v _ (fun e => hne (BitVec.eq_of_toNat_eq e))
    rw [show k + 1 + n = (k + n) + 1 by omega, At.loop t3 run, decide_eq_false hri]
    exact ih t3 (by rw [u3]; exact hu) (by rw [hri']; exact hri)

theorem step_ri (v : V) : (M.step ⟨v, 0⟩).v.ri = v.mem v.pc := by
  show (V.incPc _).ri = _
  unfold V.incPc V.setPc; split <;> rfl

/-- A FIN takes two cycles and ends the loop. -/
theorem Ready.fin {u : Bool} {h : H} {p : P} (r : Ready h p) (hp : p.mem p.pc = 0xFF) :
    ∃ h', Ready h' p.next ∧ ∀ n h'', ProgramLoop u false n h h'' ↔ n = 2 ∧ h'' = h' := by
  obtain ⟨v, t, rfl⟩ := r.at
  have hp' : v.mem v.pc = 0xFF := hp
  have hr := r
  obtain ⟨ph, rr, on, ui, _, _⟩ := r
  obtain ⟨h1, e1, t1, u1⟩ := t.cycle u (fun _ => hr.ui)
  obtain ⟨h2, e2, t2, u2⟩ := t1.cycle u (fun _ => u1.trans hr.ui)
  have hs1 : (M.step ⟨v, 0⟩).s = 1 := next_zero _ _ _
  have hs2 : (M.step (M.step ⟨v, 0⟩)).s = 0 := by
    show A.nextOf (M.step ⟨v, 0⟩).s (M.step ⟨v, 0⟩).v.ri _ _ = 0
    rw [hs1, step_ri, hp', next_flags 1 0xFF _ _ false false (by decide), nextOf_eq]
    decide +kernel
  have hv : (M.step (M.step ⟨v, 0⟩)).v.prog = v.prog.next := by
    show ((M.step ⟨v, 0⟩).v.rtl (M.step ⟨v, 0⟩).s.toNat).prog = _
    rw [hs1]
    show (V.incPc _).prog = _
    rw [V.incPc_eq, P.next_eq]; rfl
  refine ⟨h2, ⟨ph, (rr.cycle on ui e1).cycle on ui e2, on, ui, (t2.boundary).2 hs2, hv ▸ t2.shows⟩, ?_⟩
  intro n h''
  cases n with
  | zero => exact ⟨fun l => (by cases l), fun l => absurd l.1 (by decide)⟩
  | succ n =>
    rw [At.loop t1 e1, step_ri, hp', decide_eq_true rfl]
    constructor
    · intro l
      cases l with
      | stop run => rw [e2] at run; cases run; exact ⟨rfl, rfl⟩
    · rintro ⟨hn, rfl⟩
      cases hn
      exact .stop e2

/-- **C18.** If instructions that are not FIN lead in `n` cycles to a FIN, run-program stops after
`n + 2` cycles (fetch and decoding of FIN), between two instructions, with PC just past the FIN. -/
theorem C18_stops (u : Bool) (h h1 : H) (n : Nat) (p1 : P) (before : NoFin u n h h1)
    (hr : Ready h1 p1) (hf : p1.mem p1.pc = 0xFF) :
    ∃ h', RunProgram u (n + 2) h h' ∧ Ready h' (p1.past 1) := by
  obtain ⟨h', r', l⟩ := hr.fin (u := u) hf
  refine ⟨h', ?_, by rw [← next_past p1]; exact r'⟩
  clear r'
  induction before with
  | none => exact (l _ _).2 ⟨rfl, rfl⟩
  | step b ne first rest ih =>
    obtain ⟨v, t, rfl⟩ := b.at
    have := (first.loop t (fun _ => b.ui) (by rw [step_ri]; exact ne) _ h').2 (ih hr l)
    rw [Nat.add_assoc]
    exact this

/-- **C18.** Run-program stops nowhere else: whenever it stops, it does so two cycles after an
instruction boundary at which FIN comes next, reached by instructions none of which is FIN, each
run to its end. In particular it never stops if no FIN is ever fetched. -/
theorem C18_only_at_fin (u : Bool) (h h' : H) (n : Nat) (p : P) (hr : Ready h p)
    (run : RunProgram u n h h') :
    ∃ k h1 p1, NoFin u k h h1 ∧ Ready h1 p1 ∧ p1.mem p1.pc = 0xFF ∧ n = k + 2 := by
  induction n using Nat.strongRecOn generalizing h p with
  | _ n ih =>
    by_cases hf : p.mem p.pc = 0xFF
    · obtain ⟨h2, _, l⟩ := hr.fin (u := u) hf
      exact ⟨0, h, p, .none, hr, hf, ((l _ _).1 run).1⟩
    · obtain ⟨v, t, rfl⟩ := hr.at
      obtain ⟨h1, r1, t1, rd1⟩ := hr.run t u
      have hri : (M.step ⟨v, 0⟩).v.ri ≠ 0xFF := by rw [step_ri]; exact hf
      by_cases hn : n ≥ (pathOf (v.mem v.pc) v.fc v.fz).length + 1
      · obtain ⟨j, rfl⟩ := Nat.exists_eq_add_of_le hn
        have l := (r1.loop t (fun _ => hr.ui) hri _ h').1 run
        obtain ⟨k, h2, p2, a1, a2, a3, a4⟩ := ih j (by omega) h1 _ rd1 l
        exact ⟨_, h2, p2, .step hr hf r1 a1, a2, a3, by omega⟩
      · -- the loop cannot stop inside the instruction
        exfalso
        have short : ∀ k h h1 n m, RunInstruction u k h h1 → n < k → At h m → (u = true → h.ui = true) →
            m.step.v.ri ≠ 0xFF → ¬ ProgramLoop u false n h h' := by
          intro k h h1 n m run
          induction run generalizing n m with
          | last run done =>
            intro hn _ _ _ l
            obtain rfl : n = 0 := by omega
            cases l
          | @more h h2 h' r x k run state ne rest ih =>
            intro hn t hu hri l
            cases n with
            | zero => cases l
            | succ n =>
              obtain ⟨h3, e3, t3, u3⟩ := t.cycle u hu
              rw [run] at e3; cases e3
              have hne : m.step.s ≠ 0 := fun e => ne (by
                have := t3.next
                rw [e] at this
                exact some_inj (state.symm.trans this))
              have hri' : m.step.step.v.ri = m.step.v.ri :=
                rtl_ri m.step.v _ (fun e => hne (BitVec.eq_of_toNat_eq e))
              rw [At.loop t3 run, decide_eq_false hri] at l
              exact ih n m.step (by omega) t3 (by rw [u3]; exact hu) (by rw [hri']; exact hri) l
        exact short _ h h1 n ⟨v, 0⟩ r1 (by omega) t (fun _ => hr.ui) hri run

/-- One instruction of the instruction set; `none` at FIN, at an undefined opcode and at a CALL in
the last cell. -/
def P.step (p : P) : Option P :=
  match decode (p.mem p.pc) with
  | none => none
  | some .fin => none
  | some i => if i = .call ∧ p.pc = 0xFFFF then none else some (p.instr i)

def P.run : Nat → P → Option P
  | 0, p => some p
  | n + 1, p => p.step.bind (P.run n)

theorem Ready.step {u : Bool} {h : H} {p p' : P} (r : Ready h p) (e : p.step = some p') :
    p.mem p.pc ≠ 0xFF ∧ ∃ n h', RunInstruction u n h h' ∧ Ready h' p' := by
  unfold P.step at e
  split at e
  · cases e
  · cases e
  · rename_i i hnf hd
    split at e
    · cases e
    · rename_i hc
      cases e
      refine ⟨fun hf => ?_, r.instr u hd (fun hi hp => hc ⟨hi, hp⟩)⟩
      rw [hf] at hd
      have : decode 0xFF = some .fin := by decide +kernel
      rw [this] at hd
      cases hd; exact hnf rfl

theorem Ready.runs {u : Bool} {h : H} {p p' : P} (r : Ready h p) (k : Nat) (e : p.run k = some p') :
    ∃ n h', NoFin u n h h' ∧ Ready h' p' := by
  induction k generalizing h p with
  | zero => cases e; exact ⟨0, h, .none, r⟩
  | succ k ih =>
    simp only [P.run] at e
    cases e1 : p.step with
    | none => rw [e1] at e; cases e
    | some p1 =>
      rw [e1, Option.bind_some] at e
      obtain ⟨ne, n1, h1, i1, r1⟩ := r.step (u := u) e1
      obtain ⟨n2, h2, i2, r2⟩ := ih r1 e
      exact ⟨_, h2, .step r ne i1 i2, r2⟩

/-- **C18.** If the instruction set says that `k` instructions lead from `p` to a state at FIN, then
run-program stops in that state, PC moved past the FIN. -/
theorem C18_program (u : Bool) (h : H) (p q : P) (hr : Ready h p) (k : Nat) (hk : p.run k = some q)
    (hf : decode (q.mem q.pc) = some .fin) :
    ∃ n h', RunProgram u n h h' ∧ Ready h' (q.past 1) := by
  obtain ⟨n, h1, b, r1⟩ := hr.runs (u := u) k hk
  obtain ⟨h', r, r'⟩ := C18_stops u h h1 n q b r1 (decode_code _ _ hf)
  exact ⟨_, h', r, r'⟩

theorem program_skip {u : Bool} {h : H} {p q : P} (hr : Ready h p) {k : Nat} (hk : p.run k = some q)
    (hf : decode (q.mem q.pc) = some .fin) (hpc : q.pc.toNat + 1 ≤ 65535) :
    ∃ n h', RunProgram u n h h' ∧ Ready h' (q.skip 1) := by
  obtain ⟨n, h', r, r'⟩ := C18_program u h p q hr k hk hf
  rw [← next_past, next_skip q hpc] at r'
  exact ⟨n, h', r, r'⟩

theorem ProgramLoop.det {u b : Bool} {n n' : Nat} {h h1 h2 : H} (r1 : ProgramLoop u b n h h1)
    (r2 : ProgramLoop u b n' h h2) : n = n' ∧ h1 = h2 := by
  induction r1 generalizing n' h2 with
  | stop run =>
    cases r2 with
    | stop run' => rw [run] at run'; cases run'; exact ⟨rfl, rfl⟩
  | more run ri max rest ih =>
    cases r2 with
    | more run' ri' max' rest' =>
      rw [run] at run'; cases run'
      rw [ri] at ri'; cases ri'
      rw [max] at max'; cases max'
      obtain ⟨e1, e2⟩ := ih rest'
      exact ⟨by rw [e1], e2⟩

/-- **C18.** Run-program has at most one outcome. -/
theorem C18_deterministic (u : Bool) (h h1 h2 : H) (n1 n2 : Nat) (r1 : RunProgram u n1 h h1)
    (r2 : RunProgram u n2 h h2) : n1 = n2 ∧ h1 = h2 := r1.det r2

/-- `INC RB` then FIN. -/
example : ∃ h p q, Ready h p ∧ p.run 1 = some q ∧ decode (q.mem q.pc) = some .fin ∧
    q.pc.toNat + 1 ≤ 65535 ∧ q.b = p.b + 1 := by
  let p : P := ⟨5, 2, 3, 4, 5, 7, 0xFFFF, true, false, fun i => if i = 7 then 0x2C else 0xFF, []⟩
  obtain ⟨h, r⟩ := ready_all p rfl
  refine ⟨h, p, p.instr (.inc (.reg .b)), r, ?_, by decide +kernel, by decide +kernel, by decide +kernel⟩
  have e : decode (p.mem p.pc) = some (.inc (.reg .b)) := by decide +kernel
  simp only [P.run, P.step, e]
  rfl

end Mpp
