import Verif.IsaSim
import Verif.Observe
/-!
# The run loops at the level of microstates
-/
namespace Mpp

/-- The C program `h` is a running machine with visible state `m.v` and next microstate `m.s`. -/
def At (h : H) (m : M) : Prop := ∃ a, On h a ∧ a.view = m.v ∧ a.dd = m.s

theorem On.at {h : H} {a : A} (o : On h a) : At h ⟨a.view, a.dd⟩ := ⟨a, o, rfl, rfl⟩

theorem Reach.at {p : Phase} {h : H} (r : Reach p h) (hp : p.on = true) : ∃ m, At h m := by
  obtain ⟨a, o⟩ := r.on hp
  exact ⟨_, o.at⟩

theorem At.reg {h : H} {m : M} (t : At h m) (w : WType) :
    exec (.getRegisterValue w) h = some (m.v.reg w, h) := by
  obtain ⟨a, o, e, _⟩ := t; rw [← e]; exact o.getReg w

theorem At.mem {h : H} {m : M} (t : At h m) (i : BitVec 16) :
    exec (.getMemoryValue (i.setWidth 32)) h = some ((m.v.mem i).setWidth 32, h) := by
  obtain ⟨a, o, e, _⟩ := t; rw [← e]; exact o.getMemory i

theorem At.next {h : H} {m : M} (t : At h m) : NextState h (m.s.setWidth 32) := by
  obtain ⟨a, o, _, e⟩ := t; rw [← e]; exact o.getNextState

theorem At.log {h : H} {m : M} (t : At h m) : h.log = m.v.log := by
  obtain ⟨a, o, e, _⟩ := t
  obtain ⟨cur, r⟩ := o.rep
  rw [← e, r.log]; rfl

theorem widen6_inj {x y : BitVec 6} (h : x.setWidth 32 = y.setWidth 32) : x = y := by
  have := congrArg BitVec.toNat h
  simp only [BitVec.toNat_setWidth] at this
  apply BitVec.eq_of_toNat_eq
  have := x.isLt; have := y.isLt; omega

theorem widen8_inj {x y : BitVec 8} (h : x.setWidth 32 = y.setWidth 32) : x = y := by
  have := congrArg BitVec.toNat h
  simp only [BitVec.toNat_setWidth] at this
  apply BitVec.eq_of_toNat_eq
  have := x.isLt; have := y.isLt; omega

theorem widen16_inj {x y : BitVec 16} (h : x.setWidth 32 = y.setWidth 32) : x = y := by
  have := congrArg BitVec.toNat h
  simp only [BitVec.toNat_setWidth] at this
  apply BitVec.eq_of_toNat_eq
  have := x.isLt; have := y.isLt; omega

theorem flag_inj {x y : Bool} (h : (if x then (1 : CInt) else 0) = if y then 1 else 0) : x = y := by
  cases x <;> cases y <;> first | rfl | exact absurd h (by decide)

theorem some_inj {x y : CInt} {h : H} (e : some (x, h) = some (y, h)) : x = y := by cases e; rfl

/-- The getters determine the visible state. -/
theorem reg_inj {v w : V} (h : ∀ t, v.reg t = w.reg t) (hm : v.mem = w.mem) (hl : v.log = w.log) :
    v = w := by
  cases v; cases w
  simp only [V.mk.injEq]
  exact ⟨widen8_inj (h .acum), widen8_inj (h .b), widen8_inj (h .c), widen8_inj (h .d),
    widen8_inj (h .e), widen8_inj (h .h), widen8_inj (h .l), widen8_inj (h .op2),
    widen8_inj (h .pch), widen8_inj (h .pcl), widen8_inj (h .ri), widen16_inj (h .pc),
    widen16_inj (h .sp), flag_inj (h .fc), flag_inj (h .fz), hm, hl⟩

theorem At.unique {h : H} {m m' : M} (t : At h m) (t' : At h m') : m = m' := by
  have h1 : m.v = m'.v := by
    apply reg_inj
    · intro w; exact some_inj ((t.reg w).symm.trans (t'.reg w))
    · funext i; exact widen8_inj (some_inj ((t.mem i).symm.trans (t'.mem i)))
    · exact t.log.symm.trans t'.log
  have h2 : m.s = m'.s := widen6_inj (some_inj (t.next.symm.trans t'.next))
  cases m; cases m'; cases h1; cases h2; rfl

theorem At.shows {h : H} {m : M} (t : At h m) : Shows h m.v.prog :=
  ⟨t.reg .acum, t.reg .b, t.reg .c, t.reg .d, t.reg .e, t.reg .pc, t.reg .sp, t.reg .fc,
    t.reg .fz, t.mem, t.log⟩

theorem Shows.unique {h : H} {p p' : P} (s : Shows h p) (s' : Shows h p') : p = p' := by
  cases p; cases p'
  simp only [P.mk.injEq]
  exact ⟨widen8_inj (some_inj (s.ac.symm.trans s'.ac)), widen8_inj (some_inj (s.b.symm.trans s'.b)),
    widen8_inj (some_inj (s.c.symm.trans s'.c)), widen8_inj (some_inj (s.d.symm.trans s'.d)),
    widen8_inj (some_inj (s.e.symm.trans s'.e)), widen16_inj (some_inj (s.pc.symm.trans s'.pc)),
    widen16_inj (some_inj (s.sp.symm.trans s'.sp)), flag_inj (some_inj (s.fc.symm.trans s'.fc)),
    flag_inj (some_inj (s.fz.symm.trans s'.fz)),
    funext fun i => widen8_inj (some_inj ((s.mem i).symm.trans (s'.mem i))),
    s.errs.symm.trans s'.errs⟩

theorem At.boundary {h : H} {m : M} (t : At h m) : Boundary h ↔ m.s = 0 := by
  constructor
  · intro hb
    exact widen6_inj (some_inj (t.next.symm.trans hb))
  · intro e; have := t.next; rw [e] at this; exact this

/-- One clock cycle is one step. -/
theorem At.cycle {h : H} {m : M} (t : At h m) (u : Bool) (hu : u = true → h.ui = true) :
    ∃ h', exec (.runClockCycle u) h = some (0, h') ∧ At h' m.step ∧ h'.ui = h.ui := by
  obtain ⟨a, o, e1, e2⟩ := t
  obtain ⟨h', e, o', s, _⟩ := o.cycle u hu
  obtain ⟨c1, _, _, c4, _⟩ := A.cycle_spec a o.settled o.ok.lt
  refine ⟨h', e, ⟨a.cycle, o', ?_, ?_⟩, s.2.1⟩
  · rw [c1, e1, e2]; rfl
  · rw [c4, e2]
    show A.nextOf m.s a.view.ri a.view.fc a.view.fz = _
    rw [e1]; rfl

/-- The state after `n` clock cycles. -/
def cycles (u : Bool) : Nat → H → Option H
  | 0, h => some h
  | n + 1, h => (exec (.runClockCycle u) h).bind fun r => cycles u n r.2

theorem At.cycles {h : H} {m : M} (t : At h m) (u : Bool) (hu : u = true → h.ui = true) (n : Nat) :
    ∃ h', Mpp.cycles u n h = some h' ∧ At h' (M.steps n m) ∧ h'.ui = h.ui := by
  induction n generalizing h m with
  | zero => exact ⟨h, rfl, t, rfl⟩
  | succ n ih =>
    obtain ⟨h1, e1, t1, u1⟩ := t.cycle u hu
    obtain ⟨h2, e2, t2, u2⟩ := ih t1 (by rw [u1]; exact hu)
    exact ⟨h2, by simp only [Mpp.cycles, e1, Option.bind_some, e2], t2, u2.trans u1⟩

theorem RunInstruction.det {u : Bool} {n n' : Nat} {h h1 h2 : H} (r1 : RunInstruction u n h h1)
    (r2 : RunInstruction u n' h h2) : n = n' ∧ h1 = h2 := by
  induction r1 generalizing n' h2 with
  | last run done =>
    cases r2 with
    | last run' done' => rw [run] at run'; cases run'; exact ⟨rfl, rfl⟩
    | more run' state ne rest =>
      rw [run] at run'; cases run'
      exact absurd (some_inj (state.symm.trans done)) ne
  | more run state ne rest ih =>
    cases r2 with
    | last run' done' =>
      rw [run] at run'; cases run'
      exact absurd (some_inj (state.symm.trans done')) ne
    | more run' state' ne' rest' =>
      rw [run] at run'; cases run'
      obtain ⟨e1, e2⟩ := ih rest'
      exact ⟨by rw [e1], e2⟩

/-- The run-instruction loop from a state in which S0 is next after exactly `n + 1` steps. -/
theorem At.runInstruction {h : H} {m : M} (t : At h m) (u : Bool) (hu : u = true → h.ui = true)
    (n : Nat) (hn : (M.steps (n + 1) m).s = 0) (hk : ∀ k, k < n → (M.steps (k + 1) m).s ≠ 0) :
    ∃ h', RunInstruction u (n + 1) h h' ∧ At h' (M.steps (n + 1) m) ∧ h'.ui = h.ui := by
  induction n generalizing h m with
  | zero =>
    obtain ⟨h1, e1, t1, u1⟩ := t.cycle u hu
    refine ⟨h1, .last e1 ?_, t1, u1⟩
    exact (t1.boundary).2 hn
  | succ n ih =>
    obtain ⟨h1, e1, t1, u1⟩ := t.cycle u hu
    obtain ⟨h2, e2, t2, u2⟩ := ih t1 (by rw [u1]; exact hu) hn (fun k h => hk (k + 1) (by omega))
    refine ⟨h2, .more e1 t1.next ?_ e2, t2, u2.trans u1⟩
    intro e
    exact hk 0 (by omega) ((t1.boundary).1 (by unfold Boundary; rw [← e]; exact t1.next))

/-- From an instruction boundary, the run-instruction loop follows the path of the fetched
opcode. -/
theorem At.instruction {h : H} {v : V} (t : At h ⟨v, 0⟩) (u : Bool) (hu : u = true → h.ui = true) :
    ∃ h', RunInstruction u ((pathOf (v.mem v.pc) v.fc v.fz).length + 1) h h' ∧
      At h' ⟨v.follow (0 :: pathOf (v.mem v.pc) v.fc v.fz), 0⟩ ∧ h'.ui = h.ui := by
  obtain ⟨s1, s2⟩ := steps_instr v
  obtain ⟨h', e1, e2, e3⟩ := t.runInstruction u hu _ (by rw [s1]) s2
  rw [s1] at e2
  exact ⟨h', e1, e2, e3⟩

/-! ## Reachability -/

theorem Reach.cycle {p : Phase} {h h' : H} {u : Bool} {r : CInt} (hr : Reach p h)
    (hp : p.on = true) (hu : p.ui = true) (e : exec (.runClockCycle u) h = some (r, h')) :
    Reach p h' :=
  hr.step (c := .runClockCycle u) ⟨hp, fun _ => hu⟩ e

theorem Reach.instruction {p : Phase} {h h' : H} {u : Bool} {n : Nat} (hr : Reach p h)
    (hp : p.on = true) (hu : p.ui = true) (e : RunInstruction u n h h') : Reach p h' := by
  induction e with
  | last run _ => exact hr.cycle hp hu run
  | more run _ _ _ ih => exact ih (hr.cycle hp hu run)

theorem Reach.cycles {p : Phase} {h h' : H} {u : Bool} {n : Nat} (hr : Reach p h)
    (hp : p.on = true) (hu : p.ui = true) (e : Mpp.cycles u n h = some h') : Reach p h' := by
  induction n generalizing h with
  | zero => cases e; exact hr
  | succ n ih =>
    simp only [Mpp.cycles] at e
    cases e1 : exec (.runClockCycle u) h with
    | none => rw [e1] at e; cases e
    | some r =>
      rw [e1, Option.bind_some] at e
      exact ih (hr.cycle hp hu e1) e

/-- A ready machine is at S0 in a visible state with the programmer's view it shows. -/
theorem Ready.at {h : H} {p : P} (r : Ready h p) : ∃ v, At h ⟨v, 0⟩ ∧ v.prog = p := by
  obtain ⟨ph, r, on, _, b, s⟩ := r
  obtain ⟨m, t⟩ := r.at on
  have e := (t.boundary).1 b
  refine ⟨m.v, ?_, t.shows.unique s⟩
  cases m; cases e; exact t

theorem Ready.ui {h : H} {p : P} (r : Ready h p) : h.ui = true := by
  obtain ⟨ph, r, _, u, _, _⟩ := r
  exact r.inv.ui.trans u

/-- What a ready machine becomes after one instruction. -/
theorem Ready.run {h : H} {p : P} (r : Ready h p) {v : V} (t : At h ⟨v, 0⟩) (u : Bool) :
    ∃ h', RunInstruction u ((pathOf (v.mem v.pc) v.fc v.fz).length + 1) h h' ∧
      At h' ⟨v.follow (0 :: pathOf (v.mem v.pc) v.fc v.fz), 0⟩ ∧
      Ready h' (v.follow (0 :: pathOf (v.mem v.pc) v.fc v.fz)).prog := by
  obtain ⟨h', e1, e2, _⟩ := t.instruction u (fun _ => r.ui)
  obtain ⟨ph, r, on, ui, b, s⟩ := r
  exact ⟨h', e1, e2, ph, r.instruction on ui e1, on, ui, (e2.boundary).2 rfl, e2.shows⟩

/-- Every documented instruction does what the instruction set says. -/
theorem Ready.instr {h : H} {p : P} (r : Ready h p) (u : Bool) {i : Instr}
    (hd : decode (p.mem p.pc) = some i) (hc : i = .call → p.pc ≠ 0xFFFF) : Does u h (p.instr i) := by
  obtain ⟨v, t, rfl⟩ := r.at
  obtain ⟨h', e1, _, e3⟩ := r.run t u
  have hd' : decode (v.mem v.pc) = some i := hd
  have hp : pathOf (v.mem v.pc) v.fc v.fz = i.path v.fc v.fz := by
    unfold pathOf; rw [hd']
  rw [hp, isa_sim v i hd' (fun e1 e2 => absurd e2 (hc e1))] at e3
  exact ⟨_, h', e1, e3⟩

end Mpp
