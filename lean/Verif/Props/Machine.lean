import Verif.Pair
import Verif.Messages
import Verif.Props.Cpu
/-!
# Properties of the machine as a whole: widths, lifecycle, host access, buses, determinism
-/
namespace Mpp

/-! ## C15 -/

/-- **C15.** No history that respects the lifecycle runs into undefined behaviour. -/
theorem C15_no_ub {p : Phase} (cs : List Call) (hl : Legal Phase.start cs p) :
    ∃ vs h, execAll cs H.start = some (vs, h) := by
  obtain ⟨vs, h, e, _⟩ := Inv.start.calls cs hl
  exact ⟨vs, h, e⟩

/-- The lifecycle is needed: memory access before `init`, a second `shutdown`, running after
`shutdown`, an out-of-range store and a missing UI callback are undefined. -/
theorem C15_needed :
    (∀ o v, exec (.setMemoryValue o v) H.start = none) ∧
    (∀ t, exec (.getRegisterValue t) H.start = none) ∧
    (∀ u, exec (.runClockCycle u) H.start = none) ∧
    (∀ h o v, ¬ IsAddr o → exec (.setMemoryValue o v) h = none) ∧
    (∀ p h n, Reach p h → p.on = true → h.ui = false → exec (.setRegisterPc n) h = none) := by
  refine ⟨fun o v => ?_, fun t => rfl, fun u => rfl, fun h o v ho => ?_, fun p h n r hp hu => ?_⟩
  · simp only [exec]
    cases getValueByOffset o <;> rfl
  · simp only [exec, getValueByOffset_none ho]
  · obtain ⟨a, o⟩ := r.on hp
    obtain ⟨cur, rep⟩ := o.rep
    simp only [exec, getRegister_all h o.watch .pc, WType.theReg]
    have s := sim (do setReg .pc n; publish .pcOut (← Mpp.getReg .pc)) rep
    unfold SimOut at s
    cases hx : H.run (do setReg .pc n; publish .pcOut (← Mpp.getReg .pc)) h with
    | none => rfl
    | some x =>
      rw [hx] at s
      cases hy : T.run (do setReg .pc n; publish .pcOut (← Mpp.getReg .pc)) (lift a cur) with
      | none => rw [hy] at s; exact s.elim
      | some y =>
        rw [hy] at s
        have := s.2.2.ui
        simp only [Option.bind_some, H.callUi, this, hu]
        rfl

/-- A history with two `init`/`shutdown` rounds. -/
def twoRounds : List Call :=
  [.setUpdateUi true, .init (fun i => i), .setMemoryValue 0 0xFF, .runClockCycle true,
   .runClockCycle false, .resetControl, .setRegisterPc 5, .getMemoryValue (-1), .shutdown,
   .getMemorySize, .init (fun _ => 7), .getState, .shutdown]

theorem twoRounds_legal : Legal Phase.start twoRounds ⟨false, true, 2, 0⟩ := by
  simp only [twoRounds, Legal, Call.Allowed, Call.after, Phase.start]
  decide

/-- Running machines are reachable, also in the middle of an instruction. -/
theorem running_exists : ∃ p h, Reach p h ∧ p.on = true ∧ p.ui = true := by
  have hl : Legal Phase.start [.setUpdateUi true, .init (fun i => i), .runClockCycle true]
      ⟨true, true, 1, 1⟩ := by
    simp only [Legal, Call.Allowed, Call.after, Phase.start]
    decide
  obtain ⟨vs, h, e⟩ := C15_no_ub _ hl
  exact ⟨_, h, ⟨_, _, hl, e⟩, rfl, rfl⟩

/-- `shutdown` twice is a double free, and the clock after `shutdown` uses freed memory. -/
theorem C15_needed_off {p : Phase} {h : H} (r : Reach p h) (hp : p.on = true) :
    ∃ h', exec .shutdown h = some (0, h') ∧ exec .shutdown h' = none ∧
      (∀ u, exec (.runClockCycle u) h' = none) ∧ exec .getState h' = none ∧
      exec .getNextState h' = none ∧ exec .getDataBus h' = none := by
  obtain ⟨a, o⟩ := r.on hp
  obtain ⟨cur, rep⟩ := o.rep
  obtain ⟨h', e, _, hd⟩ := shutdown_dead rep.live ⟨_, rep.mem⟩
  have up : ∀ {α : Type} (s : Slot) (k : Unit → Prog α), s ≠ .mxregControl →
      ∀ c, H.run (Prog.op (.upd s) k) { h' with clk := c } = none := by
    intro α s k hs c
    obtain ⟨a, h1, h2⟩ := hd s hs
    show ((PS.updateBus h'.ps (h'.busPtr s)).map _).bind _ = none
    simp only [PS.updateBus, h1, h2, Option.map_none, Option.bind_none]
  have nx : ∀ {α : Type} (s : Slot) (k : W → Prog α), s ≠ .mxregControl →
      H.run (Prog.op (.nxt s) k) h' = none := by
    intro α s k hs
    obtain ⟨a, h1, h2⟩ := hd s hs
    show ((PS.deref h'.ps (h'.busPtr s)).map _).bind _ = none
    simp only [PS.deref, h1, h2, Option.map_none, Option.bind_none]
  refine ⟨h', by simp only [exec, e, Option.map_some], ?_, fun u => ?_, ?_, ?_, ?_⟩
  · obtain ⟨a, h1, h2⟩ := hd .linkQ5 (by decide)
    have := cmds_dead (rand := fun _ => 0) [.linkQ5, .linkQ4, .linkQ3, .linkQ2, .linkQ1, .linkQ0,
      .linkD5, .linkD4, .linkD3, .linkD2, .linkD1, .linkD0] (shutdownCmds.drop 13) h1 h2
    simp only [exec]
    have e : shutdownCmds = ([.linkQ5, .linkQ4, .linkQ3, .linkQ2, .linkQ1, .linkQ0,
      .linkD5, .linkD4, .linkD3, .linkD2, .linkD1, .linkD0] : List Slot).map Cmd.unsub ++
      .destroy .linkQ5 :: shutdownCmds.drop 13 := rfl
    rw [e, this]; rfl
  · simp only [exec, clockLoop]
    cases hc : h'.clk with
    | true =>
      rw [show H.run (runCu (!true)) { h' with clk := !true } = none from up _ _ (by decide) _]
      rfl
    | false =>
      rw [show H.run (runCu (!false)) { h' with clk := !false } = none from up _ _ (by decide) _]
      rfl
  · exact nx .linkQ5 _ (by decide)
  · exact nx .linkD5 _ (by decide)
  · exact nx .linkData _ (by decide)

/-! ## C13 -/

/-- **C13.** On every reachable machine `get_state` and `get_next_state` show one of the 45
microstates of the control store, and not one of the interrupt path (S25, S27, S30, S42). -/
theorem C13_states {p : Phase} {h : H} (r : Reach p h) (hp : p.on = true) :
    ∃ s n : Nat, exec .getState h = some (BitVec.ofNat 32 s, h) ∧
      NextState h (BitVec.ofNat 32 n) ∧ s < ROM.length ∧ n < ROM.length ∧
      s ∉ [25, 27, 30, 42] ∧ n ∉ [25, 27, 30, 42] := by
  obtain ⟨a, o⟩ := r.on hp
  have key : ∀ x : BitVec 6, x ∉ badStates → x.toNat < ROM.length ∧ x.toNat ∉ [25, 27, 30, 42] := by
    decide +kernel
  have e : ∀ x : BitVec 6, (x.setWidth 32 : CInt) = BitVec.ofNat 32 x.toNat := fun x => by
    apply BitVec.eq_of_toNat_eq; simp
  refine ⟨a.q.toNat, a.dd.toNat, ?_, ?_, (key _ o.okq).1, (key _ o.ok.1).1, (key _ o.okq).2,
    (key _ o.ok.1).2⟩
  · rw [← e]; exact o.getState
  · rw [← e]; exact o.getNextState

example : ROM.length = 45 := rfl

/-! ## C14 -/

/-- Largest value of each register. -/
def WType.max : WType → Nat
  | .fc => 1
  | .fz => 1
  | .pc => 65535
  | .sp => 65535
  | _ => 255

/-- **C14.** Registers stay within their widths. -/
theorem C14_registers {p : Phase} {h : H} (r : Reach p h) (hp : p.on = true) (t : WType) :
    ∃ v : CInt, RegIs h t v ∧ 0 ≤ v.toInt ∧ v.toInt ≤ t.max := by
  obtain ⟨m, t'⟩ := r.at hp
  refine ⟨_, t'.reg t, ?_⟩
  have w8 : ∀ x : BitVec 8, 0 ≤ (x.setWidth 32 : CInt).toInt ∧ (x.setWidth 32 : CInt).toInt ≤ 255 :=
    fun x => by rw [toInt_of_8]; have := x.isLt; omega
  have w16 : ∀ x : BitVec 16, 0 ≤ (x.setWidth 32 : CInt).toInt ∧
      (x.setWidth 32 : CInt).toInt ≤ 65535 :=
    fun x => by rw [toInt_ofNat_16]; have := x.isLt; omega
  have w1 : ∀ b : Bool, 0 ≤ (if b then (1 : CInt) else 0).toInt ∧
      (if b then (1 : CInt) else 0).toInt ≤ 1 := by decide
  cases t
  case fc => exact w1 m.v.fc
  case fz => exact w1 m.v.fz
  case pc => exact w16 m.v.pc
  case sp => exact w16 m.v.sp
  all_goals exact w8 _

/-- **C14.** Memory cells and the data bus stay within 0..255. -/
theorem C14_cells {p : Phase} {h : H} (r : Reach p h) (hp : p.on = true) (i : BitVec 16) :
    ∃ v : CInt, exec (.getMemoryValue (i.setWidth 32)) h = some (v, h) ∧ 0 ≤ v.toInt ∧
      v.toInt ≤ 255 := by
  obtain ⟨m, t⟩ := r.at hp
  exact ⟨_, t.mem i, by rw [toInt_of_8]; omega, by rw [toInt_of_8]; have := (m.v.mem i).isLt; omega⟩

theorem C14_data_bus {p : Phase} {h : H} (r : Reach p h) (hp : p.on = true) :
    ∃ v : CInt, exec .getDataBus h = some (v, h) ∧ 0 ≤ v.toInt ∧ v.toInt ≤ 255 := by
  obtain ⟨a, o⟩ := r.on hp
  exact ⟨_, o.getDataBus, by rw [toInt_of_8]; omega,
    by rw [toInt_of_8]; have := a.data.isLt; omega⟩

/-! ## C19 -/

/-- **C19.** `reset_control` in the middle of any instruction makes the next cycle a fetch;
`set_register_pc(n)` makes it fetch the byte at `n`. Registers (other than PC) and memory cells keep
their values. -/
theorem C19_restart {p : Phase} {h : H} (r : Reach p h) (hp : p.on = true) (hu : p.ui = true)
    (n : BitVec 16) (u : Bool) :
    ∃ h1 h2 h3, exec .resetControl h = some (0, h1) ∧ NextState h1 0 ∧
      (∀ t v, RegIs h t v → RegIs h1 t v) ∧ (∀ i x, Cell h i x → Cell h1 i x) ∧
      exec (.setRegisterPc (n.setWidth 32)) h1 = some (0, h2) ∧ NextState h2 0 ∧
      RegIs h2 .pc (n.setWidth 32) ∧ (∀ t v, t ≠ .pc → RegIs h t v → RegIs h2 t v) ∧
      (∀ i x, Cell h i x → Cell h2 i x) ∧
      exec (.runClockCycle u) h2 = some (0, h3) ∧
      exec .getState h3 = some (0, h3) ∧ (∀ x, Cell h n x → RegIs h3 .ri (x.setWidth 32)) := by
  obtain ⟨a, o⟩ := r.on hp
  have hui : h.ui = true := r.inv.ui.trans hu
  obtain ⟨h1, e1, o1, s1, _⟩ := o.reset
  obtain ⟨h2, e2, o2, s2, _⟩ := o1.setPc (s1.2.1.trans hui) n
  obtain ⟨h3, e3, o3, s3, _⟩ := o2.cycle u (fun _ => s2.2.1.trans (s1.2.1.trans hui))
  obtain ⟨c1, _, c3, _⟩ := A.cycle_spec _ o2.settled o2.ok.lt
  refine ⟨h1, h2, h3, e1, o1.getNextState, ?_, ?_, e2, o2.getNextState, o2.getReg .pc, ?_, ?_, e3,
    ?_, ?_⟩
  · intro t v hv
    have := some_inj (hv.symm.trans (o.getReg t))
    rw [this]; exact o1.getReg t
  · intro i x hx
    have := some_inj (hx.symm.trans (o.getMemory i))
    unfold Cell
    rw [this]; exact o1.getMemory i
  · intro t v ht hv
    have := some_inj (hv.symm.trans (o.getReg t))
    rw [this]
    have := o2.getReg t
    cases t <;> first | exact this | exact absurd rfl ht
  · intro i x hx
    have := some_inj (hx.symm.trans (o.getMemory i))
    unfold Cell
    rw [this]; exact o2.getMemory i
  · have := o3.getState
    rw [c3] at this; exact this
  · intro x hx
    have hx' := some_inj (hx.symm.trans (o.getMemory n))
    have := o3.getReg .ri
    unfold RegIs
    rw [hx', this, c1]
    have z : (0 : BitVec 6).toNat = 0 := by decide
    show some ((V.rtl (0 : BitVec 6).toNat _).ri.setWidth 32, h3) = _
    rw [z]
    by_cases hn : n = 0xFFFF
    · simp only [V.rtl, V.incPc, V.setPc, A.view, A.resetCtl, hn, if_true]
    · simp only [V.rtl, V.incPc, V.setPc, A.view, A.resetCtl, hn, if_false]

/-! ## C23 -/

/-- **C23.** At every point of every history between `init` and `shutdown`, every bus variable of
every component holds, as its copy of the bus it is connected to, the last message published to
that bus since `init`, or zero if there was none. So all components connected to a bus see the same
value. (The variable is subscribed: `subs id` is an active subscription of that bus in the list of
the publisher.) -/
theorem C23_coherent {p : Phase} {h : H} {cs : List Call} {vs : List CInt}
    (hl : Legal Phase.start cs p) (e : execAll cs H.start = some (vs, h)) (hp : p.on = true)
    (s : Slot) : ∃ a b id, h.busPtr s = some a ∧ h.ps.heap a = some b ∧ h.subPtr s = some id ∧
      id ∈ h.ps.order ∧ h.ps.subs id = some ⟨s.topic, some a, true⟩ ∧
      b.next = lastMessages cs H.start (fun _ => 0) s.topic := by
  obtain ⟨t, r, ht⟩ := history_topic cs (g := fun _ => 0) Inv.start (fun e => by cases e) hl e hp
  obtain ⟨a, b, id, h1, h2, h3, h4, h5⟩ := r.live.slot s
  have := r.bus s a h1
  rw [h2] at this
  refine ⟨a, b, id, h1, h2, h3, h5, h4, ?_⟩
  cases this
  rw [← ht]

/-- In particular two variables connected to the same bus hold the same copy. -/
theorem C23_same {p : Phase} {h : H} (r : Reach p h) (hp : p.on = true) (s s' : Slot)
    (e : s.topic = s'.topic) : ∃ a a' b b', h.busPtr s = some a ∧ h.busPtr s' = some a' ∧
      h.ps.heap a = some b ∧ h.ps.heap a' = some b' ∧ b.next = b'.next := by
  obtain ⟨cs, vs, hl, he⟩ := r
  obtain ⟨a, b, _, h1, h2, _, _, _, h3⟩ := C23_coherent hl he hp s
  obtain ⟨a', b', _, h1', h2', _, _, _, h3'⟩ := C23_coherent hl he hp s'
  exact ⟨a, a', b, b', h1, h1', h2, h2', by rw [h3, h3', e]⟩

/-- The copies matter: the data bus alone is read by several components. -/
example : (Slot.memData).topic = Topic.data ∧ Slot.cuData.topic = Topic.data ∧
    Slot.memData ≠ Slot.cuData := by decide

/-- A history after which a bus holds a non-zero message: `set_register_pc(5)` publishes 5. -/
example : ∀ h : H, h.watch = many 1 →
    record (fun _ => 0) ((Call.setRegisterPc 5).published h) .pcOut = 5 := by
  intro h hw
  simp only [Call.published, getRegister_all h ⟨0, hw⟩ .pc]
  have e : (do setReg WType.pc.theReg 5; publish .pcOut (← Mpp.getReg WType.pc.theReg) : Prog Unit) =
    Prog.op (.setReg Reg.pc 5) fun _ => Prog.op (.getReg .pc) fun w =>
      Prog.op (.pub .pcOut w) Prog.pure := rfl
  rw [e]
  simp only [Prog.published, Op.message, List.nil_append, H.handle, upd_same]
  unfold Prog.published
  generalize H.handle (.pub .pcOut 5) _ = x
  cases x <;> rfl

/-! ## C26 -/

/-- **C26.** The register looked up for a type is the register of that type as long as some `init` has
not been undone by a `shutdown` (in particular on every running machine), and NULL otherwise. -/
theorem C26_lookup {p : Phase} {h : H} (r : Reach p h) (t : WType) :
    h.getRegister t = (if p.pending = 0 then none else some t.theReg) ∧
    (p.on = true → p.pending ≠ 0) := by
  refine ⟨?_, r.inv.pending⟩
  have w := r.inv.watch
  cases hp : p.pending with
  | zero =>
    rw [hp] at w
    simp [H.getRegister, w, many]
  | succ n =>
    rw [hp] at w
    exact getRegister_all h ⟨n, w⟩ t

/-- **C26.** So each getter returns the value of the register it names. -/
theorem C26_getter {p : Phase} {h : H} (r : Reach p h) (hp : p.on = true) (t : WType) :
    exec (.getRegisterValue t) h = some (h.regs t.theReg, h) := by
  obtain ⟨a, o⟩ := r.on hp
  obtain ⟨cur, rep⟩ := o.rep
  have e := o.getReg t
  rw [e, rep.regs]
  cases t <;> first | rfl | (show some ((if _ then (1 : CInt) else 0), h) = _; rw [← boolWord_int]; rfl)

/-! ## C27 -/

/-- The getters show the registers, cells and errors of `v`. -/
structure ShowsAll (h : H) (v : V) : Prop where
  reg : ∀ t, RegIs h t (v.reg t)
  mem : ∀ i, Cell h i (v.mem i)
  log : h.log = v.log

theorem At.showsAll {h : H} {m : M} (t : At h m) : ShowsAll h m.v := ⟨t.reg, t.mem, t.log⟩

/-- **C27.** `run_clock_cycle` returns with the clock high, having executed exactly one microstate:
the one `get_next_state` showed before, which is the one `get_state` shows afterwards, with exactly
the register transfer of that microstate (`V.rtl`, one line per microstate) as its effect. -/
theorem C27_cycle {p : Phase} {h : H} (r : Reach p h) (hp : p.on = true) (u : Bool)
    (hu : u = true → p.ui = true) : ∃ (v : V) (s : BitVec 6) (h' : H),
      ShowsAll h v ∧ NextState h (s.setWidth 32) ∧
      exec (.runClockCycle u) h = some (0, h') ∧ h'.clk = true ∧
      exec .getState h' = some (s.setWidth 32, h') ∧ ShowsAll h' (v.rtl s.toNat) := by
  obtain ⟨a, o⟩ := r.on hp
  obtain ⟨h', e, o', _, hc⟩ := o.cycle u (fun e => r.inv.ui.trans (hu e))
  obtain ⟨c1, _, c3, _⟩ := A.cycle_spec a o.settled o.ok.lt
  refine ⟨a.view, a.dd, h', o.at.showsAll, o.getNextState, e, hc, ?_, ?_⟩
  · have := o'.getState; rw [c3] at this; exact this
  · have := o'.at.showsAll; rw [← c1]; exact this

/-- **C27.** The bound on the loop of the model does not matter: the `while (1)` loop of
`run_cu_clock_cycle` always ends after one or two iterations. -/
theorem C27_loop {p : Phase} {h : H} (r : Reach p h) (hp : p.on = true) (n : Nat) :
    ∃ h', clockLoop (n + 2) h = some h' ∧ clockLoop 2 h = some h' := by
  obtain ⟨a, o⟩ := r.on hp
  obtain ⟨h', e, _⟩ := o.cycle false (by simp)
  have e2 : clockLoop 2 h = some h' := by
    simp only [exec] at e
    cases hx : clockLoop 2 h with
    | none => rw [hx] at e; cases e
    | some x => rw [hx] at e; cases e; rfl
  refine ⟨h', ?_, e2⟩
  have step : ∀ k h h', clockLoop k h = some h' → clockLoop (k + 1) h = some h' := by
    intro k
    induction k with
    | zero => intro h h' e; cases e
    | succ k ih =>
      intro h h' e
      simp only [clockLoop] at e ⊢
      split
      · rename_i hn; rw [hn] at e; cases e
      · rename_i x hx
        rw [hx] at e
        simp only at e ⊢
        split
        · rename_i ht; rw [if_pos ht] at e; exact e
        · rename_i ht; rw [if_neg ht] at e; exact ih _ _ e
  induction n with
  | zero => exact e2
  | succ n ih => exact step _ _ _ ih

/-! ## C28 -/

/-- **C28.** After any two histories (none at all, one that ends with a shutdown, or one that leaves the
machine running), `init` with the same random numbers gives machines that cannot be told apart: every
later history of calls returns the same values on both and reports the same errors. -/
theorem C28_fresh {p1 p2 q1 q2 : Phase} {h1 h2 : H} (r1 : Reach p1 h1) (r2 : Reach p2 h2)
    (rand : Nat → Nat) (cs : List Call)
    (g1 : Legal p1 (.init rand :: cs) q1) (g2 : Legal p2 (.init rand :: cs) q2) :
    ∃ vs h1' h2' new, execAll (.init rand :: cs) h1 = some (vs, h1') ∧
      execAll (.init rand :: cs) h2 = some (vs, h2') ∧
      h1'.log = new ++ h1.log ∧ h2'.log = new ++ h2.log := by
  obtain ⟨s1, d1⟩ := r1.desc
  obtain ⟨s2, d2⟩ := r2.desc
  obtain ⟨k1, e1, f1⟩ := d1.call (.init rand) g1.1
  obtain ⟨k2, e2, f2⟩ := d2.call (.init rand) g2.1
  have v1 : s1.value (.init rand) = 0 := by cases s1 <;> rfl
  have v2 : s2.value (.init rand) = 0 := by cases s2 <;> rfl
  rw [v1] at e1
  rw [v2] at e2
  have pair : Abs.Pair Eq s1.log s2.log (s1.call (.init rand)) (s2.call (.init rand)) := by
    have a1 : s1.call (.init rand) = .on ((A.fresh rand []).app s1.log) := by cases s1 <;> rfl
    have a2 : s2.call (.init rand) = .on ((A.fresh rand []).app s2.log) := by cases s2 <;> rfl
    rw [a1, a2]
    exact ⟨A.fresh rand [], A.fresh rand [], rfl, rfl, rfl⟩
  obtain ⟨vs, h1', h2', s1', s2', x1, x2, d3, d4, h⟩ := pair_calls kept_eq cs pair f1 f2 g1.2 g2.2
    (fun _ _ => trivial)
  obtain ⟨new, n1, n2⟩ := h.logs kept_eq
  exact ⟨0 :: vs, h1', h2', new, by simp only [execAll, e1, Option.bind_some, x1, Option.map_some],
    by simp only [execAll, e2, Option.bind_some, x2, Option.map_some],
    by rw [d3.log, n1, d1.log], by rw [d4.log, n2, d2.log]⟩

/-- A history in which a running machine is initialised again, twice, and shut down. -/
def againAndAgain : List Call :=
  [.setUpdateUi true, .init (fun i => i), .setMemoryValue 0 0xFF, .runClockCycle true,
   .init (fun _ => 3), .runClockCycle true, .init (fun _ => 7), .runClockCycle false, .shutdown]

theorem againAndAgain_legal : Legal Phase.start againAndAgain ⟨false, true, 3, 2⟩ := by
  simp only [againAndAgain, Legal, Call.Allowed, Call.after, Phase.start]
  decide

/-- The first `init` against one on a machine that runs and has been initialised three times. -/
example : ∃ (p : Phase) (h : H), Reach p h ∧ p.on = true ∧ p.inits = 3 ∧ p.pending = 3 := by
  have hl : Legal Phase.start againAndAgain.dropLast ⟨true, true, 3, 3⟩ := by
    simp only [againAndAgain, List.dropLast, Legal, Call.Allowed, Call.after, Phase.start]
    decide
  obtain ⟨vs, h, e⟩ := C15_no_ub _ hl
  exact ⟨_, h, ⟨_, _, hl, e⟩, rfl, rfl, rfl⟩

/-- The first `init` against one after a whole round. -/
example : ∃ (p : Phase) (h : H), Reach p h ∧ p.on = false ∧ p.inits = 2 := by
  obtain ⟨vs, h, e⟩ := C15_no_ub twoRounds twoRounds_legal
  exact ⟨_, h, ⟨_, _, twoRounds_legal, e⟩, rfl, rfl⟩

/-! ## C29 -/

/-- **C29.** `set_memory_value(i, x)` changes cell `i` to `x` and nothing else that a getter
shows. -/
theorem C29_set {p : Phase} {h : H} (r : Reach p h) (hp : p.on = true) (hu : p.ui = true)
    (i : BitVec 16) (x : BitVec 8) :
    ∃ h', exec (.setMemoryValue (i.setWidth 32) (x.setWidth 32)) h = some (0, h') ∧ Cell h' i x ∧
      (∀ j y, j ≠ i → Cell h j y → Cell h' j y) ∧ (∀ t v, RegIs h t v → RegIs h' t v) ∧
      (∀ n, NextState h n → NextState h' n) := by
  obtain ⟨a, o⟩ := r.on hp
  obtain ⟨h', e, o', _⟩ := o.setMemory (r.inv.ui.trans hu) i x
  refine ⟨h', e, ?_, fun j y hj hy => ?_, fun t v hv => ?_, fun n hn => ?_⟩
  · have := o'.getMemory i
    simp only [upd_same] at this
    exact this
  · have e1 := some_inj (hy.symm.trans (o.getMemory j))
    have := o'.getMemory j
    simp only [upd_ne _ _ hj] at this
    unfold Cell; rw [e1]; exact this
  · rw [some_inj (hv.symm.trans (o.getReg t))]; exact o'.getReg t
  · rw [some_inj (hn.symm.trans o.getNextState)]; exact o'.getNextState

/-- **C29.** `get_memory_value` is -1 exactly outside 0..65535. -/
theorem C29_bounds {p : Phase} {h : H} (r : Reach p h) (hp : p.on = true) (n : CInt) :
    exec (.getMemoryValue n) h = some (-1, h) ↔ ¬ (0 ≤ n.toInt ∧ n.toInt ≤ 65535) := by
  constructor
  · rintro e hn
    have ha : IsAddr n := hn
    obtain ⟨v, e', h0, _⟩ := C14_cells r hp (n.setWidth 16)
    rw [ha.eq] at e'
    have := some_inj (e.symm.trans e')
    rw [← this] at h0
    exact absurd h0 (by decide)
  · intro hn; exact On.getMemory_out hn

/-! ## C30 -/

/-- Every register, flag, cell and the next microstate shown by `h1` is also shown by `h2`. -/
structure LooksLike (h1 h2 : H) : Prop where
  reg : ∀ t v, RegIs h1 t v → RegIs h2 t v
  cell : ∀ i x, Cell h1 i x → Cell h2 i x
  next : ∀ n, NextState h1 n → NextState h2 n

theorem looks_m {h1 h2 : H} {a b : A} (o1 : On h1 a) (o2 : On h2 b) (e : LooksLike h1 h2) :
    ∃ a0 b0 : A, a = a0.app h1.log ∧ b = b0.app h2.log ∧ a0.m = b0.m ∧ a0 = { a with log := [] } ∧
      b0 = { b with log := [] } := by
  refine ⟨{ a with log := [] }, { b with log := [] }, ?_, ?_, ?_, rfl, rfl⟩
  · rw [o1.log]; rfl
  · rw [o2.log]; rfl
  · have e1 : ∀ t, a.view.reg t = b.view.reg t := fun t =>
      some_inj ((e.reg t _ (o1.getReg t)).symm.trans (o2.getReg t))
    have e2 : a.mem = b.mem := by
      funext i
      exact widen8_inj (some_inj ((e.cell i _ (o1.getMemory i)).symm.trans (o2.getMemory i)))
    have e3 : a.dd = b.dd :=
      widen6_inj (some_inj ((e.next _ o1.getNextState).symm.trans o2.getNextState))
    have : ({ a with log := [] } : A).view = ({ b with log := [] } : A).view :=
      reg_inj (v := ({ a with log := [] } : A).view) (w := ({ b with log := [] } : A).view)
        (fun t => by have := e1 t; cases t <;> exact this) e2 rfl
    unfold A.m
    rw [this, e3]

/-- **C30.** Two reachable machines that show the same registers, flags, memory and next microstate
return the same values in every later history of calls and report the same errors. The getters that
show the raw contents of an internal bus (`Call.raw`) are excluded here, see `C30_all`. -/
theorem C30_visible {p1 p2 q1 q2 : Phase} {h1 h2 : H} (r1 : Reach p1 h1) (r2 : Reach p2 h2)
    (o1 : p1.on = true) (o2 : p2.on = true) (e : LooksLike h1 h2) (cs : List Call)
    (g1 : Legal p1 cs q1) (g2 : Legal p2 cs q2) (hc : ∀ c ∈ cs, c.raw = false) :
    ∃ vs h1' h2' new, execAll cs h1 = some (vs, h1') ∧ execAll cs h2 = some (vs, h2') ∧
      h1'.log = new ++ h1.log ∧ h2'.log = new ++ h2.log := by
  obtain ⟨s1, d1⟩ := r1.desc
  obtain ⟨s2, d2⟩ := r2.desc
  cases s1 with
  | off l => rw [d1.phase] at o1; cases o1
  | on a =>
    cases s2 with
    | off l => rw [d2.phase] at o2; cases o2
    | on b =>
      obtain ⟨a0, b0, rfl, rfl, hm, _⟩ := looks_m d1.is d2.is e
      obtain ⟨vs, h1', h2', s1', s2', e1, e2, d3, d4, h⟩ := pair_calls kept_m (l1 := h1.log)
        (l2 := h2.log) (s1 := .on (a0.app h1.log)) (s2 := .on (b0.app h2.log)) cs ⟨a0, b0, rfl, rfl, hm⟩ d1 d2 g1 g2 hc
      obtain ⟨new, n1, n2⟩ := h.logs kept_m
      exact ⟨vs, h1', h2', new, e1, e2, by rw [d3.log, n1], by rw [d4.log, n2]⟩

/-- **C30.** If the raw getters agree too, then all calls agree from then on. -/
theorem C30_all {p1 p2 q1 q2 : Phase} {h1 h2 : H} (r1 : Reach p1 h1) (r2 : Reach p2 h2)
    (o1 : p1.on = true) (o2 : p2.on = true) (e : LooksLike h1 h2)
    (er : ∀ c v, c.raw = true → exec c h1 = some (v, h1) → exec c h2 = some (v, h2))
    (cs : List Call) (g1 : Legal p1 cs q1) (g2 : Legal p2 cs q2) :
    ∃ vs h1' h2' new, execAll cs h1 = some (vs, h1') ∧ execAll cs h2 = some (vs, h2') ∧
      h1'.log = new ++ h1.log ∧ h2'.log = new ++ h2.log := by
  obtain ⟨s1, d1⟩ := r1.desc
  obtain ⟨s2, d2⟩ := r2.desc
  cases s1 with
  | off l => rw [d1.phase] at o1; cases o1
  | on a =>
    cases s2 with
    | off l => rw [d2.phase] at o2; cases o2
    | on b =>
      have w1 : On h1 a := d1.is
      have w2 : On h2 b := d2.is
      have f1 : a.q = b.q :=
        widen6_inj (some_inj ((er _ _ rfl w1.getState).symm.trans w2.getState))
      have f2 : a.data = b.data :=
        widen8_inj (some_inj ((er _ _ rfl w1.getDataBus).symm.trans w2.getDataBus))
      have f3 : a.dir2 = b.dir2 :=
        widen16_inj (some_inj ((er _ _ rfl w1.getMemoryDirBus).symm.trans w2.getMemoryDirBus))
      have f4 : a.control = b.control := by
        apply BitVec.eq_of_getLsbD_eq
        intro k _
        exact flag_inj (some_inj ((er _ _ rfl (w1.getControlBit k)).symm.trans (w2.getControlBit k)))
      obtain ⟨a0, b0, ha, hb, hm, ha0, hb0⟩ := looks_m w1 w2 e
      have al : Alike a0 b0 := by
        rw [ha0, hb0] at hm ⊢
        exact ⟨hm, f1, f2, f3, f4⟩
      obtain ⟨vs, h1', h2', s1', s2', e1, e2, d3, d4, h⟩ := pair_calls kept_alike (l1 := h1.log)
        (l2 := h2.log) (s1 := .on a) (s2 := .on b) cs ⟨a0, b0, ha, hb, al⟩ d1 d2 g1 g2 (fun _ _ => trivial)
      obtain ⟨new, n1, n2⟩ := h.logs kept_alike
      exact ⟨vs, h1', h2', new, e1, e2, by rw [d3.log, n1], by rw [d4.log, n2]⟩

/-- The hypotheses of `C30_visible` are met by machines with different histories. -/
example : ∃ p1 p2 h1 h2, Reach p1 h1 ∧ Reach p2 h2 ∧ p1.on = true ∧ p2.on = true ∧
    LooksLike h1 h2 ∧ p1.inits ≠ p2.inits := by
  have l1 : Legal Phase.start [] ⟨false, false, 0, 0⟩ := rfl
  have r1 : Reach ⟨false, false, 0, 0⟩ H.start := ⟨[], [], l1, rfl⟩
  obtain ⟨vs, h, e⟩ := C15_no_ub _ twoRounds_legal
  have r2 : Reach ⟨false, true, 2, 0⟩ h := ⟨_, _, twoRounds_legal, e⟩
  let rand : Nat → Nat := fun i => i
  obtain ⟨h1, e1, o1, _⟩ := r1.inv.any.init rand (by rw [r1.inv.count]; decide)
  obtain ⟨h2, e2, o2, _⟩ := r2.inv.any.init rand (by rw [r2.inv.count]; decide)
  refine ⟨_, _, h1, h2, r1.step (c := .init rand) (by decide : (0 : Nat) < 27183337) e1,
    r2.step (c := .init rand) (by decide : (2 : Nat) < 27183337) e2, rfl, rfl, ⟨?_, ?_, ?_⟩, by decide⟩
  · intro t v hv
    rw [some_inj (hv.symm.trans (o1.getReg t))]
    exact (by cases t <;> rfl : (A.fresh rand h.log).view.reg t = (A.fresh rand H.start.log).view.reg t) ▸ o2.getReg t
  · intro i x hx
    unfold Cell
    rw [some_inj (hx.symm.trans (o1.getMemory i))]
    exact o2.getMemory i
  · intro n hn
    rw [some_inj (hn.symm.trans o1.getNextState)]
    exact o2.getNextState

/-! ## C34 -/

/-- **C34.** Whatever `rand()` returns, `init`, also of a running machine, fills every cell with a value in 0..254, and all
registers with 0. -/
theorem C34_init {p : Phase} {h : H} (r : Reach p h) (hi : p.inits < 27183337)
    (rand : Nat → Nat) : ∃ h', exec (.init rand) h = some (0, h') ∧
      (∀ i : BitVec 16, ∃ v : CInt, exec (.getMemoryValue (i.setWidth 32)) h' = some (v, h') ∧
        0 ≤ v.toInt ∧ v.toInt ≤ 254 ∧ v.toInt = rand i.toNat % 255) ∧
      (∀ t, RegIs h' t 0) ∧ NextState h' 0 := by
  obtain ⟨h', e, o, _⟩ := r.inv.any.init rand (by rw [r.inv.count]; omega)
  refine ⟨h', e, fun i => ⟨_, o.getMemory i, ?_⟩, fun t => ?_, o.getNextState⟩
  · rw [toInt_of_8]
    show 0 ≤ ((randByte (rand i.toNat)).toNat : Int) ∧ _
    unfold randByte
    show _ ∧ ((BitVec.ofNat 8 (rand i.toNat % 255)).toNat : Int) ≤ 254 ∧
      ((BitVec.ofNat 8 (rand i.toNat % 255)).toNat : Int) = _
    rw [BitVec.toNat_ofNat]
    omega
  · have := o.getReg t
    cases t <;> exact this

end Mpp
