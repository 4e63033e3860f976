import Verif.Seq
import Verif.Observe
/-!
# The exported API on the typed machine

Every call of the API, in a history that respects the lifecycle, runs without undefined behaviour
and does to the typed state what is said here. Induction over histories.
-/
namespace Mpp

/-! ## The invariant -/

/-- The watchers registered by `n` initialisations. -/
def many (n : Nat) : List Watcher := (List.replicate n allWatchers).flatten

theorem many_succ (n : Nat) : many (n + 1) = allWatchers ++ many n := by
  simp only [many, List.replicate_succ, List.flatten_cons]

theorem many_add (n : Nat) : many n ++ allWatchers = many (n + 1) := by
  induction n with
  | zero => rfl
  | succ n ih => rw [many_succ, List.append_assoc, ih, ← many_succ]

/-- Removing each element of a list once from the list followed by another. -/
theorem erase_all (l r : List Watcher) : l.foldl List.erase (l ++ r) = r := by
  induction l with
  | nil => rfl
  | cons x l ih => rw [List.cons_append, List.foldl_cons, List.erase_cons_head, ih]

/-- `h` is a running machine in typed state `a`. -/
structure On (h : H) (a : A) : Prop where
  rep : ∃ cur, Rep h (lift a cur)
  watch : ∃ n, h.watch = many (n + 1)
  clk : h.clk = false → a.q = a.dd
  settled : a.Settled
  ok : OkState a.dd a.ri
  okq : a.q ∉ badStates

/-- `h` is a machine that can be initialised: one that has not been yet, one that is shut down or one
that is running. -/
structure Off (h : H) : Prop where
  good : Good h
  watch : ∃ n, h.watch = many n

theorem Rep.congr {h h' : H} {t : T} (r : Rep h t) (f1 : h'.ps = h.ps) (f2 : h'.busPtr = h.busPtr)
    (f3 : h'.subPtr = h.subPtr) (f4 : h'.regs = h.regs) (f5 : h'.mem = h.mem)
    (f6 : h'.log = h.log) : Rep h' t := by
  obtain ⟨⟨⟨g1, g2, g3, g4, g5⟩, l1, l2, l3⟩, b, rg, m, lg⟩ := r
  refine ⟨⟨⟨?_, ?_, ?_, ?_, ?_⟩, ?_, ?_, ?_⟩, ?_, ?_, ?_, ?_⟩
  all_goals first | rw [f1] | skip
  all_goals first | rw [f2] | skip
  all_goals first | rw [f3] | skip
  all_goals first | rw [f4] | skip
  all_goals first | rw [f5] | skip
  all_goals first | rw [f6] | skip
  all_goals assumption

/-! ## Reading buses -/

theorem Rep.nxt {h : H} {t : T} (r : Rep h t) (s : Slot) :
    H.run (busNext s) h = some (t.topic s.topic, h) := by
  obtain ⟨a, b, id, h1, h2, _⟩ := r.live.slot s
  have := r.bus s a h1
  simp only [H.run, busNext, Prog.run, H.handle, PS.deref, h1, this, Option.bind_some,
    Option.map_some]

theorem hrun_bind {α β} (p : Prog α) (f : α → Prog β) (h : H) :
    H.run (p >>= f) h = (H.run p h).bind fun r => H.run (f r.1) r.2 := Prog.run_bind _ _ _ _

theorem hrun_pure {α} (x : α) (h : H) : H.run (pure x) h = some (x, h) := rfl
theorem hrun_ppure {α} (x : α) (h : H) : H.run (Prog.pure x) h = some (x, h) := rfl
theorem hrun_getReg (r : Reg) (h : H) : H.run (getReg r) h = some (h.regs r, h) := rfl

/-! ## Getters -/

/-- The register with each type, as an `int`. -/
def V.reg (v : V) : WType → CInt
  | .acum => v.ac.setWidth 32
  | .fc => if v.fc then 1 else 0
  | .fz => if v.fz then 1 else 0
  | .b => v.b.setWidth 32
  | .c => v.c.setWidth 32
  | .d => v.d.setWidth 32
  | .e => v.e.setWidth 32
  | .h => v.h.setWidth 32
  | .l => v.l.setWidth 32
  | .op2 => v.op2.setWidth 32
  | .pch => v.pch.setWidth 32
  | .pcl => v.pcl.setWidth 32
  | .pc => v.pc.setWidth 32
  | .sp => v.sp.setWidth 32
  | .ri => v.ri.setWidth 32

/-- The register object of each type. -/
def WType.theReg : WType → Reg
  | .acum => .ac
  | .fc => .fc
  | .fz => .fz
  | .b => .b
  | .c => .c
  | .d => .d
  | .e => .e
  | .h => .h
  | .l => .l
  | .op2 => .op2
  | .pch => .pch
  | .pcl => .pcl
  | .pc => .pc
  | .sp => .sp
  | .ri => .ri

theorem getRegister_all (h : H) (hw : ∃ n, h.watch = many (n + 1)) (t : WType) :
    h.getRegister t = some t.theReg := by
  obtain ⟨n, hw⟩ := hw
  unfold H.getRegister
  rw [hw, many_succ, List.find?_append]
  generalize many n = l
  cases t <;> rfl

theorem boolWord_int (b : Bool) : boolWord b = if b then 1 else 0 := by cases b <;> rfl

theorem On.getReg {h : H} {a : A} (o : On h a) (t : WType) :
    exec (.getRegisterValue t) h = some (a.view.reg t, h) := by
  obtain ⟨cur, r⟩ := o.rep
  simp only [exec, getRegister_all h o.watch t, hrun_bind, hrun_getReg, Option.bind_some, r.regs]
  cases t <;>
    simp only [WType.theReg, reg_ac, reg_fc, reg_fz, reg_b, reg_c, reg_d, reg_e, reg_h, reg_l,
      reg_op2, reg_pch, reg_pcl, reg_pc, reg_sp, reg_ri, toInt_8, toInt_16, toInt_bool, hrun_ppure,
      V.reg, A.view]
  all_goals (rw [boolWord_int]; rfl)

theorem On.getNextState {h : H} {a : A} (o : On h a) :
    exec .getNextState h = some (a.dd.setWidth 32, h) := by
  obtain ⟨cur, r⟩ := o.rep
  simp only [exec, getProcessedState, hrun_bind, r.nxt, Option.bind_some, Slot.topic, top_d5, top_d4,
    top_d3, top_d2, top_d1, top_d0, sel_q, hrun_ppure]

theorem On.getState {h : H} {a : A} (o : On h a) :
    exec .getState h = some (a.q.setWidth 32, h) := by
  obtain ⟨cur, r⟩ := o.rep
  simp only [exec, getRomPos, hrun_bind, r.nxt, Option.bind_some, Slot.topic, top_q5, top_q4,
    top_q3, top_q2, top_q1, top_q0, sel_q, hrun_ppure]

theorem On.getDataBus {h : H} {a : A} (o : On h a) :
    exec .getDataBus h = some (a.data.setWidth 32, h) := by
  obtain ⟨cur, r⟩ := o.rep
  simp only [exec, Mpp.getDataBus, hrun_bind, r.nxt, Option.bind_some, Slot.topic, top_data, toInt_8,
    hrun_ppure]

theorem On.getMemoryDirBus {h : H} {a : A} (o : On h a) :
    exec .getMemoryDirBus h = some (a.dir2.setWidth 32, h) := by
  obtain ⟨cur, r⟩ := o.rep
  simp only [exec, Mpp.getMemoryDirBus, hrun_bind, r.nxt, Option.bind_some, Slot.topic, top_dir2,
    toInt_16, hrun_ppure]

theorem On.getControlBit {h : H} {a : A} (o : On h a) (k : Nat) :
    exec (.getControlBit k) h = some ((if a.control.getLsbD k then 1 else 0), h) := by
  obtain ⟨cur, r⟩ := o.rep
  simp only [exec, Mpp.getControlBit, hrun_bind, r.nxt, Option.bind_some, Slot.topic, top_control,
    hrun_pure]

/-- `get_control_bus_selalu` of a control word. -/
def selaluOf (c : W) : CInt :=
  (BitVec.ofBool (c.getLsbD CB.selalu2) ++ BitVec.ofBool (c.getLsbD CB.selalu1) ++
    BitVec.ofBool (c.getLsbD CB.selalu0)).setWidth 32

theorem toInt_selalu (b0 b1 b2 : Bool) : toInt (selWord [b0, b1, b2]) =
    Prog.pure ((BitVec.ofBool b2 ++ BitVec.ofBool b1 ++ BitVec.ofBool b0).setWidth 32) := by
  cases b0 <;> cases b1 <;> cases b2 <;> rfl

theorem On.getControlSelalu {h : H} {a : A} (o : On h a) :
    exec .getControlSelalu h = some (selaluOf a.control, h) := by
  obtain ⟨cur, r⟩ := o.rep
  simp only [exec, Mpp.getControlSelalu, hrun_bind, r.nxt, Option.bind_some, Slot.topic, top_control,
    toInt_selalu, hrun_ppure, selaluOf]

theorem On.getMemory {h : H} {a : A} (o : On h a) (i : BitVec 16) :
    exec (.getMemoryValue (i.setWidth 32)) h = some ((a.mem i).setWidth 32, h) := by
  obtain ⟨cur, r⟩ := o.rep
  simp only [exec, getValueByOffset_16, H.run, memGet, Prog.run, H.handle, r.mem, lift_mem,
    Option.bind_some]

/-- An `int` in the address range is the address it denotes. -/
theorem IsAddr.eq {v : CInt} (h : IsAddr v) : (v.setWidth 16).setWidth 32 = v := by
  apply widen_16
  have := v.isLt
  unfold IsAddr at h
  rw [BitVec.toInt_eq_toNat_cond] at h
  split at h <;> omega

theorem IsByte.eq {v : CInt} (h : IsByte v) : (v.setWidth 8).setWidth 32 = v := by
  apply BitVec.eq_of_toNat_eq
  have := v.isLt
  unfold IsByte at h
  rw [BitVec.toInt_eq_toNat_cond] at h
  simp only [BitVec.toNat_setWidth]
  split at h <;> omega

theorem getValueByOffset_none {v : CInt} (h : ¬ IsAddr v) : getValueByOffset v = none := by
  unfold getValueByOffset
  unfold IsAddr at h
  rw [if_pos (by omega)]

theorem On.getMemory_out {h : H} {v : CInt} (hv : ¬ IsAddr v) :
    exec (.getMemoryValue v) h = some (-1, h) := by
  simp only [exec, getValueByOffset_none hv]

/-! ## Calls that change the machine -/

/-- What the calls below leave alone. -/
def Same (h h' : H) : Prop := h'.ps.count = h.ps.count ∧ h'.ui = h.ui ∧ h'.watch = h.watch

theorem On.clkSet {h : H} {cur : Slot → W} {a : A} (r : Rep h (lift a cur)) (b : Bool) :
    Rep { h with clk := b } (lift a cur) := r.congr rfl rfl rfl rfl rfl rfl

theorem clockLoop_high {h : H} (n : Nat) {h' : H} (e : h.clk = false)
    (hr : H.run (runCu true) { h with clk := true } = some ((), h')) :
    clockLoop (n + 1) h = some h' := by
  simp only [clockLoop, e, Bool.not_false, hr, if_true]

theorem clockLoop_low {h : H} (n : Nat) {h' : H} (e : h.clk = true)
    (hr : H.run (runCu false) { h with clk := false } = some ((), h')) :
    clockLoop (n + 1) h = clockLoop n h' := by
  simp only [clockLoop, e, Bool.not_true, hr, Bool.false_eq_true, if_false]

theorem A.dxflipflop_id (a : A) (h : a.q = a.dd) : a.dxflipflop = a := by
  cases a; dsimp only at h; subst h; rfl

theorem rtl_ri (v : V) (k : Nat) (h : k ≠ 0) : (v.rtl k).ri = v.ri := by
  unfold V.rtl V.incPc V.setPc V.decSp V.incSp V.store V.setAcFlags V.setR
  split <;> first | exact absurd rfl h | rfl | (split <;> rfl)

/-- The state after a cycle is again a running machine. -/
theorem on_after_cycle {h : H} {a : A} (hs : a.Settled) (ho : OkState a.dd a.ri)
    (hw : ∃ n, h.watch = many (n + 1)) (hc : h.clk = true)
    (hr : ∃ cur, Rep h (lift a.cycle cur)) : On h a.cycle := by
  obtain ⟨c1, c2, c3, c4, _⟩ := A.cycle_spec a hs ho.lt
  refine ⟨hr, hw, fun e => (by rw [hc] at e; cases e), c2, ?_, ?_⟩
  · rw [c4]
    apply ho.next
    intro h0
    have : a.cycle.view.ri = a.view.ri := by
      rw [c1]
      apply rtl_ri
      intro e
      exact h0 (BitVec.eq_of_toNat_eq e)
    exact this
  · rw [c3]; exact ho.1

theorem On.cycle {h : H} {a : A} (o : On h a) (u : Bool) (hu : u = true → h.ui = true) :
    ∃ h', exec (.runClockCycle u) h = some (0, h') ∧ On h' a.cycle ∧ Same h h' ∧
      h'.clk = true := by
  obtain ⟨cur, r⟩ := o.rep
  have key : ∃ h' cur', clockLoop 2 h = some h' ∧ Rep h' (lift a.cycle cur') ∧
      h'.watch = h.watch ∧ h'.clk = true ∧ Same h h' := by
    cases hc : h.clk with
    | false =>
      have hq := o.clk hc
      have e : a.cycle = a.cuHigh := by unfold A.cycle; rw [A.dxflipflop_id a hq]
      obtain ⟨c1, h1⟩ := run_cuHigh a cur (by rw [hq]; exact o.ok.lt)
      obtain ⟨h', h2, h3, h4⟩ := sim_some (On.clkSet r true) h1
      exact ⟨h', c1, clockLoop_high 1 hc h2, e ▸ h3, h4.watch, h4.clk, h4.count, h4.ui, h4.watch⟩
    | true =>
      obtain ⟨c1, h1⟩ := run_cuLow a cur
      obtain ⟨h1', h2, h3, h4⟩ := sim_some (On.clkSet r false) h1
      obtain ⟨c2, g1⟩ := run_cuHigh a.dxflipflop c1 o.ok.lt
      obtain ⟨h', g2, g3, g4⟩ := sim_some (On.clkSet h3 true) g1
      refine ⟨h', c2, ?_, g3, ?_, g4.clk, ?_, ?_, ?_⟩
      · rw [clockLoop_low 1 hc h2, clockLoop_high 0 h4.clk g2]
      · rw [g4.watch]; exact h4.watch
      · rw [g4.count]; exact h4.count
      · rw [g4.ui]; exact h4.ui
      · rw [g4.watch]; exact h4.watch
  obtain ⟨h', cur', e, r', w, c, s⟩ := key
  refine ⟨h', ?_, on_after_cycle o.settled o.ok (w ▸ o.watch) c ⟨cur', r'⟩, s, c⟩
  simp only [exec, e, Option.bind_some]
  cases u with
  | false => rfl
  | true => simp only [if_true, H.callUi, s.2.1, hu rfl, Option.map_some]

theorem On.reset {h : H} {a : A} (o : On h a) :
    ∃ h', exec .resetControl h = some (0, h') ∧ On h' a.resetCtl ∧ Same h h' ∧
      h'.clk = h.clk := by
  obtain ⟨cur, r⟩ := o.rep
  obtain ⟨c1, h1⟩ := impl_resetControl a cur
  obtain ⟨h', h2, h3, h4⟩ := sim_some r h1
  refine ⟨h', by simp only [exec, h2, Option.map_some], ⟨⟨c1, h3⟩, h4.watch ▸ o.watch,
    fun _ => rfl, o.settled, ok_zero _, (by show (0 : BitVec 6) ∉ _; decide)⟩, ⟨h4.count, h4.ui, h4.watch⟩, h4.clk⟩

theorem On.setMemory {h : H} {a : A} (o : On h a) (hu : h.ui = true) (i : BitVec 16)
    (x : BitVec 8) :
    ∃ h', exec (.setMemoryValue (i.setWidth 32) (x.setWidth 32)) h = some (0, h') ∧
      On h' { a with mem := upd a.mem i x } ∧ Same h h' ∧ h'.clk = h.clk := by
  obtain ⟨cur, r⟩ := o.rep
  have h1 : T.run (memSet i (x.setWidth 32)) (lift a cur) =
      some ((), lift { a with mem := upd a.mem i x } cur) := by
    rw [run_memSet, lift_setMem]
  obtain ⟨h', h2, h3, h4⟩ := sim_some r h1
  refine ⟨h', ?_, ⟨⟨cur, h3⟩, h4.watch ▸ o.watch, fun e => o.clk (h4.clk ▸ e), o.settled, o.ok,
    o.okq⟩, ⟨h4.count, h4.ui, h4.watch⟩, h4.clk⟩
  have h5 : h.handle (.memSet i (x.setWidth 32)) = some ((), h') := by
    rw [← h2]
    simp only [H.run, memSet, Prog.run]
    cases h.handle (.memSet i (x.setWidth 32)) <;> rfl
  simp only [exec, getValueByOffset_16, h5]
  show (h'.callUi.map fun h => ((0 : CInt), h)) = _
  simp only [H.callUi, h4.ui, hu, if_true, Option.map_some]

theorem On.setPc {h : H} {a : A} (o : On h a) (hu : h.ui = true) (x : BitVec 16) :
    ∃ h', exec (.setRegisterPc (x.setWidth 32)) h = some (0, h') ∧
      On h' { a with pc := x, pcOut := x } ∧ Same h h' ∧ h'.clk = h.clk := by
  obtain ⟨cur, r⟩ := o.rep
  have h1 : T.run (do setReg .pc (x.setWidth 32); publish .pcOut (← Mpp.getReg .pc)) (lift a cur) =
      some ((), lift { a with pc := x, pcOut := x } cur) := by
    simp only [run_bind', run_setReg, Option.bind_some, lift_set_pc, run_getReg, reg_pc, run_pub,
      lift_pcOut]
  obtain ⟨h', h2, h3, h4⟩ := sim_some r h1
  obtain ⟨s1, s2, s3, s4, s5, s6⟩ := o.settled
  refine ⟨h', ?_, ⟨⟨cur, h3⟩, h4.watch ▸ o.watch, fun e => o.clk (h4.clk ▸ e),
    ⟨s1, s2, s3, s4, rfl, s6⟩, o.ok, o.okq⟩, ⟨h4.count, h4.ui, h4.watch⟩, h4.clk⟩
  simp only [exec, getRegister_all h o.watch .pc, WType.theReg, h2, Option.bind_some, H.callUi,
    h4.ui, hu, if_true, Option.map_some]

theorem On.setUi {h : H} {a : A} (o : On h a) (b : Bool) : On { h with ui := b } a := by
  obtain ⟨cur, r⟩ := o.rep
  exact ⟨⟨cur, r.congr rfl rfl rfl rfl rfl rfl⟩, o.watch, o.clk, o.settled, o.ok, o.okq⟩

/-! ## Initialisation and shutdown -/

/-- `random_int(0, 255)` as a byte. -/
def randByte (r : Nat) : BitVec 8 := BitVec.ofNat 8 (r % 255)

theorem randomInt_byte (r : Nat) : randomInt r = (randByte r).setWidth 32 := by
  apply BitVec.eq_of_toNat_eq
  simp only [randomInt, randByte, BitVec.toNat_setWidth, BitVec.toNat_ofNat]
  omega

/-- The typed state after `init`. -/
def A.fresh (rand : Nat → Nat) (log : List Err) : A where
  data := 0
  dir1 := 0
  dir2 := 0
  pcOut := 0
  spOut := 0
  hlOut := 0
  fffcOut := 0
  acOut := 0
  op2Out := 0
  aluFc := false
  aluFz := false
  selreg := 0
  mx7 := false
  mx0 := false
  fcOut := false
  fzOut := false
  riOut := 0
  joiner := 0
  q := 0
  dd := 0
  jnr1 := 0
  jnr2 := 0
  control := 0
  ac := 0
  rb := 0
  rc := 0
  rd := 0
  re := 0
  rh := 0
  rl := 0
  op2 := 0
  pch := 0
  pcl := 0
  ri := 0
  pc := 0
  sp := 0
  fc := false
  fz := false
  mem i := randByte (rand i.toNat)
  log := log

theorem lift_fresh (rand : Nat → Nat) (log : List Err) :
    lift (A.fresh rand log) (fun _ => 0) =
      ⟨fun _ => 0, fun _ => 0, fun _ => 0, fun i => randomInt (rand i.toNat), log⟩ := by
  apply T.ext'
  · funext x; cases x <;> first | rfl | simp [lift, A.fresh, boolWord, getFlags]
  · rfl
  · funext x; cases x <;> first | rfl | simp [lift, A.fresh, boolWord, getFlags]
  · funext i; exact (randomInt_byte _).symm
  · rfl

theorem Off.init {h : H} (o : Off h) (rand : Nat → Nat) (hb : h.ps.count + 79 < 2 ^ 31) :
    ∃ h', exec (.init rand) h = some (0, h') ∧ On h' (A.fresh rand h.log) ∧
      h'.ps.count = h.ps.count + 79 ∧ h'.ui = h.ui ∧ h'.clk = h.clk ∧
      h'.watch = h.watch ++ allWatchers := by
  obtain ⟨h', e, r, e1, e2, e3, e4⟩ := Rep.init rand o.good hb
  rw [← lift_fresh] at r
  refine ⟨h', by simp only [exec, e, Option.map_some], ⟨⟨_, r⟩, (by
    obtain ⟨n, w⟩ := o.watch
    exact ⟨n, by rw [e1, w, many_add]⟩),
    fun _ => rfl, ⟨rfl, rfl, (by show (0 : BitVec 16) = (0 : BitVec 8) ++ (0 : BitVec 8); decide), rfl, rfl, rfl,
      rfl, rfl⟩, ok_zero _, (by show (0 : BitVec 6) ∉ _; decide)⟩, e4, e2, e3, e1⟩

theorem On.shutdown {h : H} {a : A} (o : On h a) :
    ∃ h', exec .shutdown h = some (0, h') ∧ Off h' ∧
      (h'.ps.count = h.ps.count ∧ h'.ui = h.ui ∧ h'.watch = allWatchers.foldl List.erase h.watch) ∧ h'.clk = h.clk ∧
      h'.log = a.log := by
  obtain ⟨cur, r⟩ := o.rep
  obtain ⟨h', e, g, e1, e2, e3, e4, e5, e6, e7⟩ := shutdown_good r.live ⟨_, r.mem⟩
  refine ⟨h', by simp only [exec, e, Option.map_some], ⟨g, ?_⟩, ⟨e7, e4, e2⟩, e5, ?_⟩
  · obtain ⟨n, w⟩ := o.watch
    exact ⟨n, by rw [e2, w, many_succ, erase_all]⟩
  · rw [e6, r.log]; rfl

/-! ## Induction over histories -/

/-- The invariant of all histories. -/
structure Inv (p : Phase) (h : H) : Prop where
  count : h.ps.count = 79 * p.inits
  ui : h.ui = p.ui
  on : p.on = true → ∃ a, On h a
  off : p.on = false → Off h
  watch : h.watch = many p.pending
  pending : p.on = true → p.pending ≠ 0

theorem Inv.start : Inv Phase.start H.start :=
  ⟨rfl, rfl, fun e => (by cases e), fun _ => ⟨Good.start, 0, rfl⟩, rfl, fun e => (by cases e)⟩

theorem inv_same {p : Phase} {h h' : H} (i : Inv p h) (hp : p.on = true) (s : Same h h')
    (a : A) (o : On h' a) : Inv p h' :=
  ⟨s.1.trans i.count, s.2.1.trans i.ui, fun _ => ⟨a, o⟩, fun e => (by rw [hp] at e; cases e),
    s.2.2.trans i.watch, i.pending⟩

theorem On.off {h : H} {a : A} (o : On h a) : Off h := by
  obtain ⟨cur, r⟩ := o.rep
  obtain ⟨n, w⟩ := o.watch
  exact ⟨r.live.good, n + 1, w⟩

/-- Every machine can be initialised, also a running one. -/
theorem Inv.any {p : Phase} {h : H} (i : Inv p h) : Off h := by
  cases hp : p.on with
  | true =>
    obtain ⟨a, o⟩ := i.on hp
    exact o.off
  | false => exact i.off hp

/-- Every allowed call runs without undefined behaviour and keeps the invariant. -/
theorem Inv.call {p : Phase} {h : H} (i : Inv p h) (c : Call) (hc : c.Allowed p) :
    ∃ v h', exec c h = some (v, h') ∧ Inv (c.after p) h' := by
  cases c with
  | init rand =>
    have hc : p.inits < 27183337 := hc
    obtain ⟨h', e, o, e1, e2, _, e3⟩ := i.any.init rand (by rw [i.count]; omega)
    exact ⟨0, h', e, ⟨by rw [e1, i.count]; simp only [Call.after]; omega, e2.trans i.ui,
      fun _ => ⟨_, o⟩, fun e => (by cases e), by rw [e3, i.watch, many_add]; rfl,
      fun _ => Nat.succ_ne_zero _⟩⟩
  | shutdown =>
    obtain ⟨a, o⟩ := i.on hc
    obtain ⟨h', e, o', s, _⟩ := o.shutdown
    refine ⟨0, h', e, ⟨s.1.trans i.count, s.2.1.trans i.ui, fun e => (by cases e), fun _ => o', ?_,
      fun e => (by cases e)⟩⟩
    rw [s.2.2, i.watch]
    have := i.pending hc
    obtain ⟨n, hn⟩ := Nat.exists_eq_succ_of_ne_zero this
    simp only [Call.after, hn, Nat.succ_eq_add_one, Nat.add_sub_cancel, many_succ, erase_all]
  | setUpdateUi b =>
    refine ⟨0, { h with ui := b }, rfl, i.count, rfl, fun hp => ?_, fun hp => ?_, i.watch, i.pending⟩
    · obtain ⟨a, o⟩ := i.on hp
      exact ⟨a, o.setUi b⟩
    · obtain ⟨⟨g1, g2, g3, g4, g5⟩, w⟩ := i.off hp
      exact ⟨⟨g1, g2, g3, g4, g5⟩, w⟩
  | runClockCycle u =>
    obtain ⟨a, o⟩ := i.on hc.1
    obtain ⟨h', e, o', s, _⟩ := o.cycle u (fun e => i.ui.trans (hc.2 e))
    exact ⟨0, h', e, inv_same i hc.1 s _ o'⟩
  | resetControl =>
    obtain ⟨a, o⟩ := i.on hc
    obtain ⟨h', e, o', s, _⟩ := o.reset
    exact ⟨0, h', e, inv_same i hc s _ o'⟩
  | setMemoryValue offset value =>
    obtain ⟨h1, h2, h3, h4⟩ := hc
    obtain ⟨a, o⟩ := i.on h1
    obtain ⟨h', e, o', s, _⟩ := o.setMemory (i.ui.trans h2) (offset.setWidth 16) (value.setWidth 8)
    rw [h3.eq, h4.eq] at e
    exact ⟨0, h', e, inv_same i h1 s _ o'⟩
  | setRegisterPc value =>
    obtain ⟨h1, h2, h3⟩ := hc
    obtain ⟨a, o⟩ := i.on h1
    obtain ⟨h', e, o', s, _⟩ := o.setPc (i.ui.trans h2) (value.setWidth 16)
    rw [h3.eq] at e
    exact ⟨0, h', e, inv_same i h1 s _ o'⟩
  | getRegisterValue t =>
    obtain ⟨a, o⟩ := i.on hc
    exact ⟨_, h, o.getReg t, i⟩
  | getMemoryValue offset =>
    by_cases ha : IsAddr offset
    · obtain ⟨a, o⟩ := i.on hc
      have := o.getMemory (offset.setWidth 16)
      rw [ha.eq] at this
      exact ⟨_, h, this, i⟩
    · exact ⟨_, h, On.getMemory_out ha, i⟩
  | getMemorySize => exact ⟨_, h, rfl, i⟩
  | getMemoryValueSizeBits => exact ⟨_, h, rfl, i⟩
  | getState =>
    obtain ⟨a, o⟩ := i.on hc
    exact ⟨_, h, o.getState, i⟩
  | getNextState =>
    obtain ⟨a, o⟩ := i.on hc
    exact ⟨_, h, o.getNextState, i⟩
  | getDataBus =>
    obtain ⟨a, o⟩ := i.on hc
    exact ⟨_, h, o.getDataBus, i⟩
  | getMemoryDirBus =>
    obtain ⟨a, o⟩ := i.on hc
    exact ⟨_, h, o.getMemoryDirBus, i⟩
  | getControlBit k =>
    obtain ⟨a, o⟩ := i.on hc
    exact ⟨_, h, o.getControlBit k, i⟩
  | getControlSelalu =>
    obtain ⟨a, o⟩ := i.on hc
    exact ⟨_, h, o.getControlSelalu, i⟩

theorem Inv.calls {p p' : Phase} {h : H} (i : Inv p h) (cs : List Call) (hl : Legal p cs p') :
    ∃ vs h', execAll cs h = some (vs, h') ∧ Inv p' h' := by
  induction cs generalizing p h with
  | nil => cases hl; exact ⟨[], h, rfl, i⟩
  | cons c cs ih =>
    obtain ⟨v, h1, e1, i1⟩ := i.call c hl.1
    obtain ⟨vs, h2, e2, i2⟩ := ih i1 hl.2
    exact ⟨v :: vs, h2, by simp only [execAll, e1, Option.bind_some, e2, Option.map_some], i2⟩

theorem Reach.inv {p : Phase} {h : H} (r : Reach p h) : Inv p h := by
  obtain ⟨cs, vs, hl, e⟩ := r
  obtain ⟨vs', h', e', i⟩ := Inv.start.calls cs hl
  rw [e] at e'
  cases e'
  exact i

theorem Reach.on {p : Phase} {h : H} (r : Reach p h) (hp : p.on = true) : ∃ a, On h a :=
  r.inv.on hp

theorem execAll_append (cs ds : List Call) (h : H) : execAll (cs ++ ds) h =
    (execAll cs h).bind fun r => (execAll ds r.2).map fun q => (r.1 ++ q.1, q.2) := by
  induction cs generalizing h with
  | nil =>
    simp only [List.nil_append, execAll, Option.bind_some]
    cases execAll ds h <;> rfl
  | cons c cs ih =>
    simp only [List.cons_append, execAll]
    cases exec c h with
    | none => rfl
    | some r =>
      simp only [Option.bind_some, ih]
      cases execAll cs r.2 with
      | none => rfl
      | some q =>
        simp only [Option.bind_some, Option.map_some]
        cases execAll ds q.2 <;> rfl

theorem Legal.append {p p' p'' : Phase} {cs ds : List Call} (h1 : Legal p cs p')
    (h2 : Legal p' ds p'') : Legal p (cs ++ ds) p'' := by
  induction cs generalizing p with
  | nil => cases h1; exact h2
  | cons c cs ih => exact ⟨h1.1, ih h1.2⟩

/-- Reachability is closed under allowed calls. -/
theorem Reach.step {p : Phase} {h : H} (r : Reach p h) {c : Call} (hc : c.Allowed p) {v : CInt}
    {h' : H} (e : exec c h = some (v, h')) : Reach (c.after p) h' := by
  obtain ⟨cs, vs, hl, e0⟩ := r
  refine ⟨cs ++ [c], vs ++ [v], hl.append ⟨hc, rfl⟩, ?_⟩
  rw [execAll_append, e0, Option.bind_some]
  simp only [execAll, e, Option.bind_some, Option.map_some]

theorem Reach.steps {p p' : Phase} {h : H} (r : Reach p h) {cs : List Call} (hc : Legal p cs p')
    {vs : List CInt} {h' : H} (e : execAll cs h = some (vs, h')) : Reach p' h' := by
  obtain ⟨cs0, vs0, hl, e0⟩ := r
  refine ⟨cs0 ++ cs, vs0 ++ vs, hl.append hc, ?_⟩
  rw [execAll_append, e0, Option.bind_some, e]
  rfl

end Mpp
