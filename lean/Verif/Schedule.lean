import Verif.Pair
/-!
# How often and in which order a clock cycle runs the components

`run_cu` runs the components one after another and some of them several times, until, so the idea,
every signal has arrived everywhere. Here the numbers and orders are parameters. Used for C99.
-/
namespace Mpp

/-- The components in the loop of `run_asyncronus_components` (`cu/cu.c:117-120`). -/
inductive Fast
  | mem | alu
  deriving DecidableEq

/-- `run_mem` and `run_alu` (`cu/cu.c:118-119`). -/
def Fast.prog : Fast → Prog Unit
  | .mem => runMem
  | .alu => runAlu

/-- The components in the loop of `run_acumm_or_flags` (`cu/cu.c:130-135`). -/
inductive Slow
  | acumm | mxfldx | flags | flagsinta
  deriving DecidableEq

/-- `run_acumm`, `cll_run_mxfldx`, `run_flags` and `cll_run_flagsinta` (`cu/cu.c:131-134`). -/
def Slow.prog : Slow → Prog Unit
  | .acumm => runAcumm
  | .mxfldx => runMxfldx
  | .flags => runFlags
  | .flagsinta => runFlagsinta

/-- The components that `run_cu` runs last (`cu/cu.c:170-174`). -/
inductive Late
  | greg | op2 | hl | sp | pc
  deriving DecidableEq

/-- The function given to `run_sync_comp` (`cu/cu.c:170-174`). -/
def Late.prog : Late → Prog Unit
  | .greg => runGreg
  | .op2 => runOp2
  | .hl => runHl
  | .sp => runSp
  | .pc => runPc

/-- How a clock cycle is carried out: what the loops of `run_asyncronus_components` and
`run_acumm_or_flags` come to, and the order of the last components (`cu/cu.c:112-136, 170-174`). The
loop of `run_asyncronus_components` may come to something else each time it is run in the cycle. -/
structure Plan where
  fast : Nat → List Fast
  slow : List Slow
  late : List Late

/-- One after another. -/
def runAll : List (Prog Unit) → Prog Unit
  | [] => pure ()
  | p :: ps => do
    p
    runAll ps

/-- `run_asyncronus_components` (`cu/cu.c:112-122`) with `l` in place of the loop. -/
def runAsyncAs (l : List Fast) : Prog Unit := do
  runAddsub
  runMxdir
  runMxreg
  runAll (l.map Fast.prog)

/-- The last lines of `run_cu` (`cu/cu.c:170-174`) in the order `l`; the first of them is the `n`-th
component with `run_asyncronus_components` behind it. -/
def runLate (f : Nat → List Fast) : Nat → List Late → Prog Unit
  | _, [] => pure ()
  | n, c :: l => do
    c.prog
    runAsyncAs (f n)
    runLate f (n + 1) l

/-- `run_cu(1)` from line 168 on (`cu/cu.c:168-174`) by the plan. -/
def runCuSyncAs (pl : Plan) : Prog Unit := do
  runFffc
  runAsyncAs (pl.fast 1)
  runAll (pl.slow.map Slow.prog)
  runLate pl.fast 2 pl.late

/-- The RI part of `run_cu(1)` and what follows (`cu/cu.c:149-174`) by the plan. -/
def runCuRiAs (pl : Plan) : Prog Unit := do
  busUpdate .cuData
  busUpdate .cuFlags
  busUpdate .cuControl
  let c ← busCur .cuControl
  let d ← busCur .cuData
  if c.getLsbD CB.ricar ∧ usedBits d > 8 then throwError .riOverflow
  else do
    if c.getLsbD CB.ricar then setReg .ri d
    publish .riOut (← getReg .ri)
    runCuSyncAs pl

/-- `run_cu` (`cu/cu.c:138-175`) by the plan. -/
def runCuAs (pl : Plan) (clk : Bool) : Prog Unit :=
  if clk then do
    runSeqJnr
    runMxregJnr
    runSeq
    runRom
    runAsyncAs (pl.fast 0)
    runCuRiAs pl
  else runDxflipflop

/-- `run_cu_clock_cycle` (`cu/cu.c:62-74`) by the plan. -/
def clockLoopAs (pl : Plan) : Nat → H → Option H
  | 0, _ => none
  | n + 1, h =>
    let tick := !h.clk
    match H.run (runCuAs pl tick) { h with clk := tick } with
    | none => none
    | some (_, h) => if tick then some h else clockLoopAs pl n h

/-- Calls of the API, where clock cycles (`linker/cu.c:139-143`) are carried out by the plan. -/
def execAs (pl : Plan) (c : Call) (h : H) : Option (CInt × H) :=
  match c with
  | .runClockCycle u =>
    (clockLoopAs pl 2 h).bind fun h => if u then (h.callUi).map fun h => (0, h) else some (0, h)
  | c => exec c h

/-- A history of calls, each with a plan of its own. -/
def execAllAs : List (Plan × Call) → H → Option (List CInt × H)
  | [], h => some ([], h)
  | (pl, c) :: cs, h =>
    (execAs pl c h).bind fun r => (execAllAs cs r.2).map fun q => (r.1 :: q.1, q.2)

/-- What the code does (`cu/cu.c:117-120, 130-135, 170-174`; both loops are run twice,
`constants.h:50-51`). -/
def Plan.code : Plan where
  fast _ := [.mem, .alu, .mem, .alu]
  slow := [.acumm, .mxfldx, .flags, .flagsinta, .acumm, .mxfldx, .flags, .flagsinta]
  late := [.greg, .op2, .hl, .sp, .pc]

/-! ## The plan of the code is the code -/

theorem bind_done (x : Option (Unit × H)) : (x.bind fun r => some ((), r.2)) = x := by
  cases x <;> rfl

theorem runAsyncAs_code (h : H) : H.run (runAsyncAs [.mem, .alu, .mem, .alu]) h = H.run runAsync h := by
  simp only [runAsyncAs, runAsync, List.map, Fast.prog, runAll, hrun_bind, hrun_pure, bind_done]

theorem runCuSyncAs_code (h : H) : H.run (runCuSyncAs .code) h = H.run runCuSync h := by
  simp only [runCuSyncAs, runCuSync, Plan.code, List.map, Slow.prog, Late.prog, runAll, runLate, runSync,
    runAcummOrFlags, runAcummOrFlagsRound, hrun_bind, hrun_pure, bind_done, runAsyncAs_code,
    Option.bind_assoc]

theorem runCuRiAs_code (h : H) : H.run (runCuRiAs .code) h = H.run runCuRi h := by
  unfold runCuRiAs runCuRi
  simp only [hrun_bind]
  congr 1; funext r1
  congr 1; funext r2
  congr 1; funext r3
  congr 1; funext r4
  congr 1; funext r5
  split
  · rfl
  · split <;> simp only [hrun_bind, runCuSyncAs_code]

theorem runCuAs_code (b : Bool) (h : H) : H.run (runCuAs .code b) h = H.run (runCu b) h := by
  cases b with
  | false => rfl
  | true =>
    simp only [runCuAs, runCu, if_true, hrun_bind, runCuRiAs_code]
    simp only [Plan.code, runAsyncAs_code]

theorem clockLoopAs_code (n : Nat) (h : H) : clockLoopAs .code n h = clockLoop n h := by
  induction n generalizing h with
  | zero => rfl
  | succ n ih =>
    simp only [clockLoopAs, clockLoop, runCuAs_code]
    cases H.run (runCu !h.clk) { h with clk := !h.clk } with
    | none => rfl
    | some r => simp only [ih]

theorem execAs_code (c : Call) (h : H) : execAs .code c h = exec c h := by
  cases c <;> simp only [execAs, exec, clockLoopAs_code]

/-! ## The plan on the typed machine -/

def Fast.step : Fast → A → A
  | .mem => A.memStep
  | .alu => A.alu

def Slow.step : Slow → A → A
  | .acumm => A.acumm
  | .mxfldx => A.mxfldx
  | .flags => A.flags
  | .flagsinta => A.flagsinta

def Late.step : Late → A → A
  | .greg => A.gregStep
  | .op2 => A.op2Step
  | .hl => A.hl
  | .sp => A.spStep
  | .pc => A.pcStep

/-- One after another. -/
def stepAll {X : Type} (f : X → A → A) : List X → A → A
  | [], a => a
  | x :: l, a => stepAll f l (f x a)

namespace A

def asyncAs (l : List Fast) (a : A) : A := stepAll Fast.step l a.addsub.mxdir.mxreg

def lateAs (f : Nat → List Fast) : Nat → List Late → A → A
  | _, [], a => a
  | n, c :: l, a => lateAs f (n + 1) l ((c.step a).asyncAs (f n))

def cuSyncAs (pl : Plan) (a : A) : A :=
  (stepAll Slow.step pl.slow (a.fffc.asyncAs (pl.fast 1))).lateAs pl.fast 2 pl.late

def ucycleAs (pl : Plan) (a : A) : A := (a.asyncAs (pl.fast 0)).riStep.cuSyncAs pl

def cuHighAs (pl : Plan) (a : A) : A := a.seqJnr.mxregJnr.seq.rom.ucycleAs pl

def cycleAs (pl : Plan) (a : A) : A := a.dxflipflop.cuHighAs pl

end A

theorem Fast.impl (x : Fast) : Impl x.prog x.step := by
  cases x
  · exact impl_mem
  · exact impl_alu

theorem Slow.impl (x : Slow) : Impl x.prog x.step := by
  cases x
  · exact impl_acumm
  · exact impl_mxfldx
  · exact impl_flags
  · exact impl_flagsinta

theorem Late.impl (x : Late) : Impl x.prog x.step := by
  cases x
  · exact impl_greg
  · exact impl_op2
  · exact impl_hl
  · exact impl_sp
  · exact impl_pc

theorem impl_all {X : Type} {p : X → Prog Unit} {f : X → A → A} (h : ∀ x, Impl (p x) (f x)) (l : List X) :
    Impl (runAll (l.map p)) (stepAll f l) := by
  induction l with
  | nil => exact fun a cur => ⟨cur, rfl⟩
  | cons x l ih => exact (h x).seq ih

theorem impl_asyncAs (l : List Fast) : Impl (runAsyncAs l) (A.asyncAs l) :=
  impl_addsub.seq (impl_mxdir.seq (impl_mxreg.seq (impl_all Fast.impl l)))

theorem impl_late (f : Nat → List Fast) (n : Nat) (l : List Late) : Impl (runLate f n l) (A.lateAs f n l) := by
  induction l generalizing n with
  | nil => exact fun a cur => ⟨cur, rfl⟩
  | cons c l ih => exact c.impl.seq ((impl_asyncAs _).seq (ih _))

theorem impl_cuSyncAs (pl : Plan) : Impl (runCuSyncAs pl) (A.cuSyncAs pl) :=
  impl_fffc.seq ((impl_asyncAs _).seq ((impl_all Slow.impl _).seq (impl_late _ _ _)))

theorem impl_riAs (pl : Plan) : ∀ a cur, ∃ cur', T.run (runCuRiAs pl) (lift a cur) =
    T.run (runCuSyncAs pl) (lift a.riStep cur') := by
  intro a cur
  unfold runCuRiAs A.riStep A.cb
  cases h0 : a.control.getLsbD CB.ricar <;> run_simp [h0] <;> exact ⟨_, rfl⟩

theorem impl_ucycleAs (pl : Plan) : Impl (do runAsyncAs (pl.fast 0); runCuRiAs pl) (A.ucycleAs pl) := by
  have e : Impl (runCuRiAs pl) (fun a => a.riStep.cuSyncAs pl) := by
    intro a cur
    obtain ⟨c1, h1⟩ := impl_riAs pl a cur
    obtain ⟨c2, h2⟩ := impl_cuSyncAs pl a.riStep c1
    exact ⟨c2, h1.trans h2⟩
  exact (impl_asyncAs _).seq e

/-- `run_cu(1)` by the plan, on a microstate inside the control store. -/
theorem run_cuHighAs (pl : Plan) (a : A) (cur : Slot → W) (h : a.q.toNat < 45) :
    ∃ cur', T.run (runCuAs pl true) (lift a cur) = some ((), lift (a.cuHighAs pl) cur') := by
  obtain ⟨c1, h1⟩ := (impl_seqJnr.seq (impl_mxregJnr.seq impl_seq)) a cur
  obtain ⟨c2, h2⟩ := run_rom a.seqJnr.mxregJnr.seq c1 h
  obtain ⟨c3, h3⟩ := impl_ucycleAs pl a.seqJnr.mxregJnr.seq.rom c2
  refine ⟨c3, ?_⟩
  have e : T.run (runCuAs pl true) (lift a cur) =
      (T.run (do runSeqJnr; runMxregJnr; runSeq) (lift a cur)).bind fun r =>
        (T.run runRom r.2).bind fun r => T.run (do runAsyncAs (pl.fast 0); runCuRiAs pl) r.2 := by
    simp only [runCuAs, if_true, run_bind', Option.bind_assoc]
  rw [e, h1, Option.bind_some, h2, Option.bind_some, h3]
  rfl

theorem clockLoopAs_high {pl : Plan} {h : H} (n : Nat) {h' : H} (e : h.clk = false)
    (hr : H.run (runCuAs pl true) { h with clk := true } = some ((), h')) :
    clockLoopAs pl (n + 1) h = some h' := by
  simp only [clockLoopAs, e, Bool.not_false, hr, if_true]

theorem runCuAs_low (pl : Plan) : runCuAs pl false = runCu false := rfl

theorem clockLoopAs_low {pl : Plan} {h : H} (n : Nat) {h' : H} (e : h.clk = true)
    (hr : H.run (runCu false) { h with clk := false } = some ((), h')) :
    clockLoopAs pl (n + 1) h = clockLoopAs pl n h' := by
  simp only [clockLoopAs, runCuAs_low, e, Bool.not_true, hr, Bool.false_eq_true, if_false]

/-- A clock cycle by any plan goes through. -/
theorem On.cycleAs {h : H} {a : A} (o : On h a) (pl : Plan) (u : Bool) (hu : u = true → h.ui = true) :
    ∃ h' cur', execAs pl (.runClockCycle u) h = some (0, h') ∧ Rep h' (lift (a.cycleAs pl) cur') ∧ Same h h' ∧
      h'.clk = true := by
  obtain ⟨cur, r⟩ := o.rep
  have key : ∃ h' cur', clockLoopAs pl 2 h = some h' ∧ Rep h' (lift (a.cycleAs pl) cur') ∧
      h'.clk = true ∧ Same h h' := by
    cases hc : h.clk with
    | false =>
      have hq := o.clk hc
      have e : a.cycleAs pl = a.cuHighAs pl := by unfold A.cycleAs; rw [A.dxflipflop_id a hq]
      obtain ⟨c1, h1⟩ := run_cuHighAs pl a cur (by rw [hq]; exact o.ok.lt)
      obtain ⟨h', h2, h3, h4⟩ := sim_some (On.clkSet r true) h1
      exact ⟨h', c1, clockLoopAs_high 1 hc h2, e ▸ h3, h4.clk, h4.count, h4.ui, h4.watch⟩
    | true =>
      obtain ⟨c1, h1⟩ := run_cuLow a cur
      obtain ⟨h1', h2, h3, h4⟩ := sim_some (On.clkSet r false) h1
      obtain ⟨c2, g1⟩ := run_cuHighAs pl a.dxflipflop c1 o.ok.lt
      obtain ⟨h', g2, g3, g4⟩ := sim_some (On.clkSet h3 true) g1
      have e : a.cycleAs pl = a.dxflipflop.cuHighAs pl := rfl
      rw [← e] at g3
      refine ⟨h', c2, ?_, g3, g4.clk, ?_, ?_, ?_⟩
      · rw [clockLoopAs_low 1 hc h2, clockLoopAs_high 0 h4.clk g2]
      · rw [g4.count]; exact h4.count
      · rw [g4.ui]; exact h4.ui
      · rw [g4.watch]; exact h4.watch
  obtain ⟨h', cur', e, r', c, s⟩ := key
  refine ⟨h', cur', ?_, r', s, c⟩
  simp only [execAs, e, Option.bind_some]
  cases u with
  | false => rfl
  | true => simp only [if_true, H.callUi, s.2.1, hu rfl, Option.map_some]

/-! ## Whatever contains the right components in the right order, comes to the same -/

section
variable {X : Type} {f : X → A → A}

/-- Nothing in `f` undoes `P`. -/
def Stays (f : X → A → A) (P : A → Prop) : Prop := ∀ x a, P a → P (f x a)

theorem Stays.all {P : A → Prop} (h : Stays f P) (l : List X) (a : A) (p : P a) : P (stepAll f l a) := by
  induction l generalizing a with
  | nil => exact p
  | cons x l ih => exact ih _ (h x a p)

/-- After `P`, any list that contains `s` in this order comes to `Q`. -/
def Leads (f : X → A → A) (P : A → Prop) (s : List X) (Q : A → Prop) : Prop :=
  ∀ l, s.Sublist l → ∀ a, P a → Q (stepAll f l a)

theorem Leads.nil {P : A → Prop} (h : Stays f P) : Leads f P [] P := fun l _ a p => h.all l a p

theorem Leads.cons {P P' Q : A → Prop} {x : X} {s : List X} (h : Stays f P) (hx : ∀ a, P a → P' (f x a))
    (hs : Leads f P' s Q) : Leads f P (x :: s) Q := by
  intro l
  induction l with
  | nil => intro h; cases h
  | cons y l ih =>
    intro hl a p
    cases hl with
    | cons _ h2 => exact ih h2 _ (h y a p)
    | cons_cons _ h2 => exact hs l h2 _ (hx a p)

theorem stepAll_fixed {l : List X} {a : A} (h : ∀ x, f x a = a) : stepAll f l a = a := by
  induction l with
  | nil => rfl
  | cons x l ih => simp only [stepAll, h, ih]

/-- If whatever comes before `n` does not matter and `l` comes to a state in which nothing changes any
more, then `l` and `n` come to the same. -/
theorem stepAll_same {n l : List X} {a : A} {P : A → Prop} (hP : Stays f P) (p : P a)
    (ab : ∀ x a, P a → stepAll f n (f x a) = stepAll f n a)
    (fx : ∀ x, f x (stepAll f l a) = stepAll f l a) : stepAll f l a = stepAll f n a := by
  have e : ∀ (l : List X) (a : A), P a → stepAll f n (stepAll f l a) = stepAll f n a := by
    intro l
    induction l with
    | nil => intro a _; rfl
    | cons x l ih => intro a p; exact (ih _ (hP x a p)).trans (ab x a p)
  rw [← e l a p, stepAll_fixed fx]

end
