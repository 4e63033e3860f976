import Verif.PubSub
import Verif.Components
/-!
# The concrete machine and the exported API

`H` is the whole C state: the bus heap and subscriptions, the static pointer variables, the
static registers, the memory array, the watcher list, the UI callback, the clock and the reported
errors. `exec` runs one exported function; `none` is undefined behaviour.
-/
namespace Mpp

/-- `mem.values` (`mem.c:23`): never allocated, freed, or an array of 65536 ints.
(`offset`, `initial` and `values_count` are written but never read and are left out.) -/
inductive MemPtr
  | null
  | freed
  | live (m : BitVec 16 → CInt)

/-- The complete state of the C program. -/
structure H where
  ps : PS
  /-- the `static Bus_t *` variables -/
  busPtr : Slot → Option Nat
  /-- the `static PubSubSubscription *` variables -/
  subPtr : Slot → Option Nat
  regs : Reg → W
  mem : MemPtr
  /-- the list of registered watchers (`watcher.c:21`) -/
  watch : List Watcher
  /-- is a UI callback installed (`linker/linker.c:28`) -/
  ui : Bool
  /-- `last_clock_tick` (`clock.c:11`) -/
  clk : Bool
  /-- errors reported so far, newest first -/
  log : List Err

/-- State at program start: static variables are zero. -/
def H.start : H :=
  { ps := PS.empty, busPtr := fun _ => none, subPtr := fun _ => none, regs := fun _ => 0,
    mem := .null, watch := [], ui := false, clk := false, log := [] }

/-- Meaning of the primitives on the concrete machine. -/
def H.handle : (o : Op) → H → Option (o.ret × H)
  | .upd s, h => (h.ps.updateBus (h.busPtr s)).map fun p => ((), { h with ps := p })
  | .cur s, h => (h.ps.deref (h.busPtr s)).map fun b => (b.cur, h)
  | .nxt s, h => (h.ps.deref (h.busPtr s)).map fun b => (b.next, h)
  | .pub t w, h => (h.ps.publish t w).map fun r => ((), { h with ps := r.2 })
  | .getReg r, h => some (h.regs r, h)
  | .setReg r w, h => some ((), { h with regs := upd h.regs r w })
  | .memGet i, h => match h.mem with
    | .live m => some (m i, h)
    | _ => none
  | .memSet i v, h => match h.mem with
    | .live m => some ((), { h with mem := .live (upd m i v) })
    | _ => none
  | .err e, h => some ((), { h with log := e :: h.log })
  | .ub, _ => none

/-- Run component code on the concrete machine. -/
def H.run {α} (p : Prog α) (h : H) : Option (α × H) := p.run H.handle h

/-! ## Initialisation and shutdown

The `init_*` and `shutdown_*` functions are straight-line code made of the following statements.
The return values of `unsubscribe_for` and `unregister_watcher` are ignored by all callers. -/

inductive Cmd
  /-- `initialize_word(&reg.value, 0)` -/
  | initReg (r : Reg)
  /-- `bus = create_bus_data()` -/
  | create (s : Slot)
  /-- `sub = subscribe_to(topic, bus)` -/
  | subscribe (s : Slot) (t : Topic)
  /-- `register_watcher(&watcher)` -/
  | watch (r : Watcher)
  /-- `fill_memory()` (`mem.c:38-50`) -/
  | fillMem
  /-- `unregister_watcher(&watcher)` -/
  | unwatch (r : Watcher)
  /-- `unsubscribe_for(sub)` -/
  | unsub (s : Slot)
  /-- `destroy_bus_data(bus)` -/
  | destroy (s : Slot)
  /-- `unfill_memory()` (`mem.c:52`) -/
  | unfillMem

/-- `random_int(0, 255)` (`utils.c:26-29`) for the result `r ≥ 0` of `rand()`. -/
def randomInt (r : Nat) : CInt := BitVec.ofNat 32 (r % 255 + 0)

/-- One statement; `rand i` is the result of the `rand()` call for cell `i`. -/
def H.cmd (rand : Nat → Nat) : Cmd → H → Option H
  | .initReg r, h => some { h with regs := upd h.regs r 0 }
  | .create s, h =>
    let (a, p) := h.ps.createBus
    some { h with ps := p, busPtr := upd h.busPtr s (some a) }
  | .subscribe s t, h =>
    (h.ps.subscribe t (h.busPtr s)).map fun r =>
      { h with ps := r.2, subPtr := upd h.subPtr s (some r.1) }
  | .watch r, h => some { h with watch := h.watch ++ [r] }
  | .fillMem, h => some { h with mem := .live fun i => randomInt (rand i.toNat) }
  | .unwatch r, h => some { h with watch := h.watch.erase r }
  | .unsub s, h => (h.ps.unsubscribe (h.subPtr s)).map fun r => { h with ps := r.2 }
  | .destroy s, h => (h.ps.destroyBus (h.busPtr s)).map fun p => { h with ps := p }
  | .unfillMem, h => match h.mem with
    | .null => some h
    | .freed => none
    | .live _ => some { h with mem := .freed }

def H.cmds (rand : Nat → Nat) : List Cmd → H → Option H
  | [], h => some h
  | c :: cs, h => (h.cmd rand c).bind (H.cmds rand cs)

open Cmd

/-- `mem.c:54-62` -/
def initMem : List Cmd :=
  [fillMem, create .memData, create .memDir, create .memControl,
   subscribe .memData .data, subscribe .memDir .dir2, subscribe .memControl .control]

/-- `mem.c:64-74` -/
def shutdownMem : List Cmd :=
  [unfillMem, unsub .memData, unsub .memDir, unsub .memControl,
   destroy .memData, destroy .memDir, destroy .memControl]

/-- `mxdir.c:33-44` -/
def initMxdir : List Cmd :=
  [create .mxdirPc, create .mxdirSp, create .mxdirHl, create .mxdirFffc, create .mxdirControl,
   subscribe .mxdirPc .pcOut, subscribe .mxdirSp .spOut, subscribe .mxdirHl .hlOut,
   subscribe .mxdirFffc .fffcOut, subscribe .mxdirControl .control]

/-- `mxdir.c:46-58` -/
def shutdownMxdir : List Cmd :=
  [unsub .mxdirPc, unsub .mxdirSp, unsub .mxdirHl, unsub .mxdirFffc, unsub .mxdirControl,
   destroy .mxdirPc, destroy .mxdirSp, destroy .mxdirHl, destroy .mxdirFffc, destroy .mxdirControl]

/-- `addsub.c:56-61` -/
def initAddsub : List Cmd :=
  [create .addsubDir, create .addsubControl,
   subscribe .addsubDir .dir2, subscribe .addsubControl .control]

/-- `addsub.c:63-68` -/
def shutdownAddsub : List Cmd :=
  [unsub .addsubDir, unsub .addsubControl, destroy .addsubDir, destroy .addsubControl]

/-- `sp.c:33-41` -/
def initSp : List Cmd :=
  [initReg .sp, create .spDir, create .spControl,
   subscribe .spDir .dir1, subscribe .spControl .control, watch .sp]

/-- `sp.c:43-50` -/
def shutdownSp : List Cmd :=
  [unwatch .sp, unsub .spDir, unsub .spControl, destroy .spDir, destroy .spControl]

/-- `pc.c:41-56` -/
def initPc : List Cmd :=
  [initReg .pch, initReg .pcl, initReg .pc, create .pcDir, create .pcData, create .pcControl,
   subscribe .pcDir .dir1, subscribe .pcData .data, subscribe .pcControl .control,
   watch .pch, watch .pcl, watch .pc]

/-- `pc.c:58-70` -/
def shutdownPc : List Cmd :=
  [unwatch .pch, unwatch .pcl, unwatch .pc, unsub .pcDir, unsub .pcData, unsub .pcControl,
   destroy .pcDir, destroy .pcData, destroy .pcControl]

/-- `hl.c:37-48` -/
def initHl : List Cmd :=
  [initReg .h, initReg .l, create .hlData, create .hlControl,
   subscribe .hlData .data, subscribe .hlControl .control, watch .h, watch .l]

/-- `hl.c:50-59` -/
def shutdownHl : List Cmd :=
  [unwatch .h, unwatch .l, unsub .hlData, unsub .hlControl, destroy .hlData, destroy .hlControl]

/-- `alu.c:136-143` -/
def initAlu : List Cmd :=
  [create .aluAcumm, create .aluOp2, create .aluControl,
   subscribe .aluAcumm .acummOut, subscribe .aluOp2 .op2Out, subscribe .aluControl .control]

/-- `alu.c:145-152` -/
def shutdownAlu : List Cmd :=
  [unsub .aluAcumm, unsub .aluOp2, unsub .aluControl,
   destroy .aluAcumm, destroy .aluOp2, destroy .aluControl]

/-- `acumm.c:33-43` -/
def initAcumm : List Cmd :=
  [initReg .ac, create .acummData, create .acummControl,
   subscribe .acummData .data, subscribe .acummControl .control, watch .ac]

/-- `acumm.c:45-51` -/
def shutdownAcumm : List Cmd :=
  [unwatch .ac, unsub .acummData, unsub .acummControl, destroy .acummData, destroy .acummControl]

/-- `op2.c:31-40` -/
def initOp2 : List Cmd :=
  [initReg .op2, create .op2Data, create .op2Control,
   subscribe .op2Data .data, subscribe .op2Control .control, watch .op2]

/-- `op2.c:42-49` -/
def shutdownOp2 : List Cmd :=
  [unwatch .op2, unsub .op2Data, unsub .op2Control, destroy .op2Data, destroy .op2Control]

/-- `mxreg.c:30-37` -/
def initMxreg : List Cmd :=
  [create .mxregJnr1, create .mxregJnr2, create .mxregControl,
   subscribe .mxregJnr1 .jnr1, subscribe .mxregJnr2 .jnr2, subscribe .mxregControl .control]

/-- `mxreg.c:39-45`: the control bus is neither unsubscribed nor destroyed -/
def shutdownMxreg : List Cmd :=
  [unsub .mxregJnr1, unsub .mxregJnr2, destroy .mxregJnr1, destroy .mxregJnr2]

/-- `greg.c:41-58` -/
def initGreg : List Cmd :=
  [initReg .b, initReg .c, initReg .d, initReg .e,
   create .gregData, create .gregSelreg, create .gregControl,
   subscribe .gregData .data, subscribe .gregSelreg .selreg, subscribe .gregControl .control,
   watch .b, watch .c, watch .d, watch .e]

/-- `greg.c:60-72` -/
def shutdownGreg : List Cmd :=
  [unwatch .b, unwatch .c, unwatch .d, unwatch .e,
   unsub .gregData, unsub .gregSelreg, unsub .gregControl,
   destroy .gregData, destroy .gregSelreg, destroy .gregControl]

/-- `controllers/mxfldx.c:38-46`, `mxfld7.c:27-30`, `mxfld0.c:25-28` -/
def initMxfldx : List Cmd :=
  [create .mxfldxData, create .mxfldxControl,
   subscribe .mxfldxData .data, subscribe .mxfldxControl .control,
   create .mxfld7Alufc, subscribe .mxfld7Alufc .aluFc,
   create .mxfld0Alufz, subscribe .mxfld0Alufz .aluFz]

/-- `controllers/mxfldx.c:48-57`, `mxfld7.c:32-35`, `mxfld0.c:30-33` -/
def shutdownMxfldx : List Cmd :=
  [unsub .mxfldxData, unsub .mxfldxControl, destroy .mxfldxData, destroy .mxfldxControl,
   unsub .mxfld7Alufc, destroy .mxfld7Alufc, unsub .mxfld0Alufz, destroy .mxfld0Alufz]

/-- `flags.c:37-50` -/
def initFlags : List Cmd :=
  [initReg .fc, initReg .fz, create .flagsMx7, create .flagsMx0, create .flagsControl,
   subscribe .flagsMx7 .mxfld7, subscribe .flagsMx0 .mxfld0, subscribe .flagsControl .control,
   watch .fc, watch .fz]

/-- `flags.c:52-63` -/
def shutdownFlags : List Cmd :=
  [unwatch .fc, unwatch .fz, unsub .flagsMx7, unsub .flagsMx0, unsub .flagsControl,
   destroy .flagsMx7, destroy .flagsMx0, destroy .flagsControl]

/-- `controllers/flagsinta.c:29-34` -/
def initFlagsinta : List Cmd :=
  [create .flagsintaFlags, create .flagsintaControl,
   subscribe .flagsintaFlags .flagsOut, subscribe .flagsintaControl .control]

/-- `controllers/flagsinta.c:36-42` -/
def shutdownFlagsinta : List Cmd :=
  [unsub .flagsintaFlags, unsub .flagsintaControl,
   destroy .flagsintaFlags, destroy .flagsintaControl]

/-- `cu/seq_fgs_jnr.c:26-31` -/
def initSeqJnr : List Cmd :=
  [create .seqJnrRi, create .seqJnrFlags,
   subscribe .seqJnrRi .riOut, subscribe .seqJnrFlags .flagsOut]

/-- `cu/seq_fgs_jnr.c:50-55` -/
def shutdownSeqJnr : List Cmd :=
  [unsub .seqJnrRi, unsub .seqJnrFlags, destroy .seqJnrRi, destroy .seqJnrFlags]

/-- `cu/mxreg_jnr.c:18-21` -/
def initMxregJnr : List Cmd := [create .mxregJnrRi, subscribe .mxregJnrRi .riOut]

/-- `cu/mxreg_jnr.c:39-43` -/
def shutdownMxregJnr : List Cmd := [unsub .mxregJnrRi, destroy .mxregJnrRi]

/-- `cu/seq.c:144-160` -/
def initSeq : List Cmd :=
  [create .seqJoiner, create .seqQ5, create .seqQ4, create .seqQ3, create .seqQ2, create .seqQ1,
   create .seqQ0,
   subscribe .seqQ5 .q5, subscribe .seqQ4 .q4, subscribe .seqQ3 .q3, subscribe .seqQ2 .q2,
   subscribe .seqQ1 .q1, subscribe .seqQ0 .q0, subscribe .seqJoiner .joiner]

/-- `cu/seq.c:241-257` -/
def shutdownSeq : List Cmd :=
  [unsub .seqJoiner, unsub .seqQ5, unsub .seqQ4, unsub .seqQ3, unsub .seqQ2, unsub .seqQ1,
   unsub .seqQ0,
   destroy .seqQ5, destroy .seqQ4, destroy .seqQ3, destroy .seqQ2, destroy .seqQ1, destroy .seqQ0,
   destroy .seqJoiner]

/-- `cu/dxflipflop.c:30-43` -/
def initDxflipflop : List Cmd :=
  [create .ffD5, create .ffD4, create .ffD3, create .ffD2, create .ffD1, create .ffD0,
   subscribe .ffD5 .d5, subscribe .ffD4 .d4, subscribe .ffD3 .d3, subscribe .ffD2 .d2,
   subscribe .ffD1 .d1, subscribe .ffD0 .d0]

/-- `cu/dxflipflop.c:61-75` -/
def shutdownDxflipflop : List Cmd :=
  [unsub .ffD5, unsub .ffD4, unsub .ffD3, unsub .ffD2, unsub .ffD1, unsub .ffD0,
   destroy .ffD5, destroy .ffD4, destroy .ffD3, destroy .ffD2, destroy .ffD1, destroy .ffD0]

/-- `cu/rom.c:91-105` -/
def initRom : List Cmd :=
  [create .romQ5, create .romQ4, create .romQ3, create .romQ2, create .romQ1, create .romQ0,
   subscribe .romQ5 .q5, subscribe .romQ4 .q4, subscribe .romQ3 .q3, subscribe .romQ2 .q2,
   subscribe .romQ1 .q1, subscribe .romQ0 .q0]

/-- `cu/rom.c:140-154` -/
def shutdownRom : List Cmd :=
  [unsub .romQ5, unsub .romQ4, unsub .romQ3, unsub .romQ2, unsub .romQ1, unsub .romQ0,
   destroy .romQ5, destroy .romQ4, destroy .romQ3, destroy .romQ2, destroy .romQ1, destroy .romQ0]

/-- `cu/cu.c:76-93` -/
def initCu : List Cmd :=
  [initReg .ri, create .cuData, create .cuFlags, create .cuControl,
   subscribe .cuData .data, subscribe .cuFlags .flagsOut, subscribe .cuControl .control,
   watch .ri] ++ initSeqJnr ++ initMxregJnr ++ initSeq ++ initDxflipflop ++ initRom

/-- `cu/cu.c:95-110` -/
def shutdownCu : List Cmd :=
  [unwatch .ri] ++ shutdownSeqJnr ++ shutdownMxregJnr ++ shutdownSeq ++ shutdownDxflipflop ++
  shutdownRom ++
  [unsub .cuData, unsub .cuFlags, unsub .cuControl,
   destroy .cuData, destroy .cuFlags, destroy .cuControl]

/-- `components.c:30-47` (`init_fffc` is empty, `fffc.c:17`). -/
def initComponents : List Cmd :=
  initMem ++ initMxdir ++ initAddsub ++ initSp ++ initPc ++ initHl ++ initAlu ++ initAcumm ++
  initOp2 ++ initMxreg ++ initGreg ++ initMxfldx ++ initFlags ++ initFlagsinta ++ initCu

/-- `components.c:49-66` -/
def shutdownComponents : List Cmd :=
  shutdownMem ++ shutdownMxdir ++ shutdownAddsub ++ shutdownSp ++ shutdownPc ++ shutdownHl ++
  shutdownAlu ++ shutdownAcumm ++ shutdownOp2 ++ shutdownMxreg ++ shutdownGreg ++ shutdownMxfldx ++
  shutdownFlags ++ shutdownFlagsinta ++ shutdownCu

/-- `linker/mem.c:25-28` -/
def initLinkerMem : List Cmd := [create .linkMemDir, subscribe .linkMemDir .dir2]

/-- `linker/mem.c:30-33` -/
def shutdownLinkerMem : List Cmd := [unsub .linkMemDir, destroy .linkMemDir]

/-- `linker/cu.c:48-76` -/
def initLinkerCu : List Cmd :=
  [create .linkQ5, create .linkQ4, create .linkQ3, create .linkQ2, create .linkQ1, create .linkQ0,
   create .linkD5, create .linkD4, create .linkD3, create .linkD2, create .linkD1, create .linkD0,
   subscribe .linkQ5 .q5, subscribe .linkQ4 .q4, subscribe .linkQ3 .q3, subscribe .linkQ2 .q2,
   subscribe .linkQ1 .q1, subscribe .linkQ0 .q0,
   subscribe .linkD5 .d5, subscribe .linkD4 .d4, subscribe .linkD3 .d3, subscribe .linkD2 .d2,
   subscribe .linkD1 .d1, subscribe .linkD0 .d0]

/-- `linker/cu.c:78-106` -/
def shutdownLinkerCu : List Cmd :=
  [unsub .linkQ5, unsub .linkQ4, unsub .linkQ3, unsub .linkQ2, unsub .linkQ1, unsub .linkQ0,
   unsub .linkD5, unsub .linkD4, unsub .linkD3, unsub .linkD2, unsub .linkD1, unsub .linkD0,
   destroy .linkQ5, destroy .linkQ4, destroy .linkQ3, destroy .linkQ2, destroy .linkQ1,
   destroy .linkQ0,
   destroy .linkD5, destroy .linkD4, destroy .linkD3, destroy .linkD2, destroy .linkD1,
   destroy .linkD0]

/-- `linker/bus.c:16-22` -/
def initLinkerBus : List Cmd :=
  [create .linkControl, create .linkData,
   subscribe .linkControl .control, subscribe .linkData .data]

/-- `linker/bus.c:24-30` -/
def shutdownLinkerBus : List Cmd :=
  [unsub .linkControl, unsub .linkData, destroy .linkControl, destroy .linkData]

/-- `init` (`linker/linker.c:35-42`; `srand` only chooses the `rand()` results). -/
def initCmds : List Cmd := initComponents ++ initLinkerMem ++ initLinkerCu ++ initLinkerBus

/-- `shutdown` (`linker/linker.c:47-53`). -/
def shutdownCmds : List Cmd :=
  shutdownLinkerCu ++ shutdownLinkerMem ++ shutdownLinkerBus ++ shutdownComponents

/-! ## Exported functions -/

/-- `run_cu_clock_cycle` (`cu/cu.c:62-74`) with `get_clock_tick` (`clock.c:13-16`); the first
argument bounds the iterations of `while (1)`, running out of it means the loop goes on. -/
def clockLoop : Nat → H → Option H
  | 0, _ => none
  | n + 1, h =>
    let tick := !h.clk
    match H.run (runCu tick) { h with clk := tick } with
    | none => none
    | some (_, h) => if tick then some h else clockLoop n h

/-- `get_update_ui_fn()()`: calling a NULL callback is undefined; an installed callback is
assumed not to call back into the API. -/
def H.callUi (h : H) : Option H := if h.ui then some h else none

/-- `get_register` (`watcher.c:41-51`): `none` is NULL. -/
def H.getRegister (h : H) (t : WType) : Option Reg :=
  (h.watch.find? fun w => decide (w.type = t)).map Watcher.reg

/-- Calls of the exported API. -/
inductive Call
  | init (rand : Nat → Nat)
  | shutdown
  | setUpdateUi (installed : Bool)
  | runClockCycle (updateUi : Bool)
  | resetControl
  | setMemoryValue (offset value : CInt)
  | setRegisterPc (value : CInt)
  /-- the `get_register_*` function for this type -/
  | getRegisterValue (t : WType)
  | getMemoryValue (offset : CInt)
  | getMemorySize
  | getMemoryValueSizeBits
  | getState
  | getNextState
  | getDataBus
  | getMemoryDirBus
  | getControlBit (k : Nat)
  | getControlSelalu

/-- `lib/constants.h:14-15` (`MEM_SIZE_KB`, `MEM_VALUE_SIZE_BITS`) -/
def memSizeKb : Int := 64
def memValueSizeBits : Int := 8

/-- Run one exported function: returned value (0 for `void`, and for `run_clock_cycle`, whose
result is a time) and new state. -/
def exec : Call → H → Option (CInt × H)
  /- `linker/linker.c:35-42` -/
  | .init rand, h => (h.cmds rand initCmds).map fun h => (0, h)
  /- `linker/linker.c:47-53` -/
  | .shutdown, h => (h.cmds (fun _ => 0) shutdownCmds).map fun h => (0, h)
  /- `linker/linker.c:58` -/
  | .setUpdateUi b, h => some (0, { h with ui := b })
  /- `linker/cu.c:139-143` -/
  | .runClockCycle u, h =>
    (clockLoop 2 h).bind fun h => if u then (h.callUi).map fun h => (0, h) else some (0, h)
  /- `linker/cu.c:160-181` -/
  | .resetControl, h => (H.run Mpp.resetControl h).map fun r => (0, r.2)
  /- `linker/mem.c:63-66` -/
  | .setMemoryValue offset value, h =>
    match getValueByOffset offset with
    | none => none
    | some i => (h.handle (.memSet i value)).bind fun r => r.2.callUi.map fun h => (0, h)
  /- `linker/registers.c:98-104` -/
  | .setRegisterPc value, h =>
    match h.getRegister .pc with
    | none => none
    | some r =>
      (H.run (do setReg r value; publish .pcOut (← Mpp.getReg r)) h).bind fun x =>
        x.2.callUi.map fun h => (0, h)
  /- `linker/registers.c:23-93` -/
  | .getRegisterValue t, h =>
    match h.getRegister t with
    | none => none
    | some r => H.run (do toInt (← Mpp.getReg r)) h
  /- `linker/mem.c:52-58` -/
  | .getMemoryValue offset, h =>
    match getValueByOffset offset with
    | none => some (-1, h)
    | some i => H.run (memGet i) h
  /- `linker/mem.c:38-42` -/
  | .getMemorySize, h => some (BitVec.ofInt 32 (memSizeKb * 1024 * 8 / memValueSizeBits), h)
  /- `linker/mem.c:47` -/
  | .getMemoryValueSizeBits, h => some (BitVec.ofInt 32 memValueSizeBits, h)
  | .getState, h => H.run getRomPos h
  | .getNextState, h => H.run getProcessedState h
  | .getDataBus, h => H.run Mpp.getDataBus h
  | .getMemoryDirBus, h => H.run Mpp.getMemoryDirBus h
  | .getControlBit k, h => H.run (Mpp.getControlBit k) h
  | .getControlSelalu, h => H.run Mpp.getControlSelalu h

/-- Run a history of calls: all returned values and the final state. -/
def execAll : List Call → H → Option (List CInt × H)
  | [], h => some ([], h)
  | c :: cs, h => (exec c h).bind fun r => (execAll cs r.2).map fun q => (r.1 :: q.1, q.2)

end Mpp
