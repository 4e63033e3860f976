import Verif.Messages
/-!
# Who drives the data bus

The components of the processor, the turns they take in a clock cycle, and the control bits that let
them put a word on the data bus. Used for C97.
-/
namespace Mpp

/-- The components that `run_cu` (`cu/cu.c:112-175`) runs, each a function of its own in the code. The
instruction register is not among them: `run_cu` loads it itself. -/
inductive Comp
  | addsub | mxdir | mxreg | mem | alu | fffc | acumm | mxfldx | flags | flagsinta | greg | op2 | hl
  | sp | pc | seqJnr | mxregJnr | seq | rom | dxflipflop
  deriving DecidableEq

/-- The function of each component (`cu/cu.c:112-175`). -/
def Comp.prog : Comp → Prog Unit
  | .addsub => runAddsub
  | .mxdir => runMxdir
  | .mxreg => runMxreg
  | .mem => runMem
  | .alu => runAlu
  | .fffc => runFffc
  | .acumm => runAcumm
  | .mxfldx => runMxfldx
  | .flags => runFlags
  | .flagsinta => runFlagsinta
  | .greg => runGreg
  | .op2 => runOp2
  | .hl => runHl
  | .sp => runSp
  | .pc => runPc
  | .seqJnr => runSeqJnr
  | .mxregJnr => runMxregJnr
  | .seq => runSeq
  | .rom => runRom
  | .dxflipflop => runDxflipflop

/-- Running `p` from `h` comes to a point where `q` is run, in state `h1`. -/
inductive Inside (q : Prog Unit) (h1 : H) : {α : Type} → Prog α → H → Prop
  | here {α : Type} (f : Unit → Prog α) : Inside q h1 (q >>= f) h1
  | step {α : Type} {o : Op} {k : o.ret → Prog α} {h h' : H} {x : o.ret}
      (e : H.handle o h = some (x, h')) (i : Inside q h1 (k x) h') : Inside q h1 (.op o k) h

/-- In the clock cycle begun in state `h` (`run_clock_cycle`, `linker/cu.c:139-143`; `cu/cu.c:62-74`), component `c` has a
turn, begun in state `h1`. The clock may be down or up when the cycle begins (see `clockLoop`). -/
inductive Turn (h : H) (c : Comp) (h1 : H) : Prop
  | up (e : h.clk = false) (i : Inside c.prog h1 (runCu true) { h with clk := true })
  | down (e : h.clk = true) (i : Inside c.prog h1 (runCu false) { h with clk := false })
  | again {h2 : H} (e : h.clk = true) (r : H.run (runCu false) { h with clk := false } = some ((), h2))
      (i : Inside c.prog h1 (runCu true) { h2 with clk := true })

/-- The component puts a word on the data bus when it is run in state `h`. -/
def Comp.Drives (c : Comp) (h : H) : Prop := ∃ w, (Topic.data, w) ∈ c.prog.published h

/-- The control bits that open the outputs to the data bus (`MEMbus`, `ALUbus`, `ACbus`, `REGbus`,
`FLbus`, `PCHbus`, `PCLbus`; `constants.h:53-83`). -/
def driveBits : List Nat :=
  [CB.membus, CB.alubus, CB.acbus, CB.regbus, CB.flbus, CB.pchbus, CB.pclbus]

/-- The component behind each of these bits. -/
def driver : Nat → Option Comp
  | 19 => some .mem
  | 16 => some .alu
  | 17 => some .acumm
  | 20 => some .greg
  | 18 => some .flagsinta
  | 15 => some .pc
  | 14 => some .pc
  | _ => none

/-- The control bits that load a register from the data bus (`constants.h:53-83`). The flags are
loaded by `FLcar`, from the data bus when `SELfl` is down; the memory is written when `LE` is down. -/
def loadBits : List Nat :=
  [CB.ricar, CB.accar, CB.op2car, CB.regcar, CB.hcar, CB.lcar, CB.pchcar, CB.pclcar]

end Mpp
