import Verif.Host
import Verif.Isa
/-!
# What the API shows, and the run loops of the front end

Everything here is stated with calls of the exported functions only; property statements use these
definitions.
-/
namespace Mpp

/-! ## Lifecycle-respecting histories -/

/-- What a caller has to remember to use the API correctly. -/
structure Phase where
  /-- between `init` and `shutdown` -/
  on : Bool
  /-- a UI callback is installed -/
  ui : Bool
  /-- number of `init` calls so far -/
  inits : Nat
  /-- number of `init` calls not undone by a `shutdown` -/
  pending : Nat

def Phase.start : Phase := ⟨false, false, 0, 0⟩

def IsByte (v : CInt) : Prop := 0 ≤ v.toInt ∧ v.toInt ≤ 255
def IsAddr (v : CInt) : Prop := 0 ≤ v.toInt ∧ v.toInt ≤ 65535

instance (v : CInt) : Decidable (IsByte v) := by unfold IsByte; infer_instance
instance (v : CInt) : Decidable (IsAddr v) := by unfold IsAddr; infer_instance

/-- Calls that respect the lifecycle. `init` may be called at any time, also on a running machine;
`shutdown` only once after an `init`; between `shutdown` and the next `init` only the callback setter and the two constant getters may be used; functions that call
the UI callback need one installed; stored bytes and addresses are in range. The subscription ids
of 27183337 `init` calls fit in an `int`. -/
def Call.Allowed (p : Phase) : Call → Prop
  | .init _ => p.inits < 27183337
  | .setUpdateUi _ => True
  | .getMemorySize => True
  | .getMemoryValueSizeBits => True
  | .runClockCycle u => p.on = true ∧ (u = true → p.ui = true)
  | .setMemoryValue offset value => p.on = true ∧ p.ui = true ∧ IsAddr offset ∧ IsByte value
  | .setRegisterPc value => p.on = true ∧ p.ui = true ∧ IsAddr value
  | _ => p.on = true

def Call.after (p : Phase) : Call → Phase
  | .init _ => { p with on := true, inits := p.inits + 1, pending := p.pending + 1 }
  | .shutdown => { p with on := false, pending := p.pending - 1 }
  | .setUpdateUi b => { p with ui := b }
  | _ => p

/-- A history of calls that respects the lifecycle, and the phase it ends in. -/
def Legal : Phase → List Call → Phase → Prop
  | p, [], p' => p' = p
  | p, c :: cs, p' => c.Allowed p ∧ Legal (c.after p) cs p'

/-- States of the C program after a history that respects the lifecycle. -/
def Reach (p : Phase) (h : H) : Prop :=
  ∃ cs vs, Legal Phase.start cs p ∧ execAll cs H.start = some (vs, h)

/-! ## What the getters show -/

/-- The getters show the programmer's view `p`: each named register, every memory cell, and the
errors reported so far. A getter changes nothing. -/
structure Shows (h : H) (p : P) : Prop where
  ac : exec (.getRegisterValue .acum) h = some (p.ac.setWidth 32, h)
  b : exec (.getRegisterValue .b) h = some (p.b.setWidth 32, h)
  c : exec (.getRegisterValue .c) h = some (p.c.setWidth 32, h)
  d : exec (.getRegisterValue .d) h = some (p.d.setWidth 32, h)
  e : exec (.getRegisterValue .e) h = some (p.e.setWidth 32, h)
  pc : exec (.getRegisterValue .pc) h = some (p.pc.setWidth 32, h)
  sp : exec (.getRegisterValue .sp) h = some (p.sp.setWidth 32, h)
  fc : exec (.getRegisterValue .fc) h = some (if p.fc then 1 else 0, h)
  fz : exec (.getRegisterValue .fz) h = some (if p.fz then 1 else 0, h)
  mem : ∀ i : BitVec 16, exec (.getMemoryValue (i.setWidth 32)) h = some ((p.mem i).setWidth 32, h)
  errs : h.log = p.errs

/-- `get_next_state` shows `n`. -/
def NextState (h : H) (n : CInt) : Prop := exec .getNextState h = some (n, h)

/-- The machine is between two instructions: the next microstate is the fetch. -/
def Boundary (h : H) : Prop := NextState h 0

/-- `get_register_x` shows `v` for the register of type `t`. -/
def RegIs (h : H) (t : WType) (v : CInt) : Prop := exec (.getRegisterValue t) h = some (v, h)

/-- `get_memory_value(i)` shows `x`. -/
def Cell (h : H) (i : BitVec 16) (x : BitVec 8) : Prop :=
  exec (.getMemoryValue (i.setWidth 32)) h = some (x.setWidth 32, h)

/-! ## The run loops -/

/-- `handleRunInstruction` (`RunButtons.tsx:74-89`): `while (true) { run_clock_cycle(true); if
(get_next_state() === 0) break; }`. Pressing the stop button and the pause between cycles are left
out; `u` is the argument of `run_clock_cycle`, `n` counts the calls. -/
inductive RunInstruction (u : Bool) : Nat → H → H → Prop
  | last {h h' : H} {r : CInt} (run : exec (.runClockCycle u) h = some (r, h'))
      (done : NextState h' 0) : RunInstruction u 1 h h'
  | more {h h1 h' : H} {r x : CInt} {n : Nat} (run : exec (.runClockCycle u) h = some (r, h1))
      (state : NextState h1 x) (ne : x ≠ 0) (rest : RunInstruction u n h1 h') :
      RunInstruction u (n + 1) h h'

/-- The microstates that `get_state` shows after each clock cycle of the run-instruction loop
(`RunButtons.tsx:74-89`). -/
inductive Microstates (u : Bool) : H → List CInt → H → Prop
  | last {h h' : H} {r s : CInt} (run : exec (.runClockCycle u) h = some (r, h'))
      (state : exec .getState h' = some (s, h')) (done : NextState h' 0) : Microstates u h [s] h'
  | more {h h1 h' : H} {r s x : CInt} {l : List CInt}
      (run : exec (.runClockCycle u) h = some (r, h1)) (state : exec .getState h1 = some (s, h1))
      (next : NextState h1 x) (ne : x ≠ 0) (rest : Microstates u h1 l h') :
      Microstates u h (s :: l) h'

/-- The loop of `handleRunProgram` (`RunButtons.tsx:115-124`): `while (true) { run_clock_cycle(u);
if (stoping) break; stoping = get_register_ri() === maxRepresentableValue; }` with
`maxRepresentableValue = 2 ** get_memory_value_size_bits() - 1`. The stop button, the pause and the
"running too long" dialog are left out. The `Bool` is the variable `stoping`, `n` counts the calls
of `run_clock_cycle`. -/
inductive ProgramLoop (u : Bool) : Bool → Nat → H → H → Prop
  | stop {h h' : H} {r : CInt} (run : exec (.runClockCycle u) h = some (r, h')) :
      ProgramLoop u true 1 h h'
  | more {h h1 h' : H} {r x bits : CInt} {n : Nat} (run : exec (.runClockCycle u) h = some (r, h1))
      (ri : exec (.getRegisterValue .ri) h1 = some (x, h1))
      (max : exec .getMemoryValueSizeBits h1 = some (bits, h1))
      (rest : ProgramLoop u (decide (x.toNat = 2 ^ bits.toNat - 1)) n h1 h') :
      ProgramLoop u false (n + 1) h h'

/-- `handleRunProgram` after `n` clock cycles; `stoping` starts as `false`. -/
def RunProgram (u : Bool) (n : Nat) (h h' : H) : Prop := ProgramLoop u false n h h'

/-- `h` is reachable by a history that respects the lifecycle, initialised, with a UI callback
installed, between two instructions, and shows `p`. -/
def Ready (h : H) (p : P) : Prop :=
  ∃ ph, Reach ph h ∧ ph.on = true ∧ ph.ui = true ∧ Boundary h ∧ Shows h p

/-- Running one instruction from `h` ends, in a state that shows `p'`. (The loop has at most one
outcome, see `RunInstruction.det`.) -/
def Does (u : Bool) (h : H) (p' : P) : Prop := ∃ n h', RunInstruction u n h h' ∧ Ready h' p'

/-- `k` instructions one after the other. -/
inductive RunInstructions (u : Bool) : Nat → H → H → Prop
  | none {h : H} : RunInstructions u 0 h h
  | step {h h1 h' : H} {n k : Nat} (first : RunInstruction u n h h1)
      (rest : RunInstructions u k h1 h') : RunInstructions u (k + 1) h h'

end Mpp
