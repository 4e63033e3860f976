import Verif.Observe
/-!
# The run buttons with the stop button and the "running too long" dialog

`Observe` has the two run loops of `RunButtons.tsx` as they go when nobody interferes. Here a loop
may also be left early: by the stop button, which is looked at after every clock cycle
(`while (_running.current)`), or by the answer "stop" of the dialog. What the user does is not
modelled further: after every clock cycle, any of the possible continuations may happen. The pause
between cycles has no effect on the core.
-/
namespace Mpp

/-- How a press of a run button ended. -/
inductive Ended
  /-- by itself -/
  | done
  /-- the stop button, or "stop" in the dialog -/
  | stopped
deriving DecidableEq

/-- `handleRunState` (`RunButtons.tsx:68-72`): one clock cycle. -/
def StateButton (h h' : H) : Prop := ∃ r, exec (.runClockCycle true) h = some (r, h')

/-- `handleRunInstruction` (`RunButtons.tsx:74-89`), `n` clock cycles. `while (_running.current)` is
true the first time (`_running.current = true`, line 79); later it is false once
`handleStopRunning` (lines 208-213) has run during the `await` of line 85. -/
inductive InstructionButton : Nat → H → H → Ended → Prop
  | last {h h' : H} {r : CInt} (run : exec (.runClockCycle true) h = some (r, h'))
      (done : NextState h' 0) : InstructionButton 1 h h' .done
  | stop {h h' : H} {r x : CInt} (run : exec (.runClockCycle true) h = some (r, h'))
      (state : NextState h' x) (ne : x ≠ 0) : InstructionButton 1 h h' .stopped
  | more {h h1 h' : H} {r x : CInt} {n : Nat} {e : Ended}
      (run : exec (.runClockCycle true) h = some (r, h1)) (state : NextState h1 x) (ne : x ≠ 0)
      (rest : InstructionButton n h1 h' e) : InstructionButton (n + 1) h h' e

/-- The loop of `handleRunProgram` (`RunButtons.tsx:113-184`) with the variable `stoping`, `n` clock
cycles; `u` is `!isRuningInmediate`. After a clock cycle that did not end the loop by itself, the
loop goes on or is left: by the stop button (line 119), or by the answer "stop" to the dialog (lines
174-178, only when `u` is false and more than ten seconds have passed). Both leave the core as it
is. -/
inductive ProgramButtonLoop (u : Bool) : Bool → Nat → H → H → Ended → Prop
  | last {h h' : H} {r : CInt} (run : exec (.runClockCycle u) h = some (r, h')) :
      ProgramButtonLoop u true 1 h h' .done
  | stop {h h1 : H} {r x bits : CInt} (run : exec (.runClockCycle u) h = some (r, h1))
      (ri : exec (.getRegisterValue .ri) h1 = some (x, h1))
      (max : exec .getMemoryValueSizeBits h1 = some (bits, h1)) :
      ProgramButtonLoop u false 1 h h1 .stopped
  | more {h h1 h' : H} {r x bits : CInt} {n : Nat} {e : Ended}
      (run : exec (.runClockCycle u) h = some (r, h1))
      (ri : exec (.getRegisterValue .ri) h1 = some (x, h1))
      (max : exec .getMemoryValueSizeBits h1 = some (bits, h1))
      (rest : ProgramButtonLoop u (decide (x.toNat = 2 ^ bits.toNat - 1)) n h1 h' e) :
      ProgramButtonLoop u false (n + 1) h h' e

/-- `handleRunProgram` (`RunButtons.tsx:91-206`); `stoping` starts as `false` (line 116). -/
def ProgramButton (u : Bool) (n : Nat) (h h' : H) (e : Ended) : Prop :=
  ProgramButtonLoop u false n h h' e

/-- Any number of presses of the three run buttons, each ended by itself or stopped. The buttons are
disabled while a loop runs (`RunButtons.tsx:247`, `257`, `266`). `n` counts clock cycles. -/
inductive Presses : Nat → H → H → Prop
  | none {h : H} : Presses 0 h h
  | state {h h1 h' : H} {n : Nat} (first : StateButton h h1) (rest : Presses n h1 h') :
      Presses (1 + n) h h'
  | instruction {h h1 h' : H} {k n : Nat} {e : Ended} (first : InstructionButton k h h1 e)
      (rest : Presses n h1 h') : Presses (k + n) h h'
  | program {h h1 h' : H} {k n : Nat} {e : Ended} (u : Bool) (first : ProgramButton u k h h1 e)
      (rest : Presses n h1 h') : Presses (k + n) h h'

end Mpp
