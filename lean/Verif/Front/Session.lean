import Verif.Buttons
import Verif.Front.Coder
import Verif.Front.Stored
/-!
# The page while a program runs

Model of `RunButtons.tsx` with its React state, its suspended functions and the buttons as they are
enabled and disabled, together with the settings (`Front/Stored`), the code drawer (`Front/Coder`) and
the core. `Buttons` says what one press of a button may do to the core when it is not disturbed; here
the order of clicks, pauses and answers is not restricted in any way.

JavaScript runs one piece of code at a time: an event handler, or a suspended function from one
`await` to the next. React updates the page and runs effects after each of them. A function that
awaits `sleep(0)` goes on before anything else can happen. Left out: the messages (`toast`) and the
time that is measured; whether more than ten seconds have passed is taken as arbitrary.
-/
namespace Mpp.Front

/-- A suspended function: the `await` at which it waits and the local variables that are used
afterwards. -/
inductive Task
  /-- `handleRunInstruction` at `RunButtons.tsx:85` -/
  | instruction (pause : Value)
  /-- `handleRunProgram` at line 104; `isRuningInmediate` is `true` -/
  | starting
  /-- `handleRunProgram` at line 124; `imm` is `isRuningInmediate` when the button was pressed -/
  | program (imm : Bool) (pause : Value) (stoping : Bool)
  /-- `handleRunProgram` at line 130, waiting for an answer; `isRuningInmediate` is `true` -/
  | dialog (pause : Value) (stoping : Bool)
  /-- `handleRunProgram` at line 180; `isRuningInmediate` is `true` -/
  | dismissed (pause : Value) (stoping : Bool)
  deriving DecidableEq

/-- The task waits for `sleep(0)`, a promise that is fulfilled already (`lib/utils.ts:2`). -/
def Task.urgent : Task → Bool
  | .instruction pause => pause = .int 0
  | .program _ pause _ => pause = .int 0
  | _ => false

/-- The task waits in `sleep` (`lib/utils.ts:1-14`), which ends at once when the signal is aborted. -/
def Task.sleeping : Task → Bool
  | .dialog _ _ => false
  | _ => true

/-- The page. -/
structure Ui where
  core : H
  /-- the core when the subscribers were last notified (`lib/core/index.ts:319-321`) -/
  shown : Option H
  /-- `running` (`RunButtons.tsx:63`) -/
  running : Bool
  /-- `_running.current` (line 64), `undefined` in the beginning, which is false as a condition -/
  current : Bool
  /-- the settings and what is stored; `page.immediate` is `isRuningInmediate` (line 65) -/
  page : Page
  /-- the code drawer -/
  drawer : Editor
  /-- the functions that wait -/
  tasks : List Task

/-- The page is loaded: nothing runs, nothing has been notified yet, and the drawer has the code of the
editor. (The editor is mounted when the drawer is opened for the first time; it is taken here to be
there from the beginning.) -/
def Ui.start (h : H) (p : Page) : Option Ui :=
  (Editor.start.act (.code p.code)).map fun e => ⟨h, none, false, false, p, e, []⟩

/-- `getCore().run_clock_cycle(u)`. The callback notifies the subscribers when `u` is set. -/
def Ui.cycle (s : Ui) (u : Bool) : Option Ui :=
  (exec (.runClockCycle u) s.core).map fun r =>
    { s with core := r.2, shown := if u then some r.2 else s.shown }

/-- `setRunning(false); _running.current = false` (`RunButtons.tsx:87-88`, `192-193`). -/
def Ui.ended (s : Ui) : Ui := { s with running := false, current := false }

/-- `handleRunInstruction` from the condition of its loop (`RunButtons.tsx:81-88`) to the next `await`
or to its end. -/
def Ui.instructionLoop (s : Ui) (pause : Value) : Option (Ui × List Task) :=
  if s.current then
    (s.cycle true).bind fun s =>
      (exec .getNextState s.core).map fun r =>
        if r.1 = 0 then (s.ended, []) else (s, [.instruction pause])
  else some (s.ended, [])

/-- The end of `handleRunProgram` (`RunButtons.tsx:186-193`). -/
def Ui.programEnd (s : Ui) (imm : Bool) : Ui :=
  Ui.ended { s with shown := if imm then some s.core else s.shown }

/-- `handleRunProgram` from the condition of its loop (`RunButtons.tsx:119-193`) to the next `await` or
to its end. `maxRepresentableValue` (lines 114-115) is always the same. -/
def Ui.programLoop (s : Ui) (imm : Bool) (pause : Value) (stoping : Bool) : Option (Ui × List Task) :=
  if s.current then
    (s.cycle (!imm)).bind fun s =>
      if stoping then some (s.programEnd imm, [])
      else
        (exec (.getRegisterValue .ri) s.core).bind fun ri =>
          (exec .getMemoryValueSizeBits s.core).map fun bits =>
            (s, [.program imm pause (decide (ri.1.toNat = 2 ^ bits.1.toNat - 1))])
  else some (s.programEnd imm, [])

/-- `handleRunProgram` after line 106: `cycleTime` is read, `_running.current` is set. -/
def Ui.programStart (s : Ui) (imm : Bool) : Option (Ui × List Task) :=
  Ui.programLoop { s with page := s.page.step .run, current := true } imm s.page.cycleTime false

/-- A task goes on after its pause. `late`: more than ten seconds have passed since the last check
(`RunButtons.tsx:126-127`). -/
def Ui.resume (s : Ui) (late : Bool) : Task → Option (Ui × List Task)
  | .instruction pause => s.instructionLoop pause
  | .starting => s.programStart true
  | .program imm pause stoping =>
    if imm && late then some ({ s with shown := some s.core }, [.dialog pause stoping])
    else s.programLoop imm pause stoping
  | .dialog pause stoping => some (s, [.dialog pause stoping])
  | .dismissed pause stoping => s.programLoop true pause stoping

/-- The three run buttons. -/
inductive Button
  | state
  | instruction
  | program
  deriving DecidableEq

/-- The handlers up to their first `await`: `handleRunState` (`RunButtons.tsx:68-72`),
`handleRunInstruction` (lines 74-88), `handleRunProgram` (lines 91-193). -/
def Ui.press (s : Ui) : Button → Option (Ui × List Task)
  | .state => (s.cycle true).map fun s => ({ s with running := false }, [])
  | .instruction =>
    Ui.instructionLoop { s with page := s.page.step .run, current := true, running := true }
      s.page.cycleTime
  | .program =>
    if s.page.immediate then some ({ s with running := true, current := true }, [.starting])
    else Ui.programStart { s with running := true } false

/-- All the tasks of a list go on, one after the other, in the order in which they wait. -/
def Ui.resumeAll (s : Ui) (late : Bool) : List Task → Option (Ui × List Task)
  | [] => some (s, [])
  | t :: ts =>
    (if t.sleeping then s.resume late t else some (s, [t])).bind fun r =>
      (r.1.resumeAll late ts).map fun q => (q.1, r.2 ++ q.2)

/-- The call notifies the subscribers through the callback (`linker/mem.c:65`, `linker/registers.c:103`,
`linker/cu.c:141`). -/
def Call.notifies : Call → Bool
  | .setMemoryValue _ _ => true
  | .setRegisterPc _ => true
  | .runClockCycle u => u
  | _ => false

/-- Calls of the core by the code drawer. -/
def Ui.calls (s : Ui) : List Call → Option Ui
  | [] => some s
  | c :: cs =>
    (exec c s.core).bind fun r =>
      Ui.calls { s with core := r.2, shown := if Call.notifies c then some r.2 else s.shown } cs

/-- What can happen next. -/
inductive Event
  | press (b : Button)
  /-- the stop button, and whether ten seconds are over for a task that goes on -/
  | stop (late : Bool)
  /-- the pause of the task at position `i` is over -/
  | wake (i : Nat) (late : Bool)
  /-- an answer in the dialog of the task at position `i`: continue or stop -/
  | answer (i : Nat) (go : Bool)
  /-- the box for the cycle time -/
  | cycle (v : Option Int)
  /-- the switch for the tour -/
  | tour (checked : Bool)
  /-- the text or the offset in the code drawer -/
  | drawer (a : Action)
  /-- saving the program in the code drawer -/
  | save
  /-- setting PC in the code drawer -/
  | setPc

/-- A handler or task has run: `tasks` are those that wait now. -/
def Ui.waiting (r : Ui × List Task) (before after : List Task) : Ui :=
  { r.1 with tasks := before ++ r.2 ++ after }

/-- One event; `none` when it cannot happen (the button is disabled, no such task) or when the core
does something undefined. The run buttons are disabled while `running`
(`RunButtons.tsx:247`, `257`, `266`), the stop button unless `running` and not `isRuningInmediate`
(line 275). `handleStopRunning` (lines 208-213) clears `_running.current` and aborts, so that the
sleeping tasks go on. Loading the page again is not an event here. -/
def Ui.step (s : Ui) : Event → Option Ui
  | .press b =>
    if s.tasks.any Task.urgent || s.running then none
    else (s.press b).map fun r => Ui.waiting r s.tasks []
  | .stop late =>
    if s.tasks.any Task.urgent || !s.running || s.page.immediate then none
    else (Ui.resumeAll { s with current := false } late s.tasks).map fun r => Ui.waiting r [] []
  | .wake i late =>
    match s.tasks[i]? with
    | none => none
    | some t =>
      if !t.sleeping || (s.tasks.any Task.urgent && !t.urgent) then none
      else (s.resume late t).map fun r => Ui.waiting r (s.tasks.take i) (s.tasks.drop (i + 1))
  | .answer i go =>
    if s.tasks.any Task.urgent then none
    else match s.tasks[i]? with
      | some (.dialog pause stoping) =>
        some (Ui.waiting (if go then (s, [.dismissed pause stoping]) else (s.programEnd true, []))
          (s.tasks.take i) (s.tasks.drop (i + 1)))
      | _ => none
  | .cycle v => if s.tasks.any Task.urgent then none else some { s with page := s.page.step (.cycle v) }
  | .tour b => if s.tasks.any Task.urgent then none else some { s with page := s.page.step (.tour b) }
  | .drawer a =>
    if s.tasks.any Task.urgent then none
    else (s.drawer.act a).map fun e =>
      { s with drawer := e, page := match a with
        | .code text => s.page.step (.edit text)
        | .offset _ => s.page }
  | .save => if s.tasks.any Task.urgent then none else s.calls s.drawer.saveCalls
  | .setPc => if s.tasks.any Task.urgent then none else s.calls s.drawer.pcCalls

/-- Events one after the other. -/
def Ui.steps (s : Ui) : List Event → Option Ui
  | [] => some s
  | e :: es => (s.step e).bind fun s => s.steps es

end Mpp.Front
