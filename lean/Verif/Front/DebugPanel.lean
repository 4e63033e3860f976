import Verif.Front.NumberBox
import Verif.Front.Debugger
import Verif.Panel
import Verif.Diagram
/-!
# The debugger box of the diagram

Model of `mpp-front/src/pages/CPUTable/components/DebuggerNode/index.tsx`: what is listed, and when.
-/
namespace Mpp.Front

/-- One `DebuggerComponentRow` as drawn: the texts of its two columns and whether it is highlighted
(`DebuggerNode/index.tsx:19-46`). -/
structure DebugRow where
  range : Str
  operation : Str
  focus : Bool
  deriving DecidableEq

/-- The texts of one row (`DebuggerNode/index.tsx:30-43`, `111-115`). -/
def debugRow (point : Option Nat) (i : Nat) (x : Found) : DebugRow :=
  ⟨upperHex x.first ++ "-".toList ++ upperHex x.last, x.operation, decide (point = some i)⟩

/-- What `get_memory_value(k)` returns, for the disassembler. -/
def readMemory (h : H) (k : Nat) : Int :=
  match exec (.getMemoryValue (BitVec.ofNat 32 k)) h with
  | some r => r.1.toInt
  | none => 0

/-- `DebuggerComponent` (`DebuggerNode/index.tsx:49-122`) without the scrolling: the rows and the
message of the alert. `none` when one of the cells up to the end of the window cannot be read, or when
`deductOperationOf` throws. (`get_memory_value` changes nothing, so the state of the core is not
threaded through the reads.) -/
def debugDraw (h : H) (pc padding : Nat) : Option (List DebugRow × Option Str) :=
  if (List.range (pc + padding + 3)).all fun k =>
      (exec (.getMemoryValue (BitVec.ofNat 32 k)) h).isSome then
    match debuggerRows (readMemory h) pc padding with
    | some (some (rows, point)) => some (rows.mapIdx (debugRow point),
        if point = none then some ("No operation in ".toList ++ toHex pc) else none)
    | _ => none
  else none

/-- The state of `DebuggerNode` (`DebuggerNode/index.tsx:125-127`), of the `NumberBaseInput` in it,
whose `number` is `offsetPadding`, and what is on the screen. -/
structure DebugPanel where
  /-- `searchValue` -/
  pc : Nat
  field : Field
  base : Base
  rows : List DebugRow
  alert : Option Str

/-- Draw the list. -/
def DebugPanel.draw (h : H) (m : DebugPanel) : Option (H × DebugPanel) :=
  (debugDraw h m.pc m.field.number).map fun r => (h, { m with rows := r.1, alert := r.2 })

/-- The first drawing (`DebuggerNode/index.tsx:125-127`). -/
def DebugPanel.start (h : H) : Option (H × DebugPanel) :=
  DebugPanel.draw h ⟨0, Field.start .dec 10, .dec, [], none⟩

/-- `onUIUpdate` (`DebuggerNode/index.tsx:131-134`): the list is drawn again even if the number is the
same. -/
def DebugPanel.update (h : H) (m : DebugPanel) : Option (H × DebugPanel) :=
  (exec (.getRegisterValue .pc) h).bind fun r => DebugPanel.draw r.2 { m with pc := r.1.toNat }

/-- What can happen while the debugger box is on the screen. -/
inductive DebugEvent
  /-- an exported function is called -/
  | call (c : Call)
  /-- `notifyUpdateToSubscribers` called by the run-program button -/
  | notify
  /-- the text of the box is edited: `onSearch` (`DebuggerNode/index.tsx:144-147`) if it is accepted -/
  | type (s : Str)
  /-- a base is selected: `onBaseChange` (`DebuggerNode/index.tsx:149-151`) -/
  | pick (b : Base)

/-- `maxOffsetPadding` (`DebuggerNode/index.tsx:17`). -/
def maxOffsetPadding : Nat := 50

/-- One event. Editing and selecting draw the list again only if they change the state of
`DebuggerNode`. -/
def DebugEvent.step : DebugEvent → H × DebugPanel → Option (H × DebugPanel)
  | .call c, (h, m) => (exec c h).bind fun r => if c.notifies then m.update r.2 else some (r.2, m)
  | .notify, (h, m) => m.update h
  | .type s, (h, m) =>
    (m.field.step (some maxOffsetPadding) (.type s)).bind fun f =>
      let base := if f.valid then f.base else m.base
      if f.number = m.field.number ∧ base = m.base then some (h, { m with field := f })
      else DebugPanel.draw h { m with field := f, base := base }
  | .pick b, (h, m) =>
    (m.field.step (some maxOffsetPadding) (.pick b)).bind fun f =>
      if b = m.base then some (h, { m with field := f })
      else DebugPanel.draw h { m with field := f, base := b }

def debugSteps : List DebugEvent → H × DebugPanel → Option (H × DebugPanel)
  | [], x => some x
  | e :: es, x => (e.step x).bind (debugSteps es)

def DebugEvent.Allowed (p : Phase) : DebugEvent → Prop
  | .call c => c.Allowed p
  | _ => p.on = true

def DebugEvent.after (p : Phase) : DebugEvent → Phase
  | .call c => c.after p
  | _ => p

/-- Sessions that respect the lifecycle of the core. -/
def LegalDebug : Phase → List DebugEvent → Phase → Prop
  | p, [], p' => p' = p
  | p, e :: es, p' => e.Allowed p ∧ LegalDebug (e.after p) es p'

/-- The UI updates. -/
def DebugEvent.updates : DebugEvent → Bool
  | .call c => c.notifies
  | .notify => true
  | _ => false

end Mpp.Front
