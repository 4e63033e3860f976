import Verif.Front.NumberBox
import Verif.Panel
import Verif.Diagram
/-!
# The memory box of the diagram

Model of `mpp-front/src/pages/CPUTable/components/MemoryNode.tsx`: which cells are drawn, and when.
-/
namespace Mpp.Front

/-- One `MemoryComponentRow` as drawn: the texts of its two columns (`MemoryNode.tsx:33-41`) and
whether it is highlighted (`MemoryNode.tsx:80`). -/
structure MemRow where
  offset : Str
  value : Str
  marked : Bool
  deriving DecidableEq

/-- `n.toString(radix)` of an offset, without `toUpperCase` (`MemoryNode.tsx:51-53`). -/
def Base.plain (b : Base) (n : Int) : Str :=
  if n < 0 then '-' :: Nat.toDigits b.radix n.natAbs else Nat.toDigits b.radix n.natAbs

/-- `n.toString(radix).toUpperCase()` of a value (`MemoryNode.tsx:37`). -/
def Base.formatInt (b : Base) (n : Int) : Str :=
  if n < 0 then '-' :: b.format n.natAbs else b.format n.natAbs

/-- One row (`MemoryNode.tsx:20-42`, `47-57`): none when `get_memory_value` returns -1. The offset is a
JavaScript number; as an argument of a WebAssembly function it is taken modulo 2^32. -/
def memRow (h : H) (base setting : Base) (marked : Bool) (offset : Int) : Option (H × List MemRow) :=
  (exec (.getMemoryValue (BitVec.ofInt 32 offset)) h).map fun r =>
    (r.2, if r.1.toInt = -1 then [] else [⟨base.plain offset, setting.formatInt r.1.toInt, marked⟩])

/-- `MemoryComponent` (`MemoryNode.tsx:44-90`): the rows drawn; `setting` is the stored base of the
values (`MemoryNode.tsx:59-64`). -/
def memRows (h : H) (base setting : Base) (offset : Nat) : Option (H × List MemRow) :=
  (memRow h base setting false ((offset : Int) - 1)).bind fun p =>
    (memRow p.1 base setting true offset).bind fun c =>
      (memRow c.1 base setting false (offset + 1)).map fun n => (n.1, p.2 ++ c.2 ++ n.2)

/-- The state of `MemoryNode` (`MemoryNode.tsx:93-95`), of the `NumberBaseInput` in it, whose `number`
is `searchValue`, the stored setting, and what is on the screen. -/
structure MemPanel where
  field : Field
  /-- `base` of `MemoryNode`; the box has its own copy -/
  base : Base
  le : CInt
  setting : Base
  rows : List MemRow
  deriving DecidableEq

/-- Draw the rows. -/
def MemPanel.draw (h : H) (m : MemPanel) : Option (H × MemPanel) :=
  (memRows h m.base m.setting m.field.number).map fun r => (r.1, { m with rows := r.2 })

/-- The first drawing (`MemoryNode.tsx:93-95`). -/
def MemPanel.start (h : H) (setting : Base) : Option (H × MemPanel) :=
  MemPanel.draw h ⟨Field.start .hex 0, .hex, 1, setting, []⟩

/-- `onUIUpdate` (`MemoryNode.tsx:100-104`) and the drawing it causes; `get_control_bus_le` is a bit of
the control bus, see `Line.bit`. -/
def MemPanel.update (h : H) (m : MemPanel) : Option (H × MemPanel) :=
  (exec .getMemoryDirBus h).bind fun d => (exec (.getControlBit Line.le.bit) d.2).bind fun l =>
    (m.field.step none (.prop d.1.toNat)).bind fun f =>
      MemPanel.draw l.2 { m with field := f, le := l.1 }

/-- What can happen while the memory box is on the screen. -/
inductive MemEvent
  /-- an exported function is called -/
  | call (c : Call)
  /-- `notifyUpdateToSubscribers` called by the run-program button -/
  | notify
  /-- the text of the box is edited: `onSearch` (`MemoryNode.tsx:114-117`) if it is accepted -/
  | type (s : Str)
  /-- a base is selected: `onBaseChange` (`MemoryNode.tsx:119-121`) -/
  | pick (b : Base)
  /-- the setting is changed; this draws nothing (`Settings.tsx:106-110`) -/
  | setting (b : Base)

/-- One event. Editing and selecting draw the rows again only if they change the state of
`MemoryNode`. -/
def MemEvent.step : MemEvent → H × MemPanel → Option (H × MemPanel)
  | .call c, (h, m) => (exec c h).bind fun r => if c.notifies then m.update r.2 else some (r.2, m)
  | .notify, (h, m) => m.update h
  | .type s, (h, m) =>
    (m.field.step none (.type s)).bind fun f =>
      let base := if f.valid then f.base else m.base
      if f.number = m.field.number ∧ base = m.base then some (h, { m with field := f })
      else MemPanel.draw h { m with field := f, base := base }
  | .pick b, (h, m) =>
    (m.field.step none (.pick b)).bind fun f =>
      if b = m.base then some (h, { m with field := f })
      else MemPanel.draw h { m with field := f, base := b }
  | .setting b, (h, m) => some (h, { m with setting := b })

def memSteps : List MemEvent → H × MemPanel → Option (H × MemPanel)
  | [], x => some x
  | e :: es, x => (e.step x).bind (memSteps es)

def MemEvent.Allowed (p : Phase) : MemEvent → Prop
  | .call c => c.Allowed p
  | .setting _ => True
  | _ => p.on = true

def MemEvent.after (p : Phase) : MemEvent → Phase
  | .call c => c.after p
  | _ => p

/-- Sessions that respect the lifecycle of the core. -/
def LegalMem : Phase → List MemEvent → Phase → Prop
  | p, [], p' => p' = p
  | p, e :: es, p' => e.Allowed p ∧ LegalMem (e.after p) es p'

/-- The UI updates. -/
def MemEvent.updates : MemEvent → Bool
  | .call c => c.notifies
  | .notify => true
  | _ => false

end Mpp.Front
