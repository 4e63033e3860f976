import Verif.Front.Assembler
import Verif.Host
/-!
# The code drawer

Model of `mpp-front/src/pages/Coder/index.tsx` and of the handlers of
`mpp-front/src/pages/Coder/components/CodeEditor.tsx`: what is kept between events, when saving is
enabled, and which calls of the core saving makes.

React runs passive effects before it delivers the next event, so an event and the effects it causes
are one step here. Left out: the drawer's visibility, the stored code, examples (an event `code`),
files (another event `code`), markers and annotations.
-/
namespace Mpp.Front

/-- The state of `Coder` (`canSaveToMem`, `slots`, `initOffset`) and of `CodeEditor` (its own
`initOffset`, `offsetValid`). -/
structure Editor where
  canSave : Bool
  slots : List Str
  offset : Int
  shownOffset : Int
  offsetValid : Bool
  deriving DecidableEq

/-- The effect on `[slots, initOffset]` (`Coder/index.tsx:51-55`); `get_memory_size()` is 65536. -/
def Editor.check (e : Editor) : Editor :=
  { e with canSave := e.offset + e.slots.length - 1 ≤ 65536 - 1 }

/-- After the first render and its effects (`Coder/index.tsx:16-18`, `51-55`; `CodeEditor.tsx:50`,
`52`). -/
def Editor.start : Editor := Editor.check ⟨false, [], 0, 0, true⟩

/-- `onNewTranslation` (`Coder/index.tsx:40-45`) and the effect. `split` makes a new array, so the
effect runs whenever `slots` is set. -/
def Editor.newTranslation (e : Editor) : Option (List Str) → Editor
  | none => { e with canSave := false }
  | some lines => Editor.check { e with canSave := true, slots := lines }

/-- `onNewOffset` (`Coder/index.tsx:47-49`) and the effect, which runs only if the value changes. -/
def Editor.newOffset (e : Editor) (n : Int) : Editor :=
  if n = e.offset then e else Editor.check { e with offset := n }

/-- What the user can do in the drawer. -/
inductive Action
  /-- the code becomes `text`: `onChange`, `handleSelectExample`, `handleOpenCode`
  (`CodeEditor.tsx:105-107`, `127-129`, `141-145`) -/
  | code (text : Str)
  /-- `onChangeInitOffset` (`CodeEditor.tsx:109-121`). The input is disabled (`CodeEditor.tsx:186`);
  the handler is modelled all the same. -/
  | offset (n : Int)

/-- One event. `none` when `parseInput` does not return. The effect on `[code]`
(`CodeEditor.tsx:60-87`) runs only when the text changes; running it again would set the same
slots. -/
def Editor.act (e : Editor) : Action → Option Editor
  | .code text => (translation text).map e.newTranslation
  | .offset n =>
    let valid : Bool := ¬ (n < 0 ∨ n > 65536 - 1)
    let e := { e with offsetValid := valid, shownOffset := n }
    some (if valid then e.newOffset n else e)

/-- Events one after the other. -/
def Editor.acts (e : Editor) : List Action → Option Editor
  | [] => some e
  | a :: as => (e.act a).bind fun e => e.acts as

/-- `parseInt(slot, 16)` as an argument of a WebAssembly function: `NaN` becomes 0. -/
def slotValue (slot : Str) : CInt := BitVec.ofNat 32 ((parseHex slot).getD 0)

/-- The loop of `handleSaveToMemory` (`Coder/index.tsx:32-36`) from `i` on. -/
def saveFrom (offset : Int) : Nat → List Str → List Call
  | _, [] => []
  | i, slot :: slots =>
    .setMemoryValue (BitVec.ofInt 32 (offset + i)) (slotValue slot) :: saveFrom offset (i + 1) slots

/-- `handleSaveToMemory` (`Coder/index.tsx:29-38`). The button is disabled when saving is
(`Coder/index.tsx:98`). -/
def Editor.saveCalls (e : Editor) : List Call :=
  if e.canSave then .resetControl :: saveFrom e.offset 0 e.slots else []

/-- `handlePCChange` (`CodeEditor.tsx:123-125`). The button is disabled when the offset is not valid
(`CodeEditor.tsx:199`). -/
def Editor.pcCalls (e : Editor) : List Call :=
  if e.offsetValid then [.setRegisterPc (BitVec.ofInt 32 e.shownOffset)] else []

end Mpp.Front
