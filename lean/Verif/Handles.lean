import Verif.Picture
/-!
# The points of the boxes of the diagram where its arrows begin and end

Model of the handles that the boxes draw (`Handles.tsx`, `BusNode.tsx`, `ALUNode.tsx`, `FlagsNode.tsx`,
`MemoryNode.tsx`, `LoadableNode.tsx`) and of the handles that `constants/edges.tsx` names. Colours are
left out. React Flow is not modelled: it is only assumed that it can draw an arrow between a handle
from which arrows may begin and one where they may end.
-/
namespace Mpp

/-- `type` of a `Handle`. -/
inductive HandleKind | source | target
deriving DecidableEq

/-- `position` of a `Handle`. -/
inductive Side | top | bottom | left | right
deriving DecidableEq

/-- A `Handle` of React Flow: its `id`, its `type`, its `position`, and `left` (on the top and the bottom)
or `top` (on the left and the right) in percent. -/
structure Handle where
  id : Option String
  kind : HandleKind
  side : Side
  percent : Nat
deriving DecidableEq

/-- What matters here of the `data` of a node. -/
structure HandleData where
  /-- `handlePos` -/
  pos : Option (List String)
  /-- `handlesCount` -/
  count : Option Nat
deriving DecidableEq

/-- The handles at one side of a register (`Handles.tsx:6-82` for the top, `84-160` for the bottom, which
differ in this word only). -/
def handlesAt (word : String) (side : Side) (d : HandleData) (id : String) : List Handle :=
  if d.pos.any (·.contains word) then
    (if d.count = some 1 then
      [⟨some (id ++ "-" ++ word ++ "-target-30"), .target, side, 30⟩,
       ⟨some (id ++ "-" ++ word ++ "-source-30"), .source, side, 30⟩]
     else []) ++
    (if d.count = some 2 then
      [⟨some (id ++ "-" ++ word ++ "-source-70"), .source, side, 70⟩,
       ⟨some (id ++ "-" ++ word ++ "-target-70"), .target, side, 70⟩,
       ⟨some (id ++ "-" ++ word ++ "-target-30"), .target, side, 30⟩,
       ⟨some (id ++ "-" ++ word ++ "-source-30"), .source, side, 30⟩]
     else [])
  else []

/-- `Handles` (`Handles.tsx:3-163`). -/
def handles (d : HandleData) (id : String) : List Handle :=
  handlesAt "top" .top d id ++ handlesAt "bottom" .bottom d id

/-- The handles of `BusNode` (`BusNode.tsx:43-47`, `76-134`). -/
def busHandles (id : String) : List Handle :=
  [5, 20, 37, 55, 72, 90].map
    (fun p => ⟨some (id ++ "-top-source-" ++ toString p), .source, .top, p⟩) ++
  [30, 45, 60, 77, 95].map
    (fun p => ⟨some (id ++ "-top-target-" ++ toString p), .target, .top, p⟩) ++
  [10, 40, 80, 100].map
    (fun p => ⟨some (id ++ "-bottom-source-" ++ toString p), .source, .bottom, p⟩) ++
  [10, 20, 50, 70, 90].map
    (fun p => ⟨some (id ++ "-bottom-target-" ++ toString p), .target, .bottom, p⟩)

/-- The handles of `ALUNode` (`ALUNode.tsx:43-88`). It does not draw those that its data ask for. -/
def aluHandles (id : String) : List Handle :=
  [⟨some (id ++ "-input-A"), .target, .bottom, 30⟩, ⟨some (id ++ "-input-B"), .target, .bottom, 70⟩,
   ⟨some (id ++ "-output-FZ"), .source, .right, 30⟩, ⟨some (id ++ "-output-FC"), .source, .right, 70⟩]

/-- The handles of `FlagsNode` (`FlagsNode.tsx:59-81`). -/
def flagsHandles (id : String) : List Handle :=
  [⟨some (id ++ "-input-FZ"), .target, .left, 30⟩, ⟨some (id ++ "-input-FC"), .target, .left, 70⟩]

/-- The handles of `MemoryNode` (`MemoryNode.tsx:133-147`) and, in another order, of `LoadableNode`
(`LoadableNode.tsx:21-34`), which have no `id`. -/
def plainHandles : List Handle := [⟨none, .target, .top, 30⟩, ⟨none, .source, .top, 70⟩]

/-- The component that draws a box (`nodeTypes`, `CPUTable/index.tsx:43-53`), as far as its handles are
concerned. The boxes of the states, of the debugger and of the time of a cycle have none. -/
def boxHandles (type : String) (d : HandleData) (id : String) : List Handle :=
  match type with
  | "registerNode" => handles d id
  | "busNode" => busHandles id
  | "aluNode" => aluHandles id
  | "flagsNode" => flagsHandles id
  | "memoryNode" => plainHandles
  | "loadableNode" => plainHandles
  | _ => []

/-- `id`, `type`, `data.handlePos` and `data.handlesCount` of the `nodes`
(`pages/CPUTable/constants/nodes.tsx:3-324`). -/
def nodeHandles : List (String × String × HandleData) :=
  [("registers-bank", "loadableNode", ⟨none, none⟩),
   ("rb", "registerNode", ⟨none, none⟩),
   ("rc", "registerNode", ⟨none, none⟩),
   ("rd", "registerNode", ⟨none, none⟩),
   ("re", "registerNode", ⟨none, none⟩),
   ("acum", "registerNode", ⟨some ["bottom", "top"], some 2⟩),
   ("2op", "registerNode", ⟨some ["bottom", "top"], some 2⟩),
   ("pc", "registerNode", ⟨some ["bottom"], some 1⟩),
   ("sp", "registerNode", ⟨some ["bottom"], some 1⟩),
   ("h", "registerNode", ⟨some ["bottom"], some 1⟩),
   ("l", "registerNode", ⟨some ["bottom"], some 1⟩),
   ("8", "loadableNode", ⟨none, none⟩),
   ("ri", "registerNode", ⟨some ["top"], some 1⟩),
   ("8b", "registerNode", ⟨none, none⟩),
   ("memory", "memoryNode", ⟨none, none⟩),
   ("transition-state", "stateTransition", ⟨none, none⟩),
   ("debugger", "debuggerNode", ⟨none, none⟩),
   ("flags", "flagsNode", ⟨none, none⟩),
   ("clockCycleTime", "cycleTimeNode", ⟨none, none⟩),
   ("alu", "aluNode", ⟨some ["bottom"], some 2⟩),
   ("databus", "busNode", ⟨none, none⟩)]

/-- The handles drawn on the screen: the id of their box and the handle. -/
def drawnHandles : List (String × Handle) :=
  nodeHandles.flatMap fun n => (boxHandles n.2.1 n.2.2 n.1).map fun h => (n.1, h)

/-- `sourceHandle` of the edges (`constants/edges.tsx:3-297`), by their id. -/
def sourceHandle : String → Option String
  | "databus-ri" => some "databus-bottom-source-10"
  | "databus-registersbank" => some "databus-bottom-source-40"
  | "databus-memory" => some "databus-bottom-source-80"
  | "databus-pc" => some "databus-top-source-5"
  | "databus-acum" => some "databus-top-source-20"
  | "acum-databus" => some "acum-bottom-source-70"
  | "databus-sp" => some "databus-top-source-55"
  | "databus-2op" => some "databus-top-source-37"
  | "databus-h" => some "databus-top-source-72"
  | "databus-7" => some "databus-top-source-90"
  | "acum-alu" => some "acum-top-source-70"
  | "2op-alu" => some "2op-top-source-30"
  | "alu-flagsfz" => some "alu-output-FZ"
  | "alu-flagsfc" => some "alu-output-FC"
  | _ => none

/-- `targetHandle` of the edges (`constants/edges.tsx:3-297`), by their id. -/
def targetHandle : String → Option String
  | "registersbank-databus" => some "databus-bottom-target-50"
  | "memory-databus" => some "databus-bottom-target-90"
  | "databus-acum" => some "acum-bottom-target-30"
  | "acum-databus" => some "databus-top-target-30"
  | "databus-2op" => some "2op-bottom-target-30"
  | "acum-alu" => some "alu-input-A"
  | "2op-alu" => some "alu-input-B"
  | "alu-flagsfz" => some "flags-input-FZ"
  | "alu-flagsfc" => some "flags-input-FC"
  | _ => none

end Mpp
