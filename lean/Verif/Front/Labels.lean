import Verif.Diagram
import Verif.Front.I18n
/-!
# The names on the boxes of the diagram
-/
namespace Mpp.Front

/-- `data.labelKey` of the nodes, by their identity (`pages/CPUTable/constants/nodes.tsx:3-324`); the text is
looked up by `I18n` (`RegisterNode.tsx:73`, `LoadableNode.tsx:38`, `BusNode.tsx:61`, `MemoryNode.tsx:152`,
`ALUNode.tsx:93`, `FlagsNode.tsx:87`, `StateTransition/index.tsx:99`, `CycleTimeNode/index.tsx:41`). -/
def labelKeys : List (String × String) :=
  [("registers-bank", "registersBank.label"), ("rb", "rb.label"), ("rc", "rc.label"), ("rd", "rd.label"),
   ("re", "re.label"), ("acum", "acum.label"), ("2op", "2op.label"), ("pc", "pc.label"), ("sp", "sp.label"),
   ("h", "h.label"), ("l", "l.label"), ("8", "controlunit.label"), ("ri", "ri.label"), ("8b", "state.label"),
   ("memory", "memory.label"), ("transition-state", "transitionstate.label"), ("debugger", "debugger.label"),
   ("flags", "flags.label"), ("clockCycleTime", "clockCycleTime.label"), ("alu", "alu.label"),
   ("databus", "databus.label")]

/-- The text at the top of a box. -/
def labelOf (lang : String) (b : Box) : Option String := (entry labelKeys b.id).bind (loc lang)

end Mpp.Front
