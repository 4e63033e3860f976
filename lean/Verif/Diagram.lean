import Verif.Host
/-!
# The boxes of the CPU diagram and the exported functions they call
-/
namespace Mpp

/-- The one-bit getters of the control bus (`linker/bus.c:40-95`). -/
inductive Line
  | pccar | accar | acbus | spcar | op2car | hcar | lcar | ricar | regcar | regbus | membus | le
deriving DecidableEq

/-- The bit that each of them returns (`linker/bus.c:40-95`, positions in
`lib/constants.h:53-83`). -/
def Line.bit : Line → Nat
  | pccar => CB.pccar
  | accar => CB.accar
  | acbus => CB.acbus
  | spcar => CB.spcar
  | op2car => CB.op2car
  | hcar => CB.hcar
  | lcar => CB.lcar
  | ricar => CB.ricar
  | regcar => CB.regcar
  | regbus => CB.regbus
  | membus => CB.membus
  | le => CB.le

/-- The exported functions without arguments that the diagram may call, by name: the names in
`exportedMethods` (`lib/core/index.ts:11-225`) with the C function of that name
(`linker/registers.c:23-93`, `linker/cu.c`, `linker/mem.c:71`, `linker/bus.c`). -/
def callNamed : String → Option Call
  | "get_memory_dir_bus" => some .getMemoryDirBus
  | "get_register_acum" => some (.getRegisterValue .acum)
  | "get_register_fc" => some (.getRegisterValue .fc)
  | "get_register_fz" => some (.getRegisterValue .fz)
  | "get_register_b" => some (.getRegisterValue .b)
  | "get_register_c" => some (.getRegisterValue .c)
  | "get_register_d" => some (.getRegisterValue .d)
  | "get_register_e" => some (.getRegisterValue .e)
  | "get_register_h" => some (.getRegisterValue .h)
  | "get_register_l" => some (.getRegisterValue .l)
  | "get_register_2op" => some (.getRegisterValue .op2)
  | "get_register_pch" => some (.getRegisterValue .pch)
  | "get_register_pcl" => some (.getRegisterValue .pcl)
  | "get_register_pc" => some (.getRegisterValue .pc)
  | "get_register_sp" => some (.getRegisterValue .sp)
  | "get_register_ri" => some (.getRegisterValue .ri)
  | "get_state" => some .getState
  | "get_next_state" => some .getNextState
  | "get_data_bus" => some .getDataBus
  | "get_control_bus_pccar" => some (.getControlBit Line.pccar.bit)
  | "get_control_bus_accar" => some (.getControlBit Line.accar.bit)
  | "get_control_bus_acbus" => some (.getControlBit Line.acbus.bit)
  | "get_control_bus_spcar" => some (.getControlBit Line.spcar.bit)
  | "get_control_bus_2opcar" => some (.getControlBit Line.op2car.bit)
  | "get_control_bus_hcar" => some (.getControlBit Line.hcar.bit)
  | "get_control_bus_lcar" => some (.getControlBit Line.lcar.bit)
  | "get_control_bus_ricar" => some (.getControlBit Line.ricar.bit)
  | "get_control_bus_regcar" => some (.getControlBit Line.regcar.bit)
  | "get_control_bus_regbus" => some (.getControlBit Line.regbus.bit)
  | "get_control_bus_membus" => some (.getControlBit Line.membus.bit)
  | "get_control_bus_le" => some (.getControlBit Line.le.bit)
  | "get_control_bus_selalu" => some .getControlSelalu
  | _ => none

/-- `execute(f)` (`lib/core/index.ts:306-310`) returns `x` and changes nothing. -/
def Reads (h : H) (f : String) (x : CInt) : Prop :=
  ∃ c, callNamed f = some c ∧ exec c h = some (x, h)

/-- What matters here of a node of the diagram (`pages/CPUTable/constants/nodes.tsx`). Positions,
sizes, handles, texts and help keys are left out. -/
structure Box where
  id : String
  /-- `parentNode` -/
  parent : Option String
  /-- `data.getFunction` -/
  get : Option String
  /-- `data.controlBusBitLoad`: label and function -/
  load : Option (String × String)
  /-- `data.controlBusBitRelease` -/
  release : Option (String × String)
deriving DecidableEq

/-- `nodes` (`pages/CPUTable/constants/nodes.tsx:3-324`). -/
def boxes : List Box :=
  [⟨"registers-bank", none, none, some ("REGCAR", "get_control_bus_regcar"),
      some ("REGBUS", "get_control_bus_regbus")⟩,
   ⟨"rb", some "registers-bank", some "get_register_b", none, none⟩,
   ⟨"rc", some "registers-bank", some "get_register_c", none, none⟩,
   ⟨"rd", some "registers-bank", some "get_register_d", none, none⟩,
   ⟨"re", some "registers-bank", some "get_register_e", none, none⟩,
   ⟨"acum", none, some "get_register_acum", some ("ACCAR", "get_control_bus_accar"),
      some ("ACBUS", "get_control_bus_acbus")⟩,
   ⟨"2op", none, some "get_register_2op", some ("2OPCAR", "get_control_bus_2opcar"), none⟩,
   ⟨"pc", none, some "get_register_pc", some ("PCCAR", "get_control_bus_pccar"), none⟩,
   ⟨"sp", none, some "get_register_sp", some ("SPCAR", "get_control_bus_spcar"), none⟩,
   ⟨"h", none, some "get_register_h", some ("HCAR", "get_control_bus_hcar"), none⟩,
   ⟨"l", none, some "get_register_l", some ("LCAR", "get_control_bus_lcar"), none⟩,
   ⟨"8", none, none, none, none⟩,
   ⟨"ri", some "8", some "get_register_ri", some ("RICAR", "get_control_bus_ricar"), none⟩,
   ⟨"8b", some "8", some "get_state", none, none⟩,
   ⟨"memory", none, none, none, some ("MEMBUS", "get_control_bus_membus")⟩,
   ⟨"transition-state", none, none, none, none⟩,
   ⟨"debugger", none, none, none, none⟩,
   ⟨"flags", none, none, none, none⟩,
   ⟨"clockCycleTime", none, none, none, none⟩,
   ⟨"alu", none, none, none, none⟩,
   ⟨"databus", none, some "get_data_bus", none, none⟩]

/-- `SelAluOp` (`ALUNode.tsx:13-22`): the text beside the code of the ALU operation. -/
def selAluOp : CInt → String := fun x =>
  if x = 0 then "SUM" else if x = 1 then "SUB" else if x = 2 then "AND" else if x = 3 then "OR"
  else if x = 4 then "XOR" else if x = 5 then "NOT" else if x = 6 then "TRANSPARENT"
  else if x = 7 then "INCREMENT" else ""

end Mpp
