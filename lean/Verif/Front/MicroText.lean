import Verif.Isa
/-!
# The micro-operations of the documentation

`docs/src/pages/es/instructions/states.json` says for each microstate what it does. Here are its texts and their
reading. The file mentions neither the C code nor the model of it.
-/
namespace Mpp.Front

/-- `states.json:2-45`, in the order of the file. -/
def microTexts : List (Nat × String) :=
  [(0, "RI ᐊ (PC), PC + 1"), (1, "DECODE"), (2, "2OP ᐊ RF"), (3, "RD ᐊ 2OP"), (4, "AC ᐊ 2OP"),
   (5, "AC ᐊ AC+2OP"), (6, "AC ᐊ AC-2OP"), (7, "AC-2OP"), (8, "RD ᐊ 2OP+1"), (9, "AC ᐊ AC and 2OP"),
   (10, "AC ᐊ AC or 20P"), (11, "AC ᐊ AC ⨁ 20P"), (12, "20P ᐊ AC"), (13, "AC ᐊ 20P + 1"), (14, "AC ᐊ not(AC)"),
   (15, "20P ᐊ (PC), PC+ PC+1"), (16, "H ᐊ (PC), PC ᐊ PC+1"), (17, "L ᐊ (PC), PC ᐊ PC+1"), (18, "20P ᐊ (HL)"),
   (19, "(HL) ᐊ 20P"), (20, "PC ᐊ HL"), (21, "H ᐊ D"), (22, "L ᐊ E"), (23, "AC ᐊ Flags"), (24, "Flags ᐊ AC"),
   (25, "INTA_IN ᐊ 1"), (26, "SP ᐊ SP-1"), (27, "(SP) ᐊ Flags"), (28, "(SP) ᐊ PCH"), (29, "(SP) ᐊ PCL"),
   (30, "PC ᐊ Dir INT"), (31, "SP ᐊ SP+1"), (32, "PCL ᐊ (SP)"), (33, "PCH ᐊ (SP)"), (34, "Flags ᐊ (SP)"),
   (35, "EOI ᐊ 1"), (36, "(SP) ᐊ AC"), (37, "AC ᐊ (SP)"), (38, "SP ᐊ HL"), (39, "RD ᐊ 2OP"), (40, "SP ᐊ SP-1"),
   (41, "SP ᐊ SP+1"), (42, "SP ᐊ SP-1"), (43, "RD ᐊ 2OP")]

/-- What stands in brackets, an address. -/
inductive MicroAddr
  | pc | hl | sp
  deriving DecidableEq

/-- What stands left of the arrow. -/
inductive MicroPlace
  | ac | op2 | ri | h | l | pc | pch | pcl | sp | flags
  /-- the destination register (registro destino) of the instruction -/
  | rd
  | cell (a : MicroAddr)
  deriving DecidableEq

/-- What stands right of it. -/
inductive MicroValue
  | ac | op2 | d | e | pch | pcl | flags | hl
  /-- the source register (registro fuente) of the instruction -/
  | rf
  | cell (a : MicroAddr)
  | add | sub | and | or | xor | not
  /-- 2OP + 1 -/
  | inc
  | pcInc | spInc | spDec
  deriving DecidableEq

/-- A line of the file: what is computed by the ALU, and what is moved. -/
structure MicroStep where
  alu : Option MicroValue
  moves : List (MicroPlace × MicroValue)
  deriving DecidableEq

def moved (p : MicroPlace) (v : MicroValue) : MicroStep := ⟨none, [(p, v)]⟩
def computed (p : MicroPlace) (v : MicroValue) : MicroStep := ⟨some v, [(p, v)]⟩

/-- The reading of the texts. S0 and S15 are read like S16: PC goes to PC+1. S1 only decodes and S7 only computes;
S35 tells the interrupt controller, of which there is none, that the interrupt is over. S25, S27, S30 and S42, for an
interrupt, are left out (`C85_interrupt`). -/
def microSteps : List (Nat × MicroStep) :=
  [(0, ⟨none, [(.ri, .cell .pc), (.pc, .pcInc)]⟩), (1, ⟨none, []⟩), (2, moved .op2 .rf), (3, moved .rd .op2),
   (4, moved .ac .op2), (5, computed .ac .add), (6, computed .ac .sub), (7, ⟨some .sub, []⟩), (8, computed .rd .inc),
   (9, computed .ac .and), (10, computed .ac .or), (11, computed .ac .xor), (12, moved .op2 .ac),
   (13, computed .ac .inc), (14, computed .ac .not), (15, ⟨none, [(.op2, .cell .pc), (.pc, .pcInc)]⟩),
   (16, ⟨none, [(.h, .cell .pc), (.pc, .pcInc)]⟩), (17, ⟨none, [(.l, .cell .pc), (.pc, .pcInc)]⟩),
   (18, moved .op2 (.cell .hl)), (19, moved (.cell .hl) .op2), (20, moved .pc .hl), (21, moved .h .d),
   (22, moved .l .e), (23, moved .ac .flags), (24, moved .flags .ac), (26, moved .sp .spDec),
   (28, moved (.cell .sp) .pch), (29, moved (.cell .sp) .pcl), (31, moved .sp .spInc), (32, moved .pcl (.cell .sp)),
   (33, moved .pch (.cell .sp)), (34, moved .flags (.cell .sp)), (35, ⟨none, []⟩), (36, moved (.cell .sp) .ac),
   (37, moved .ac (.cell .sp)), (38, moved .sp .hl), (39, moved .rd .op2), (40, moved .sp .spDec),
   (41, moved .sp .spInc), (43, moved .rd .op2)]

/-! ## The reading agrees with the texts -/

def MicroAddr.text : MicroAddr → String
  | .pc => "(PC)" | .hl => "(HL)" | .sp => "(SP)"

def MicroPlace.text : MicroPlace → String
  | .ac => "AC" | .op2 => "2OP" | .ri => "RI" | .h => "H" | .l => "L" | .pc => "PC" | .pch => "PCH" | .pcl => "PCL"
  | .sp => "SP" | .flags => "Flags" | .rd => "RD" | .cell a => a.text

def MicroValue.text : MicroValue → String
  | .ac => "AC" | .op2 => "2OP" | .d => "D" | .e => "E" | .pch => "PCH" | .pcl => "PCL" | .flags => "Flags"
  | .hl => "HL" | .rf => "RF" | .cell a => a.text | .add => "AC+2OP" | .sub => "AC-2OP" | .and => "ACand2OP"
  | .or => "ACor2OP" | .xor => "AC⨁2OP" | .not => "not(AC)" | .inc => "2OP+1" | .pcInc => "PC+1" | .spInc => "SP+1"
  | .spDec => "SP-1"

/-- Without blanks, and with the letter O where the file has the digit 0. -/
def normalText : List Char → List Char
  | ' ' :: s => normalText s
  | '2' :: '0' :: 'P' :: s => '2' :: 'O' :: 'P' :: normalText s
  | c :: s => c :: normalText s
  | [] => []

def MicroStep.text (s : MicroStep) : List Char :=
  [','].intercalate (s.moves.map fun m => m.1.text.toList ++ 'ᐊ' :: m.2.text.toList)

/-- Written out again, the readings are the texts, but for blanks, digits 0 for letters O, and the five lines that are
not written as moves. -/
theorem microSteps_text : ∀ k s t, (k, s) ∈ microSteps → (k, t) ∈ microTexts → k ∉ [0, 1, 7, 15, 35] →
    MicroStep.text s = normalText t.toList := by
  have : ∀ x ∈ microSteps, ∀ y ∈ microTexts, y.1 = x.1 → x.1 ∉ [0, 1, 7, 15, 35] →
      MicroStep.text x.2 = normalText y.2.toList := by decide +kernel
  exact fun k s t hs ht hk => this _ hs _ ht rfl hk

/-! ## What the readings say -/

/-- What the boxes of the page show: the value of every register and of every cell. -/
structure Seen where
  reg : WType → BitVec 32
  mem : BitVec 16 → BitVec 8

def Seen.nat (o : Seen) (t : WType) : Nat := (o.reg t).toNat

/-- The register in the operand, and in the place of the result, of an instruction. -/
def sourceReg : Instr → Option G
  | .mov (.reg g) _ | .alu _ (.reg g) | .inc (.reg g) => some g
  | _ => none

def targetReg : Instr → Option G
  | .mov _ (.reg g) | .inc (.reg g) => some g
  | _ => none

def boxOf : G → WType
  | .b => .b | .c => .c | .d => .d | .e => .e

/-- The instruction in RI. -/
def Seen.instr (o : Seen) : Option Instr := decode ((o.reg .ri).setWidth 8)

def MicroAddr.of (o : Seen) : MicroAddr → BitVec 16
  | .pc => (o.reg .pc).setWidth 16
  | .hl => BitVec.ofNat 16 (o.nat .h * 256 + o.nat .l)
  | .sp => (o.reg .sp).setWidth 16

/-- The value right of the arrow; none beyond the ends of memory. -/
def MicroValue.of (o : Seen) : MicroValue → Option Nat
  | .ac => some (o.nat .acum)
  | .op2 => some (o.nat .op2)
  | .d => some (o.nat .d)
  | .e => some (o.nat .e)
  | .pch => some (o.nat .pch)
  | .pcl => some (o.nat .pcl)
  | .flags => some (128 * o.nat .fc + o.nat .fz)
  | .hl => some (o.nat .h * 256 + o.nat .l)
  | .rf => (o.instr.bind sourceReg).map fun g => o.nat (boxOf g)
  | .cell a => some (o.mem (a.of o)).toNat
  | .add => some ((o.nat .acum + o.nat .op2) % 256)
  | .sub => some ((o.nat .acum + 256 - o.nat .op2) % 256)
  | .and => some (o.nat .acum &&& o.nat .op2)
  | .or => some (o.nat .acum ||| o.nat .op2)
  | .xor => some (o.nat .acum ^^^ o.nat .op2)
  | .not => some (255 - o.nat .acum)
  | .inc => some ((o.nat .op2 + 1) % 256)
  | .pcInc => if o.nat .pc = 65535 then none else some (o.nat .pc + 1)
  | .spInc => if o.nat .sp = 65535 then none else some (o.nat .sp + 1)
  | .spDec => if o.nat .sp = 0 then none else some (o.nat .sp - 1)

/-- The carry of what the ALU computes. -/
def MicroValue.carry (o : Seen) : MicroValue → Bool
  | .add => decide (256 ≤ o.nat .acum + o.nat .op2)
  | .sub => decide (o.nat .acum < o.nat .op2)
  | _ => false

/-- After the step from `o` to `o'` the place left of the arrow holds `n`. PC is shown with its halves; of the flags
there are bits 7 and 0. -/
def MicroPlace.Holds (o o' : Seen) (n : Nat) : MicroPlace → Prop
  | .ac => o'.nat .acum = n
  | .op2 => o'.nat .op2 = n
  | .ri => o'.nat .ri = n
  | .h => o'.nat .h = n
  | .l => o'.nat .l = n
  | .sp => o'.nat .sp = n
  | .pc => o'.nat .pc = n ∧ o'.nat .pch = n / 256 ∧ o'.nat .pcl = n % 256
  | .pch => o'.nat .pch = n ∧ o'.nat .pc = n * 256 + o.nat .pc % 256
  | .pcl => o'.nat .pcl = n ∧ o'.nat .pc = o.nat .pc / 256 * 256 + n
  | .flags => o'.nat .fc = n / 128 ∧ o'.nat .fz = n % 2
  | .rd => ∃ g, o.instr.bind targetReg = some g ∧ o'.nat (boxOf g) = n
  | .cell a => (o'.mem (a.of o)).toNat = n

/-- The registers that are part of the place. -/
def MicroPlace.regs (o : Seen) : MicroPlace → List WType
  | .ac => [.acum]
  | .op2 => [.op2]
  | .ri => [.ri]
  | .h => [.h]
  | .l => [.l]
  | .sp => [.sp]
  | .pc => [.pc, .pch, .pcl]
  | .pch => [.pc, .pch]
  | .pcl => [.pc, .pcl]
  | .flags => [.fc, .fz]
  | .rd => (o.instr.bind targetReg).toList.map boxOf
  | .cell _ => []

/-- The cell that is the place. -/
def MicroPlace.cellOf (o : Seen) : MicroPlace → Option (BitVec 16)
  | .cell a => some (a.of o)
  | _ => none

/-- From `o` to `o'` happens what the line says, and nothing else: each place holds its value, as it was before; the
flags show what the ALU computed; every other register and cell is as it was. -/
structure MicroStep.Done (s : MicroStep) (o o' : Seen) : Prop where
  moves : ∀ m ∈ s.moves, ∀ n, m.2.of o = some n → m.1.Holds o o' n
  flags : ∀ x ∈ s.alu, ∀ n, x.of o = some n →
    o'.nat .fz = (if n = 0 then 1 else 0) ∧ o'.nat .fc = if x.carry o then 1 else 0
  regs : ∀ t, (∀ m ∈ s.moves, t ∉ m.1.regs o) → (s.alu ≠ none → t ≠ .fc ∧ t ≠ .fz) → o'.reg t = o.reg t
  cells : ∀ i, (∀ m ∈ s.moves, m.1.cellOf o ≠ some i) → o'.mem i = o.mem i

end Mpp.Front
