import Verif.Machine
import Verif.Observe
/-!
# The panel of microstates of the diagram, and what its texts mean

First part: the panel (`StateTransition/index.tsx`) and what makes it change. Second part: a reading
of the texts of `StateTransition/constants.json` as register transfers; it is the specification the
texts are compared with and does not mention the code.
-/
namespace Mpp

/-! ## The panel -/

/-- An entry of `StateTransition/constants.json`. -/
structure StateRow where
  /-- shown as `"S" + state` (`StateTransition/index.tsx:121`) -/
  state : Nat
  /-- `description` (`StateTransition/index.tsx:120`) -/
  op : String
deriving DecidableEq

/-- `stateDetails` (`StateTransition/constants.json:1-182`). -/
def stateDetails : List StateRow :=
  [⟨0, "RI ← (PC), PC + 1"⟩, ⟨1, "DECODE"⟩, ⟨2, "2OP ← RF"⟩, ⟨3, "RD ← 2OP"⟩, ⟨4, "AC ← 2OP"⟩,
   ⟨5, "AC ← AC+2OP"⟩, ⟨6, "AC ← AC-2OP"⟩, ⟨7, "AC-2OP"⟩, ⟨8, "RD ← 2OP+1"⟩,
   ⟨9, "AC ← AC and 2OP"⟩, ⟨10, "AC ← AC or 20P"⟩, ⟨11, "AC ← AC ⨁ 20P"⟩, ⟨12, "20P ← AC"⟩,
   ⟨13, "AC ← 20P + 1"⟩, ⟨14, "AC ← not(AC)"⟩, ⟨15, "20P ← (PC), PC+ PC+1"⟩,
   ⟨16, "H ← (PC), PC ← PC+1"⟩, ⟨17, "L ← (PC), PC ← PC+1"⟩, ⟨18, "20P ← (HL)"⟩,
   ⟨19, "(HL) ← 20P"⟩, ⟨20, "PC ← HL"⟩, ⟨21, "H ← D"⟩, ⟨22, "L ← E"⟩, ⟨23, "AC ← Flags"⟩,
   ⟨24, "Flags ← AC"⟩, ⟨25, "INTA_IN ← 1"⟩, ⟨26, "SP ← SP-1"⟩, ⟨27, "(SP) ← Flags"⟩,
   ⟨28, "(SP) ← PCH"⟩, ⟨29, "(SP) ← PCL"⟩, ⟨30, "PC ← Dir INT"⟩, ⟨31, "SP ← SP+1"⟩,
   ⟨32, "PCL ← (SP)"⟩, ⟨33, "PCH ← (SP)"⟩, ⟨34, "Flags ← (SP)"⟩, ⟨35, "EOI ← 1"⟩,
   ⟨36, "(SP) ← AC"⟩, ⟨37, "AC ← (SP)"⟩, ⟨38, "SP ← HL"⟩, ⟨39, "RD ← 2OP"⟩, ⟨40, "SP ← SP-1"⟩,
   ⟨41, "SP ← SP+1"⟩, ⟨42, "SP ← SP-1"⟩, ⟨43, "SP ← SP+1"⟩, ⟨43, "RD ← 2OP"⟩]

/-- `stateDetails[n]`; `none` is `undefined`. -/
def detailsOf (n : CInt) : Option StateRow := stateDetails[n.toNat]?

/-- The rows of the panel (the variable `states`, `StateTransition/index.tsx:23`). A row `none` is
`undefined`, which cannot be drawn (line 120 reads `state.op`). -/
abbrev Rows := List (Option StateRow)

/-- `maxItems` (`StateTransition/index.tsx:20`) -/
def maxItems : Nat := 2

/-- `onUIUpdate` (`StateTransition/index.tsx:38-67`), given what `get_state` and `get_next_state`
return. The two early `return`s (lines 42-43) compare with `prevCurrentState` and `prevNextState` of
the first drawing of the panel, because the subscription is made only once (lines 76-82); these are
`undefined` (`hook/usePrev.ts:3-8`), so the function never returns early. `setCurrentStep` only marks
the last row, which the rows already say. -/
def Rows.update (current next : CInt) (rows : Rows) : Rows :=
  let arr := if rows.length ≥ maxItems then rows.drop (rows.length - maxItems) else rows
  if rows.length = 0 then arr ++ [detailsOf current, detailsOf next] else arr ++ [detailsOf next]

/-- What can happen while the panel is on the screen. -/
inductive Event
  /-- an exported function is called -/
  | call (c : Call)
  /-- `notifyUpdateToSubscribers` (`lib/core/index.ts:320-322`) called by the run-program button
  (`RunButtons.tsx:128`, `187`) -/
  | notify
  /-- the button "Clear" of the panel, `handleClear` (`StateTransition/index.tsx:69-74`) -/
  | clear

/-- The exported functions that call the UI callback: `linker/cu.c:139-143`, `linker/mem.c:63-66`,
`linker/registers.c:98-104`. In all three it is the last thing they do, so what the subscribers read
is what can be read when the function has returned. -/
def Call.notifies : Call → Bool
  | .runClockCycle u => u
  | .setMemoryValue _ _ => true
  | .setRegisterPc _ => true
  | _ => false

/-- The panel reads the core. -/
def Rows.read (h : H) (rows : Rows) : Option (H × Rows) :=
  (exec .getNextState h).bind fun n => (exec .getState n.2).map fun s => (s.2, rows.update s.1 n.1)

/-- One event: the core and the rows after it. -/
def Event.step : Event → H × Rows → Option (H × Rows)
  | .call c, (h, rows) =>
    (exec c h).bind fun r => if c.notifies then rows.read r.2 else some (r.2, rows)
  | .notify, (h, rows) => rows.read h
  | .clear, (h, _) => some (h, [])

def steps : List Event → H × Rows → Option (H × Rows)
  | [], x => some x
  | e :: es, x => (e.step x).bind (steps es)

/-- Sessions that respect the lifecycle of the core. -/
def Event.Allowed (p : Phase) : Event → Prop
  | .call c => c.Allowed p
  | .notify => p.on = true
  | .clear => True

def Event.after (p : Phase) : Event → Phase
  | .call c => c.after p
  | _ => p

def LegalEvents : Phase → List Event → Phase → Prop
  | p, [], p' => p' = p
  | p, e :: es, p' => e.Allowed p ∧ LegalEvents (e.after p) es p'

/-- The events after which the panel is drawn anew. -/
def Event.draws : Event → Bool
  | .call c => c.notifies
  | .notify => true
  | .clear => false

/-- `n` clock cycles, each with a UI update: the run-state, run-instruction and run-program buttons
(`RunButtons.tsx:70`, `82`, `118`). `ks` is what `get_state` returns after each of them. -/
inductive ShownCycles : H → List CInt → H → Prop
  | none {h : H} : ShownCycles h [] h
  | more {h h1 h' : H} {r k : CInt} {ks : List CInt}
      (run : exec (.runClockCycle true) h = some (r, h1)) (state : exec .getState h1 = some (k, h1))
      (rest : ShownCycles h1 ks h') : ShownCycles h (k :: ks) h'

/-- The last three elements. -/
def lastThree {α : Type} (l : List α) : List α := l.drop (l.length - 3)

/-! ## The meaning of the texts -/

/-- Places a microstate can write to. -/
inductive Place
  | ri | op2 | ac | rd | h | l | pc | sp | pcl | pch | flags | atHL | atSP
deriving DecidableEq

/-- What it can write there. -/
inductive Source
  | rf | op2 | ac | d | e | hl | flags | pch | pcl
  | atPC | atHL | atSP
  | pcInc | spInc | spDec
  | add | sub | and | or | xor | not | op2Inc
deriving DecidableEq

/-- The operations of the ALU that set the flags. -/
def Source.alu : Source → Bool
  | add | sub | and | or | xor | not | op2Inc => true
  | _ => false

/-- The register an instruction takes its operand from: RF. -/
def Instr.rf : Instr → Option G
  | .mov (.reg g) _ => some g
  | .alu _ (.reg g) => some g
  | .inc (.reg g) => some g
  | _ => none

/-- The register an instruction writes: RD. -/
def Instr.rd : Instr → Option G
  | .mov _ (.reg g) => some g
  | .inc (.reg g) => some g
  | _ => none

def V.gReg (v : V) : G → BitVec 8
  | .b => v.b
  | .c => v.c
  | .d => v.d
  | .e => v.e

def V.setG (v : V) (g : G) (x : BitVec 8) : V :=
  match g with
  | .b => { v with b := x }
  | .c => { v with c := x }
  | .d => { v with d := x }
  | .e => { v with e := x }

/-- The byte a source stands for, while `i` is in RI. -/
def Source.byte (i : Option Instr) (v : V) : Source → Option (BitVec 8)
  | rf => (i.bind Instr.rf).map v.gReg
  | op2 => some v.op2
  | ac => some v.ac
  | d => some v.d
  | e => some v.e
  | flags => some (V.flagByte v.fc v.fz)
  | pch => some v.pch
  | pcl => some v.pcl
  | atPC => some (v.mem v.pc)
  | atHL => some (v.mem (v.h ++ v.l))
  | atSP => some (v.mem v.sp)
  | add => some (v.ac + v.op2)
  | sub => some (v.ac - v.op2)
  | and => some (v.ac &&& v.op2)
  | or => some (v.ac ||| v.op2)
  | xor => some (v.ac ^^^ v.op2)
  | not => some (~~~v.ac)
  | op2Inc => some (v.op2 + 1)
  | _ => none

/-- The address a source stands for. -/
def Source.addr (v : V) : Source → Option (BitVec 16)
  | hl => some (v.h ++ v.l)
  | pcInc => some (v.pc + 1)
  | spInc => some (v.sp + 1)
  | spDec => some (v.sp - 1)
  | _ => none

/-- PC + 1, SP + 1 and SP - 1 at the ends of memory: nothing is written. -/
def Source.atEnd (v : V) : Source → Bool
  | pcInc => v.pc = 0xFFFF
  | spInc => v.sp = 0xFFFF
  | spDec => v.sp = 0
  | _ => false

/-- Write what `s` stands for in `v` to place `p` of `w`, while `i` is in RI. The flags in a byte are
FC in bit 7 and FZ in bit 0. PCH and PCL are the halves of PC. -/
def Place.write (i : Option Instr) (v w : V) (s : Source) : Place → Option V
  | ri => (s.byte i v).map fun x => { w with ri := x }
  | op2 => (s.byte i v).map fun x => { w with op2 := x }
  | ac => (s.byte i v).map fun x => { w with ac := x }
  | h => (s.byte i v).map fun x => { w with h := x }
  | l => (s.byte i v).map fun x => { w with l := x }
  | rd => (i.bind Instr.rd).bind fun g => (s.byte i v).map fun x => w.setG g x
  | pcl => (s.byte i v).map fun x => { w with pcl := x, pc := V.hi w.pc ++ x }
  | pch => (s.byte i v).map fun x => { w with pch := x, pc := x ++ V.lo w.pc }
  | flags => (s.byte i v).map fun x => { w with fc := x.getLsbD 7, fz := x.getLsbD 0 }
  | atHL => (s.byte i v).map fun x => { w with mem := upd w.mem (v.h ++ v.l) x }
  | atSP => (s.byte i v).map fun x => { w with mem := upd w.mem v.sp x }
  | pc => if s.atEnd v then some w else (s.addr v).map fun x => { w with pc := x, pch := V.hi x, pcl := V.lo x }
  | sp => if s.atEnd v then some w else (s.addr v).map fun x => { w with sp := x }

/-- Register transfers that happen at the same time: everything is read from `v`. -/
def transfers (i : Option Instr) (v : V) : List (Place × Source) → V → Option V
  | [], w => some w
  | (p, s) :: ts, w => (p.write i v w s).bind (transfers i v ts)

/-- Left-hand sides. -/
def placeNamed : List Char → Option Place := fun s =>
  [("RI".toList, Place.ri), ("2OP".toList, .op2), ("AC".toList, .ac), ("RD".toList, .rd),
   ("H".toList, .h), ("L".toList, .l), ("PC".toList, .pc), ("SP".toList, .sp), ("PCL".toList, .pcl),
   ("PCH".toList, .pch), ("Flags".toList, .flags), ("(HL)".toList, .atHL),
   ("(SP)".toList, .atSP)].lookup s

/-- Right-hand sides. -/
def sourceNamed : List Char → Option Source := fun s =>
  [("RF".toList, Source.rf), ("2OP".toList, .op2), ("AC".toList, .ac), ("D".toList, .d),
   ("E".toList, .e), ("HL".toList, .hl), ("Flags".toList, .flags), ("PCH".toList, .pch),
   ("PCL".toList, .pcl), ("(PC)".toList, .atPC), ("(HL)".toList, .atHL), ("(SP)".toList, .atSP),
   ("PC+1".toList, .pcInc), ("SP+1".toList, .spInc), ("SP-1".toList, .spDec),
   ("AC+2OP".toList, .add), ("AC-2OP".toList, .sub), ("ACand2OP".toList, .and),
   ("ACor2OP".toList, .or), ("AC⨁2OP".toList, .xor), ("not(AC)".toList, .not),
   ("2OP+1".toList, .op2Inc)].lookup s

/-- Cut a text at every `c`. -/
def cutAt (c : Char) : List Char → List (List Char)
  | [] => [[]]
  | x :: xs =>
    if x = c then [] :: cutAt c xs
    else match cutAt c xs with
      | [] => [[x]]
      | w :: ws => (x :: w) :: ws

/-- "20P", with a zero, is read as "2OP". -/
def fixZero : List Char → List Char
  | '2' :: '0' :: 'P' :: xs => '2' :: 'O' :: 'P' :: fixZero xs
  | x :: xs => x :: fixZero xs
  | [] => []

/-- One part of a text, without blanks. A part with an arrow is a transfer. "PC+1" and "PC+PC+1" are
read as PC ← PC+1. "DECODE" and "EOI←1" write no register, and "AC-2OP" alone only sets the flags. -/
def clauseOf (s : List Char) : Option (List (Place × Source)) :=
  match cutAt '←' s with
  | [l, r] =>
    if l = "EOI".toList then some []
    else (placeNamed l).bind fun p => (sourceNamed r).map fun x => [(p, x)]
  | [x] =>
    if x = "PC+1".toList ∨ x = "PC+PC+1".toList then some [(.pc, .pcInc)]
    else if x = "DECODE".toList ∨ x = "AC-2OP".toList then some []
    else none
  | _ => none

/-- The register transfers that a text describes; `none` if it has no meaning here. -/
def transfersOf (op : String) : Option (List (Place × Source)) :=
  ((cutAt ',' (fixZero (op.toList.filter (· ≠ ' ')))).mapM clauseOf).map List.flatten

/-- Whether the flags may change: a result of the ALU is computed. -/
def setsFlags (op : String) (ts : List (Place × Source)) : Bool :=
  ts.any (fun t => t.2.alu) || op = "AC-2OP"

/-- `v'` is what the text says about `v`, while `i` is in RI. Reported errors are not part of the
text, and neither are the flags of ALU operations. -/
def Told (i : Option Instr) (op : String) (v v' : V) : Prop :=
  ∃ ts w, transfersOf op = some ts ∧ transfers i v ts v = some w ∧
    v' = { w with
      log := v'.log
      fc := if setsFlags op ts then v'.fc else w.fc
      fz := if setsFlags op ts then v'.fz else w.fz }

/-- The getters show these registers and this memory. -/
structure Sees (h : H) (v : V) : Prop where
  reg : ∀ t, RegIs h t (v.reg t)
  mem : ∀ i, Cell h i (v.mem i)

end Mpp
