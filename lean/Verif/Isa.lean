import Verif.Names
/-!
# The instruction set, as a specification

The programmer's view of the machine and what each documented instruction does to it. This file
does not mention microstates, buses or the C code. Sources: `docs/src/pages/es/instructions/*.mdx`
(effect of each instruction) and `mpp-front/src/lib/traslator/operations.json` (opcodes, sizes).
-/
namespace Mpp

/-- What a program can see of the machine. H, L, 2OP, RI, PCH and PCL are working registers of the
control unit that no instruction lets a program read. -/
structure P where
  ac : BitVec 8
  b : BitVec 8
  c : BitVec 8
  d : BitVec 8
  e : BitVec 8
  pc : BitVec 16
  sp : BitVec 16
  fc : Bool
  fz : Bool
  mem : BitVec 16 → BitVec 8
  /-- errors reported so far, newest first -/
  errs : List Err

/-- The general registers. -/
inductive G
  | b | c | d | e
  deriving DecidableEq, Repr

/-- Where an operand comes from. -/
inductive Operand
  | reg (g : G)
  | ac
  /-- the byte after the opcode -/
  | imm
  deriving DecidableEq, Repr

/-- Where a result goes. -/
inductive Dest
  | reg (g : G)
  | ac
  deriving DecidableEq, Repr

inductive AluOp
  | add | sub | cmp | and | or | xor
  deriving DecidableEq, Repr

/-- The documented instructions. -/
inductive Instr
  | mov (src : Operand) (dst : Dest)
  | alu (op : AluOp) (src : Operand)
  | inc (dst : Dest)
  | cma | lfa | sfa
  | lda | sta | ldax | stax
  | beq | bc | jmp
  | inisp | push | pop
  | call | ret | iret
  | fin
  deriving DecidableEq, Repr

open Instr Operand AluOp in
/-- `operations.json`, HEX against NEMO, in the order of the file. `MOV X, Y` moves X to Y. -/
def opcodes : List (BitVec 8 × Instr) := [
  (0x00, mov (reg .b) (.reg .b)), (0x01, mov (reg .c) (.reg .b)), (0x02, mov (reg .d) (.reg .b)),
  (0x03, mov (reg .e) (.reg .b)), (0x04, mov (reg .b) (.reg .c)), (0x05, mov (reg .c) (.reg .c)),
  (0x06, mov (reg .d) (.reg .c)), (0x07, mov (reg .e) (.reg .c)), (0x08, mov (reg .b) (.reg .d)),
  (0x09, mov (reg .c) (.reg .d)), (0x0A, mov (reg .d) (.reg .d)), (0x0B, mov (reg .e) (.reg .d)),
  (0x0C, mov (reg .b) (.reg .e)), (0x0D, mov (reg .c) (.reg .e)), (0x0E, mov (reg .d) (.reg .e)),
  (0x0F, mov (reg .e) (.reg .e)),
  (0x10, mov (reg .b) .ac), (0x11, mov (reg .c) .ac), (0x12, mov (reg .d) .ac),
  (0x13, mov (reg .e) .ac),
  (0x18, alu sub (reg .b)), (0x19, alu sub (reg .c)), (0x1A, alu sub (reg .d)),
  (0x1B, alu sub (reg .e)),
  (0x1C, alu cmp (reg .b)), (0x1D, alu cmp (reg .c)), (0x1E, alu cmp (reg .d)),
  (0x1F, alu cmp (reg .e)),
  (0x20, alu and (reg .b)), (0x21, alu and (reg .c)), (0x22, alu and (reg .d)),
  (0x23, alu and (reg .e)),
  (0x24, alu or (reg .b)), (0x25, alu or (reg .c)), (0x26, alu or (reg .d)),
  (0x27, alu or (reg .e)),
  (0x28, alu xor (reg .b)), (0x29, alu xor (reg .c)), (0x2A, alu xor (reg .d)),
  (0x2B, alu xor (reg .e)),
  (0x2C, inc (.reg .b)), (0x2D, inc (.reg .c)), (0x2E, inc (.reg .d)), (0x2F, inc (.reg .e)),
  (0x30, alu add (reg .b)), (0x31, alu add (reg .c)), (0x32, alu add (reg .d)),
  (0x33, alu add (reg .e)),
  (0x40, mov ac (.reg .b)), (0x41, mov ac (.reg .c)), (0x42, mov ac (.reg .d)),
  (0x43, mov ac (.reg .e)), (0x44, mov ac .ac),
  (0x45, alu add ac), (0x46, alu sub ac), (0x47, alu cmp ac), (0x48, alu and ac),
  (0x49, alu or ac), (0x4A, alu xor ac), (0x4B, inc .ac), (0x80, cma),
  (0x60, mov imm (.reg .b)), (0x61, mov imm (.reg .c)), (0x62, mov imm (.reg .d)),
  (0x63, mov imm (.reg .e)), (0x64, mov imm .ac),
  (0x65, alu add imm), (0x66, alu sub imm), (0x67, alu cmp imm), (0x68, alu and imm),
  (0x69, alu or imm), (0x6A, alu xor imm),
  (0x70, lda), (0x71, sta), (0x90, stax), (0xB0, ldax), (0xC1, push), (0xC2, pop), (0xC3, inisp),
  (0x72, beq), (0x73, bc), (0x74, jmp), (0x81, lfa), (0x82, sfa), (0xC4, call), (0xC5, ret),
  (0xC0, iret), (0xFF, fin)]

/-- The documented instruction with a given opcode, if there is one. -/
def decode (o : BitVec 8) : Option Instr := (opcodes.find? fun p => p.1 = o).map (·.2)

def Operand.size : Operand → Nat
  | .imm => 1
  | _ => 0

/-- Number of bytes (`ALLOC` in `operations.json`). -/
def Instr.size : Instr → Nat
  | .mov src _ => 1 + src.size
  | .alu _ src => 1 + src.size
  | .lda | .sta | .beq | .bc | .jmp | .inisp | .call => 3
  | _ => 1

namespace P

def reg (p : P) : G → BitVec 8
  | .b => p.b
  | .c => p.c
  | .d => p.d
  | .e => p.e

def setReg (p : P) (g : G) (x : BitVec 8) : P :=
  match g with
  | .b => { p with b := x }
  | .c => { p with c := x }
  | .d => { p with d := x }
  | .e => { p with e := x }

def set (p : P) (t : Dest) (x : BitVec 8) : P :=
  match t with
  | .reg g => p.setReg g x
  | .ac => { p with ac := x }

/-- Move PC to the next byte. PC does not wrap: at the last cell it stays and an error is
reported. -/
def next (p : P) : P :=
  if p.pc = 0xFFFF then { p with errs := .pcOverflow :: p.errs } else { p with pc := p.pc + 1 }

/-- Read the next byte of the program. -/
def byte (p : P) : BitVec 8 := p.mem p.pc

/-- Stack pointer down and up; it does not wrap either. -/
def down (p : P) : P :=
  if p.sp = 0 then { p with errs := .spOverflow :: p.errs } else { p with sp := p.sp - 1 }
def up (p : P) : P :=
  if p.sp = 0xFFFF then { p with errs := .spOverflow :: p.errs } else { p with sp := p.sp + 1 }

def store (p : P) (a : BitVec 16) (x : BitVec 8) : P :=
  { p with mem := fun i => if i = a then x else p.mem i }

/-- Byte at the top of the stack. -/
def top (p : P) : BitVec 8 := p.mem p.sp

/-- Value of an operand and the state after reading it. -/
def operand (p : P) : Operand → BitVec 8 × P
  | .reg g => (p.reg g, p)
  | .ac => (p.ac, p)
  | .imm => (p.byte, p.next)

/-- A 16-bit operand, high byte first, and the state after reading it. -/
def address (p : P) : BitVec 16 × P := (p.byte ++ p.next.byte, p.next.next)

/-- Result, carry and zero flag of a binary operation. -/
def aluOp (op : AluOp) (p : P) (x : BitVec 8) : P :=
  match op with
  | .add => { p with ac := p.ac + x, fc := decide (p.ac.toNat + x.toNat ≥ 256), fz := decide (p.ac + x = 0) }
  | .sub => { p with ac := p.ac - x, fc := decide (p.ac.toNat < x.toNat), fz := decide (p.ac - x = 0) }
  | .cmp => { p with fc := decide (p.ac.toNat < x.toNat), fz := decide (p.ac = x) }
  | .and => { p with ac := p.ac &&& x, fc := false, fz := decide (p.ac &&& x = 0) }
  | .or => { p with ac := p.ac ||| x, fc := false, fz := decide (p.ac ||| x = 0) }
  | .xor => { p with ac := p.ac ^^^ x, fc := false, fz := decide (p.ac ^^^ x = 0) }

def getDest (p : P) : Dest → BitVec 8
  | .reg g => p.reg g
  | .ac => p.ac

/-- Effect of a documented instruction; `p` is the state at its first byte. -/
def instr (i : Instr) (p : P) : P :=
  let p := p.next
  match i with
  | .mov src dst => (p.operand src).2.set dst (p.operand src).1
  | .alu op src => aluOp op (p.operand src).2 (p.operand src).1
  | .inc dst => { p.set dst (p.getDest dst + 1) with fc := false, fz := decide (p.getDest dst + 1 = 0) }
  | .cma => { p with ac := ~~~p.ac, fc := false, fz := decide (~~~p.ac = 0) }
  | .lfa => { p with ac := (if p.fc then 0x80 else 0) ||| (if p.fz then 1 else 0) }
  | .sfa => { p with fc := p.ac.getLsbD 7, fz := p.ac.getLsbD 0 }
  | .lda => { p.address.2 with ac := p.mem p.address.1 }
  | .sta => p.address.2.store p.address.1 p.ac
  | .ldax => { p with ac := p.mem (p.d ++ p.e) }
  | .stax => p.store (p.d ++ p.e) p.ac
  | .jmp => { p.address.2 with pc := p.address.1 }
  | .beq => if p.fz then { p.address.2 with pc := p.address.1 } else p.address.2
  | .bc => if p.fc then { p.address.2 with pc := p.address.1 } else p.address.2
  | .inisp => { p.address.2 with sp := p.address.1 }
  | .push => p.down.store p.down.sp p.ac
  | .pop => { p.up with ac := p.top }
  | .call =>
    let q := p.address.2.down
    let q := q.store q.sp (q.pc.extractLsb' 8 8)
    let q := q.down
    let q := q.store q.sp (q.pc.extractLsb' 0 8)
    { q with pc := p.address.1 }
  | .ret => { p.up.up with pc := p.up.top ++ p.top }
  | .iret => { p.up.up.up with
      pc := p.up.top ++ p.top, fc := p.up.up.top.getLsbD 7, fz := p.up.up.top.getLsbD 0 }
  | .fin => p

end P
end Mpp
