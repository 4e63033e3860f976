import Verif.Names
/-!
# Register-transfer specification of the microprogram

`V` is everything a user of the simulator can see of the machine between two clock cycles, apart
from the raw bus values. `rtl k` says in register-transfer style what microstate `S k` does to it.
This file is a specification: it does not mention buses, control words or the sequencer table.
-/
namespace Mpp

/-- Visible machine state. -/
structure V where
  ac : BitVec 8
  b : BitVec 8
  c : BitVec 8
  d : BitVec 8
  e : BitVec 8
  h : BitVec 8
  l : BitVec 8
  op2 : BitVec 8
  pch : BitVec 8
  pcl : BitVec 8
  ri : BitVec 8
  pc : BitVec 16
  sp : BitVec 16
  fc : Bool
  fz : Bool
  mem : BitVec 16 → BitVec 8
  /-- reported errors, newest first -/
  log : List Err

namespace V

/-- The four general registers: 0 is B, 1 is C, 2 is D, 3 is E. -/
def r (v : V) (i : BitVec 2) : BitVec 8 :=
  if i = 0 then v.b else if i = 1 then v.c else if i = 2 then v.d else v.e

def setR (v : V) (i : BitVec 2) (x : BitVec 8) : V :=
  { v with
    b := if i = 0 then x else v.b
    c := if i = 1 then x else v.c
    d := if i = 2 then x else v.d
    e := if i = 3 then x else v.e }

/-- Bits 0-1 and bits 2-3 of the instruction register select registers. -/
def lowSel (v : V) : BitVec 2 := v.ri.extractLsb' 0 2
def highSel (v : V) : BitVec 2 := v.ri.extractLsb' 2 2

/-- The address pair H:L. -/
def hl (v : V) : BitVec 16 := v.h ++ v.l

/-- High and low byte of an address. -/
def hi (x : BitVec 16) : BitVec 8 := x.extractLsb' 8 8
def lo (x : BitVec 16) : BitVec 8 := x.extractLsb' 0 8

/-- Load PC, with its two halves. -/
def setPc (v : V) (x : BitVec 16) : V := { v with pc := x, pch := hi x, pcl := lo x }

/-- PC + 1; at the end of memory PC stays and an error is reported. -/
def incPc (v : V) : V :=
  if v.pc = 0xFFFF then { v with log := .pcOverflow :: v.log } else v.setPc (v.pc + 1)

/-- SP - 1; at 0 SP stays and an error is reported. -/
def decSp (v : V) : V :=
  if v.sp = 0 then { v with log := .spOverflow :: v.log } else { v with sp := v.sp - 1 }

/-- SP + 1; at the end of memory SP stays and an error is reported. -/
def incSp (v : V) : V :=
  if v.sp = 0xFFFF then { v with log := .spOverflow :: v.log } else { v with sp := v.sp + 1 }

/-- Store a byte. -/
def store (v : V) (a : BitVec 16) (x : BitVec 8) : V := { v with mem := upd v.mem a x }

/-- Set AC, with the flags of an arithmetic or logic result. -/
def setAcFlags (v : V) (x : BitVec 8) (carry : Bool) : V :=
  { v with ac := x, fc := carry, fz := decide (x = 0) }

/-- The flags as a byte: FC in bit 7, FZ in bit 0. -/
def flagByte (fc fz : Bool) : BitVec 8 :=
  (if fc then 0x80 else 0) ||| (if fz then 1 else 0)

/-- Effect of microstate `S k`. S25, S27, S30 and S42 belong to the unimplemented interrupt
path. -/
def rtl (k : Nat) (v : V) : V :=
  match k with
  | 0 => { v with ri := v.mem v.pc }.incPc
  | 1 => v
  | 2 => { v with op2 := v.r v.lowSel }
  | 3 => v.setR v.highSel v.op2
  | 4 => { v with ac := v.op2 }
  | 5 => v.setAcFlags (v.ac + v.op2) (decide (255 < v.ac.toNat + v.op2.toNat))
  | 6 => v.setAcFlags (v.ac - v.op2) (decide (v.ac.toNat < v.op2.toNat))
  | 7 => { v with fc := decide (v.ac.toNat < v.op2.toNat), fz := decide (v.ac - v.op2 = 0) }
  | 8 => { v.setR v.lowSel (v.op2 + 1) with fc := false, fz := decide (v.op2 + 1 = 0) }
  | 9 => v.setAcFlags (v.ac &&& v.op2) false
  | 10 => v.setAcFlags (v.ac ||| v.op2) false
  | 11 => v.setAcFlags (v.ac ^^^ v.op2) false
  | 12 => { v with op2 := v.ac }
  | 13 => v.setAcFlags (v.op2 + 1) false
  | 14 => v.setAcFlags (~~~v.ac) false
  | 15 => { v with op2 := v.mem v.pc }.incPc
  | 16 => { v with h := v.mem v.pc }.incPc
  | 17 => { v with l := v.mem v.pc }.incPc
  | 18 => { v with op2 := v.mem v.hl }
  | 19 => v.store v.hl v.op2
  | 20 => v.setPc v.hl
  | 21 => { v with h := v.d }
  | 22 => { v with l := v.e }
  | 23 => { v with ac := flagByte v.fc v.fz }
  | 24 => { v with fc := v.ac.getLsbD 7, fz := v.ac.getLsbD 0 }
  | 25 => v
  | 26 => v.decSp
  | 27 => v.store v.sp (flagByte v.fc v.fz)
  | 28 => v.store v.sp v.pch
  | 29 => v.store v.sp v.pcl
  | 30 => v.setPc 0xFFFC
  | 31 => v.incSp
  | 32 => { v with pcl := v.mem v.sp, pc := hi v.pc ++ v.mem v.sp }
  | 33 => { v with pch := v.mem v.sp, pc := v.mem v.sp ++ lo v.pc }
  | 34 => { v with fc := (v.mem v.sp).getLsbD 7, fz := (v.mem v.sp).getLsbD 0 }
  | 35 => v
  | 36 => v.store v.sp v.ac
  | 37 => { v with ac := v.mem v.sp }
  | 38 => { v with sp := v.hl }
  | 39 => v.setR v.lowSel v.op2
  | 40 => v.decSp
  | 41 => v.incSp
  | 42 => v.decSp
  | 43 => v.incSp
  | 44 => v.setR v.lowSel v.op2
  | _ => v

end V
end Mpp
