import Verif.Components
/-!
# The typed machine

Every bus and register with the width it has in the real machine. A proof device: `Verif.TypedSim`
shows that the component programs run on the topic machine exactly as these functions say
(and without undefined behaviour).
-/
namespace Mpp

/-- State of the typed machine. -/
structure A where
  -- buses
  data : BitVec 8
  dir1 : W
  dir2 : BitVec 16
  pcOut : BitVec 16
  spOut : BitVec 16
  hlOut : BitVec 16
  fffcOut : BitVec 16
  acOut : BitVec 8
  op2Out : BitVec 8
  aluFc : Bool
  aluFz : Bool
  selreg : BitVec 2
  mx7 : Bool
  mx0 : Bool
  fcOut : Bool
  fzOut : Bool
  riOut : BitVec 8
  joiner : W
  q : BitVec 6
  dd : BitVec 6
  jnr1 : BitVec 2
  jnr2 : BitVec 2
  control : W
  -- registers
  ac : BitVec 8
  rb : BitVec 8
  rc : BitVec 8
  rd : BitVec 8
  re : BitVec 8
  rh : BitVec 8
  rl : BitVec 8
  op2 : BitVec 8
  pch : BitVec 8
  pcl : BitVec 8
  ri : BitVec 8
  pc : BitVec 16
  sp : BitVec 16
  fc : Bool
  fz : Bool
  mem : BitVec 16 → BitVec 8
  log : List Err

namespace A

/-- Control bit `k`. -/
abbrev cb (a : A) (k : Nat) : Bool := a.control.getLsbD k

def addsub (a : A) : A :=
  { a with dir1 :=
      if a.cb CB.id1 then
        if a.cb CB.id0 then a.dir2.setWidth 32 - 1 else a.dir2.setWidth 32 + 1
      else a.dir2.setWidth 32 }

def mxdir (a : A) : A :=
  { a with dir2 :=
      if a.cb CB.seldir1 then if a.cb CB.seldir0 then a.fffcOut else a.hlOut
      else if a.cb CB.seldir0 then a.spOut else a.pcOut }

def mxreg (a : A) : A :=
  { a with selreg :=
      if a.cb CB.mxreg1 then if a.cb CB.mxreg0 then 3 else 2
      else if a.cb CB.mxreg0 then a.jnr2 else a.jnr1 }

def memStep (a : A) : A :=
  if a.cb CB.le then
    if a.cb CB.membus then { a with data := a.mem a.dir2 } else a
  else { a with mem := upd a.mem a.dir2 a.data }

/-- Selected ALU result. -/
def aluRes (s2 s1 s0 : Bool) (x y : BitVec 8) : BitVec 8 :=
  if s2 then
    if s1 then if s0 then y + 1 else y
    else if s0 then ~~~x else x ^^^ y
  else if s1 then if s0 then x ||| y else x &&& y
  else if s0 then x - y else x + y

/-- Carry of the ALU: addition and subtraction only. -/
def aluCarry (s2 s1 s0 : Bool) (x y : BitVec 8) : Bool :=
  if s2 || s1 then false
  else if s0 then decide (x.toNat < y.toNat) else decide (255 < x.toNat + y.toNat)

def alu (a : A) : A :=
  let s0 := a.cb CB.selalu0
  let s1 := a.cb CB.selalu1
  let s2 := a.cb CB.selalu2
  let r := aluRes s2 s1 s0 a.acOut a.op2Out
  { a with
    aluFc := aluCarry s2 s1 s0 a.acOut a.op2Out
    aluFz := decide (r = 0)
    data := if a.cb CB.alubus then r else a.data }

def fffc (a : A) : A := { a with fffcOut := 0xFFFC }

def acumm (a : A) : A :=
  let ac := if a.cb CB.accar then a.data else a.ac
  { a with ac := ac, data := if a.cb CB.acbus then ac else a.data, acOut := ac }

def op2Step (a : A) : A :=
  let v := if a.cb CB.op2car then a.data else a.op2
  { a with op2 := v, op2Out := v }

/-- Selected general register. -/
def greg (a : A) : BitVec 8 :=
  if a.selreg = 0 then a.rb else if a.selreg = 1 then a.rc else if a.selreg = 2 then a.rd else a.re

def setGreg (a : A) (v : BitVec 8) : A :=
  if a.selreg = 0 then { a with rb := v } else if a.selreg = 1 then { a with rc := v }
  else if a.selreg = 2 then { a with rd := v } else { a with re := v }

def gregStep (a : A) : A :=
  let a := if a.cb CB.regcar then a.setGreg a.data else a
  if a.cb CB.regbus then { a with data := a.greg } else a

def hl (a : A) : A :=
  let h := if a.cb CB.hcar then a.data else a.rh
  let l := if a.cb CB.lcar then a.data else a.rl
  { a with rh := h, rl := l, hlOut := h ++ l }

def spStep (a : A) : A :=
  if a.cb CB.spcar then
    if a.dir1.toNat < 2 ^ 16 then
      { a with sp := a.dir1.setWidth 16, spOut := a.dir1.setWidth 16 }
    else { a with log := .spOverflow :: a.log }
  else { a with spOut := a.sp }

/-- High and low byte of an address. -/
def hi (x : BitVec 16) : BitVec 8 := x.extractLsb' 8 8
def lo (x : BitVec 16) : BitVec 8 := x.extractLsb' 0 8

def pcStep (a : A) : A :=
  let x := a.data
  let a := if a.cb CB.pchcar then { a with pch := x }
    else if a.cb CB.pchbus then { a with data := a.pch } else a
  let a := if a.cb CB.pclcar then { a with pcl := x }
    else if a.cb CB.pclbus then { a with data := a.pcl } else a
  let a := if a.cb CB.pchcar then { a with pc := a.pch ++ lo a.pc } else a
  let a := if a.cb CB.pclcar then { a with pc := hi a.pc ++ a.pcl } else a
  if a.cb CB.pccar then
    if a.dir1.toNat < 2 ^ 16 then
      let v := a.dir1.setWidth 16
      { a with pc := v, pcl := lo v, pch := hi v, pcOut := v }
    else { a with log := .pcOverflow :: a.log }
  else { a with pcOut := a.pc }

def mxfldx (a : A) : A :=
  { a with
    mx7 := if a.cb CB.selfl then a.aluFc else a.data.getLsbD 7
    mx0 := if a.cb CB.selfl then a.aluFz else a.data.getLsbD 0 }

def flags (a : A) : A :=
  let fc := if a.cb CB.flcar then a.mx7 else a.fc
  let fz := if a.cb CB.flcar then a.mx0 else a.fz
  { a with fc := fc, fz := fz, fcOut := fc, fzOut := fz }

/-- The flags as a byte: FC in bit 7, FZ in bit 0. -/
def flagByte (fc fz : Bool) : BitVec 8 :=
  (if fc then 0x80 else 0) ||| (if fz then 1 else 0)

def flagsinta (a : A) : A :=
  if a.cb CB.flbus then { a with data := flagByte a.fcOut a.fzOut } else a

def seqJnr (a : A) : A :=
  { a with joiner :=
      copyBits (setBit (setBit 0 0 a.fcOut) 1 a.fzOut) 2 (a.riOut.setWidth 32) 0 30 }

def mxregJnr (a : A) : A :=
  { a with jnr1 := a.riOut.extractLsb' 0 2, jnr2 := a.riOut.extractLsb' 2 2 }

/-- Six bits, highest first. -/
def bits6 (b5 b4 b3 b2 b1 b0 : Bool) : BitVec 6 :=
  BitVec.ofBool b5 ++ BitVec.ofBool b4 ++ BitVec.ofBool b3 ++ BitVec.ofBool b2 ++
    BitVec.ofBool b1 ++ BitVec.ofBool b0

def rowNext (row : Option (List Int)) : BitVec 6 :=
  bits6 (rowD row 0) (rowD row 1) (rowD row 2) (rowD row 3) (rowD row 4) (rowD row 5)

/-- Sequencer: next microstate. -/
def seqNext (q : BitVec 6) (j : W) : BitVec 6 :=
  rowNext (findRow [q.getLsbD 5, q.getLsbD 4, q.getLsbD 3, q.getLsbD 2, q.getLsbD 1,
    q.getLsbD 0, j.getLsbD 9, j.getLsbD 8, j.getLsbD 7, j.getLsbD 6, j.getLsbD 5, j.getLsbD 4,
    j.getLsbD 3, j.getLsbD 2, j.getLsbD 1, j.getLsbD 0])

def seq (a : A) : A := { a with dd := seqNext a.q a.joiner }

def dxflipflop (a : A) : A := { a with q := a.dd }

/-- Control word of a microstate. -/
def romOf (k : Nat) : W := romWord (ROM[k]?.getD [])

def rom (a : A) : A := { a with control := romOf a.q.toNat }

def async (a : A) : A := a.addsub.mxdir.mxreg.memStep.alu.memStep.alu

def acummOrFlags (a : A) : A :=
  a.acumm.mxfldx.flags.flagsinta.acumm.mxfldx.flags.flagsinta

def riStep (a : A) : A :=
  let v := if a.cb CB.ricar then a.data else a.ri
  { a with ri := v, riOut := v }

def cuSync (a : A) : A :=
  a.fffc.async.acummOrFlags.gregStep.async.op2Step.async.hl.async.spStep.async.pcStep.async

/-- What a high clock does after the control word is out. -/
def ucycle (a : A) : A := a.async.riStep.cuSync

/-- `run_cu(1)`. -/
def cuHigh (a : A) : A := a.seqJnr.mxregJnr.seq.rom.ucycle

/-- `reset_control`. -/
def resetCtl (a : A) : A := { a with control := 0, joiner := 0, q := 0, dd := 0 }

end A
end Mpp
