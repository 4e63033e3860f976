import Verif.Prog
import Verif.Tables
/-!
# The component functions (`mpp-cpu/src/lib/components/**`)

One definition per C function, in the order of statements of the C code. Conventions:

* `word.bits[k]` of a word read from a bus is `word.getLsbD k`.
* The C code wraps single control bits in words `x_lb` (`initialize_word(&x_lb, 0);
  x_lb.bits[0] = ...`) and tests `word_to_int(x_lb) == 1`. Such a word has only bit 0, so the
  test is written as the bit itself (`toInt_bit0` below shows that the conversion is defined and
  gives that bit).
* Two- and three-bit selectors are built with `selWord` and converted with `toInt` as in C.
* `int` additions and subtractions are `cAdd`/`cSub`, undefined on signed overflow.
* Debug logging and the timing of `run_cu_clock_cycle` are left out.
-/
namespace Mpp

theorem toInt_bit0 (b : Bool) : toInt (bit0 b) = Prog.pure (if b then 1 else 0) := by
  cases b <;> rfl

/-- C `a + b` on `int`: undefined on signed overflow. -/
def cAdd (a b : CInt) : Prog CInt :=
  if -2 ^ 31 ≤ a.toInt + b.toInt ∧ a.toInt + b.toInt < 2 ^ 31 then Prog.pure (a + b) else undefined

/-- C `a - b` on `int`: undefined on signed overflow. -/
def cSub (a b : CInt) : Prog CInt :=
  if -2 ^ 31 ≤ a.toInt - b.toInt ∧ a.toInt - b.toInt < 2 ^ 31 then Prog.pure (a - b) else undefined

/-- A selector word: `initialize_word(&w, 0); w.bits[0] = b0; w.bits[1] = b1; ...` -/
def selWord : List Bool → W
  | bs => go 0 0 bs
where
  go (w : W) (i : Nat) : List Bool → W
    | [] => w
    | b :: bs => go (setBit w i b) (i + 1) bs

/-- `for (int i = 0; i < n; i++) dst.bits[dstOff + i] = src.bits[srcOff + i];` -/
def copyBits (dst : W) (dstOff : Nat) (src : W) (srcOff : Nat) : Nat → W
  | 0 => dst
  | n + 1 => setBit (copyBits dst dstOff src srcOff n) (dstOff + n) (src.getLsbD (srcOff + n))

/-- `for (int i = lo + n - 1; i >= lo; i--) w.bits[i] = 0;` -/
def clearBits (w : W) (lo : Nat) : Nat → W
  | 0 => w
  | n + 1 => clearBits (setBit w (lo + n) false) lo n

/-- `int_to_word(b)` for a C truth value. -/
def boolWord (b : Bool) : W := if b then 1 else 0

/-! Control bus bit positions (`constants.h:53-83`; EOI, INTAIN are not read by any component). -/
namespace CB
def spcar := 2
def pclcar := 3
def pchcar := 4
def lcar := 5
def hcar := 6
def flcar := 7
def selfl := 8
def op2car := 9
def accar := 10
def regcar := 11
def pccar := 12
def ricar := 13
def pclbus := 14
def pchbus := 15
def alubus := 16
def acbus := 17
def flbus := 18
def membus := 19
def regbus := 20
def le := 21
def id0 := 22
def id1 := 23
def seldir0 := 24
def seldir1 := 25
def mxreg0 := 26
def mxreg1 := 27
def selalu0 := 28
def selalu1 := 29
def selalu2 := 30
end CB

/-! ## Multiplexers -/

/-- `run_4x1_mx` (`electronic/multiplexer.c:17-34`); `sel` is converted to `unsigned int`. -/
def run4x1mx (sel i1 i2 i3 i4 : CInt) : CInt :=
  if sel.toNat = 0 then i1
  else if sel.toNat = 1 then i2
  else if sel.toNat = 2 then i3
  else if sel.toNat = 3 then i4
  else -1

/-- `run_2x1_mx` (`electronic/multiplexer.c:39-50`). -/
def run2x1mx (sel i1 i2 : CInt) : CInt :=
  if sel.toNat = 0 then i1
  else if sel.toNat = 1 then i2
  else -1

/-! ## Address path -/

/-- `run_addsub` (`addsub.c:26-54`). -/
def runAddsub : Prog Unit := do
  busUpdate .addsubControl
  let dirBus ← toInt (← busNext .addsubDir)
  let c ← busCur .addsubControl
  let sel ← toInt (selWord [c.getLsbD CB.id0, c.getLsbD CB.id1])
  let dirBus ←
    if sel = 0b10 then cAdd dirBus 1
    else if sel = 0b11 then cSub dirBus 1
    else pure dirBus
  publish .dir1 dirBus

/-- `run_mxdir` (`mxdir.c:60-86`). -/
def runMxdir : Prog Unit := do
  busUpdate .mxdirPc
  busUpdate .mxdirSp
  busUpdate .mxdirHl
  busUpdate .mxdirFffc
  busUpdate .mxdirControl
  let c ← busCur .mxdirControl
  let sel ← toInt (selWord [c.getLsbD CB.seldir0, c.getLsbD CB.seldir1])
  let pc ← toInt (← busNext .mxdirPc)
  let sp ← toInt (← busNext .mxdirSp)
  let hl ← toInt (← busNext .mxdirHl)
  let fffc ← toInt (← busNext .mxdirFffc)
  let output := run4x1mx sel pc sp hl fffc
  if output = -1 then throwError .mxdir
  else publish .dir2 output

/-- `run_mxreg` (`mxreg.c:47-60`). -/
def runMxreg : Prog Unit := do
  busUpdate .mxregJnr1
  busUpdate .mxregJnr2
  busUpdate .mxregControl
  let c ← busNext .mxregControl
  let sel ← toInt (selWord [c.getLsbD CB.mxreg0, c.getLsbD CB.mxreg1])
  let j1 ← toInt (← busCur .mxregJnr1)
  let j2 ← toInt (← busCur .mxregJnr2)
  publish .selreg (run4x1mx sel j1 j2 0b10 0b11)

/-! ## Memory -/

/-- `is_mem_value_valid` (`mem.c:33-36`); `pow(2, 8) - 1` is the double 255. -/
def isMemValueValid (num : CInt) : Bool := ¬ (num.toInt < 0 ∨ num.toInt > 255)

/-- `get_value_by_offset` (`mem.c:76-82`, `mem_size` = 65536, `MEM_START_VALUE` = 0): the index
of the cell, `none` for the NULL pointer. -/
def getValueByOffset (offset : CInt) : Option (BitVec 16) :=
  if offset.toInt < 0 ∨ offset.toInt ≥ 65536 then none else some (offset.setWidth 16)

/-- `set_mem_value` (`mem.c:85-98`). -/
def setMemValue (offset value : CInt) : Prog Bool :=
  if ¬ isMemValueValid value then pure false
  else match getValueByOffset offset with
    | none => pure false
    | some i => do memSet i value; pure true

/-- `run_mem` (`mem.c:105-156`). -/
def runMem : Prog Unit := do
  busUpdate .memData
  busUpdate .memDir
  busUpdate .memControl
  let dirBin ← toInt (← busNext .memDir)
  let c ← busCur .memControl
  if c.getLsbD CB.le then
    match getValueByOffset dirBin with
    | none => throwError .memGet
    | some i =>
      if c.getLsbD CB.membus then do
        let v ← memGet i
        publish .data v
  else do
    let v ← toInt (← busNext .memData)
    let success ← setMemValue dirBin v
    if ¬ success then throwError .memSet

/-! ## ALU -/

/-- The `switch` of `run_alu` (`alu.c:51-108`): result and `is_fc_working`. -/
def aluSwitch (sel a b : CInt) : Prog (CInt × Bool) :=
  if sel = 0b000 then do let r ← cAdd a b; pure (r, true)
  else if sel = 0b001 then do let r ← cSub a b; pure (r, true)
  else if sel = 0b010 then pure (a &&& b, false)
  else if sel = 0b011 then pure (a ||| b, false)
  else if sel = 0b100 then pure (a ^^^ b, false)
  else if sel = 0b101 then pure (~~~a, false)
  else if sel = 0b110 then pure (b, false)
  else if sel = 0b111 then do let r ← cAdd b 1; pure (r, false)
  else pure (0, false)

/-- `run_alu` (`alu.c:32-134`). -/
def runAlu : Prog Unit := do
  busUpdate .aluAcumm
  busUpdate .aluOp2
  busUpdate .aluControl
  let c ← busCur .aluControl
  let selAlu ← toInt (selWord [c.getLsbD CB.selalu0, c.getLsbD CB.selalu1, c.getLsbD CB.selalu2])
  let a ← toInt (← busNext .aluAcumm)
  let b ← toInt (← busNext .aluOp2)
  let (result, isFcWorking) ← aluSwitch selAlu a b
  let hasOverflow := decide (usedBits result > 8)
  publish .aluFc (boolWord (hasOverflow && isFcWorking))
  let result ← if hasOverflow then toInt (clearBits result 8 24) else pure result
  publish .aluFz (boolWord (result = 0))
  if c.getLsbD CB.alubus then publish .data result

/-! ## Registers -/

/-- `run_fffc` (`fffc.c:19-21`). -/
def runFffc : Prog Unit := publish .fffcOut 0xFFFC

/-- `run_acumm` (`acumm.c:53-73`). -/
def runAcumm : Prog Unit := do
  busUpdate .acummData
  busUpdate .acummControl
  let c ← busCur .acummControl
  let d ← busCur .acummData
  if c.getLsbD CB.accar ∧ usedBits d > 8 then throwError .acummOverflow
  else do
    if c.getLsbD CB.accar then setReg .ac d
    if c.getLsbD CB.acbus then publish .data (← getReg .ac)
    publish .acummOut (← getReg .ac)

/-- `run_op2` (`op2.c:51-66`). -/
def runOp2 : Prog Unit := do
  busUpdate .op2Data
  busUpdate .op2Control
  let c ← busCur .op2Control
  if c.getLsbD CB.op2car then setReg .op2 (← busCur .op2Data)
  publish .op2Out (← getReg .op2)

/-- `get_gregister` (`greg.c:74-92`). -/
def getGregister (selreg : CInt) : Option Reg :=
  if selreg = 0b00 then some .b
  else if selreg = 0b01 then some .c
  else if selreg = 0b10 then some .d
  else if selreg = 0b11 then some .e
  else none

/-- `run_greg` (`greg.c:94-127`). -/
def runGreg : Prog Unit := do
  busUpdate .gregData
  busUpdate .gregSelreg
  busUpdate .gregControl
  let sel ← toInt (← busCur .gregSelreg)
  match getGregister sel with
  | none => throwError .gregSelect
  | some reg => do
    let c ← busCur .gregControl
    let d ← busCur .gregData
    if c.getLsbD CB.regcar ∧ usedBits d > 8 then throwError .gregOverflow
    else do
      if c.getLsbD CB.regcar then setReg reg d
      if c.getLsbD CB.regbus then publish .data (← getReg reg)

/-- `run_hl` (`hl.c:61-97`). -/
def runHl : Prog Unit := do
  busUpdate .hlData
  busUpdate .hlControl
  let c ← busCur .hlControl
  if c.getLsbD CB.hcar then setReg .h (← busCur .hlData)
  if c.getLsbD CB.lcar then setReg .l (← busCur .hlData)
  let l ← getReg .l
  let h ← getReg .h
  let toSend := copyBits 0 0 l 0 8
  let toSend := copyBits toSend 8 h 0 8
  publish .hlOut toSend

/-- `run_sp` (`sp.c:52-72`). -/
def runSp : Prog Unit := do
  busUpdate .spDir
  busUpdate .spControl
  let c ← busCur .spControl
  let d ← busCur .spDir
  if c.getLsbD CB.spcar ∧ usedBits d > 16 then throwError .spOverflow
  else do
    if c.getLsbD CB.spcar then setReg .sp d
    publish .spOut (← getReg .sp)

/-- Last part of `run_pc` (`pc.c:132-152`): load PC from the address bus, publish. -/
def runPcLoad (c : W) : Prog Unit := do
  let dir ← busCur .pcDir
  if c.getLsbD CB.pccar ∧ usedBits dir > 16 then throwError .pcOverflow
  else do
    if c.getLsbD CB.pccar then do
      setReg .pc dir
      setReg .pcl (copyBits (← getReg .pcl) 0 (← getReg .pc) 0 8)
      setReg .pch (copyBits (← getReg .pch) 0 (← getReg .pc) 8 8)
    publish .pcOut (← getReg .pc)

/-- Middle part of `run_pc` (`pc.c:117-130`): mix PCH and PCL into PC, then go on. -/
def runPcMix (c : W) : Prog Unit := do
  if c.getLsbD CB.pchcar then setReg .pc (copyBits (← getReg .pc) 8 (← getReg .pch) 0 8)
  if c.getLsbD CB.pclcar then setReg .pc (copyBits (← getReg .pc) 0 (← getReg .pcl) 0 8)
  runPcLoad c

/-- Second part of `run_pc` (`pc.c:103-115`): PCL, then go on. The data bus copy
`current_value` is not refreshed in between. -/
def runPcLow (c : W) : Prog Unit := do
  let data ← busCur .pcData
  if c.getLsbD CB.pclcar ∧ usedBits data > 8 then throwError .pclOverflow
  else do
    if c.getLsbD CB.pclcar then setReg .pcl data
    else if c.getLsbD CB.pclbus then publish .data (← getReg .pcl)
    runPcMix c

/-- `run_pc` (`pc.c:72-153`), first part (`72-102`): bus updates and PCH. -/
def runPc : Prog Unit := do
  busUpdate .pcData
  busUpdate .pcDir
  busUpdate .pcControl
  let c ← busCur .pcControl
  let data ← busCur .pcData
  if c.getLsbD CB.pchcar ∧ usedBits data > 8 then throwError .pchOverflow
  else do
    if c.getLsbD CB.pchcar then setReg .pch data
    else if c.getLsbD CB.pchbus then publish .data (← getReg .pch)
    runPcLow c

/-! ## Flags -/

/-- `cll_get_selfl_lb_value` (`controllers/mxfldx.c:27-34`). -/
def cllGetSelfl : Prog CInt := do
  let c ← busCur .mxfldxControl
  toInt (bit0 (c.getLsbD CB.selfl))

/-- `run_mxfld7` (`mxfld7.c:37-44`); `cll_get_last_bus_data` is `mxfldx.c:36`. -/
def runMxfld7 : Prog Unit := do
  busUpdate .mxfld7Alufc
  let d ← busCur .mxfldxData
  let hibit : CInt := if d.getLsbD 7 then 1 else 0
  let sel ← cllGetSelfl
  let fc ← toInt (← busCur .mxfld7Alufc)
  publish .mxfld7 (run2x1mx sel hibit fc)

/-- `run_mxfld0` (`mxfld0.c:35-42`). -/
def runMxfld0 : Prog Unit := do
  busUpdate .mxfld0Alufz
  let d ← busCur .mxfldxData
  let lowbit : CInt := if d.getLsbD 0 then 1 else 0
  let sel ← cllGetSelfl
  let fz ← toInt (← busCur .mxfld0Alufz)
  publish .mxfld0 (run2x1mx sel lowbit fz)

/-- `cll_run_mxfldx` (`controllers/mxfldx.c:59-65`). -/
def runMxfldx : Prog Unit := do
  busUpdate .mxfldxControl
  busUpdate .mxfldxData
  runMxfld7
  runMxfld0

/-- `get_flags` (`flags.c:65-78`). -/
def getFlags (fc fz : W) : W :=
  let flags : W := 0
  let flags := if fc.getLsbD 0 then setBit flags 1 true else flags
  if fz.getLsbD 0 then setBit flags 0 true else flags

/-- `run_flags` (`flags.c:80-99`). -/
def runFlags : Prog Unit := do
  busUpdate .flagsMx7
  busUpdate .flagsMx0
  busUpdate .flagsControl
  let c ← busCur .flagsControl
  if c.getLsbD CB.flcar then do
    setReg .fc (← busCur .flagsMx7)
    setReg .fz (← busCur .flagsMx0)
  publish .flagsOut (getFlags (← getReg .fc) (← getReg .fz))

/-- `cll_run_flagsinta` (`controllers/flagsinta.c:44-66`; bit positions `constants.h:40-45`). -/
def runFlagsinta : Prog Unit := do
  busUpdate .flagsintaFlags
  busUpdate .flagsintaControl
  let c ← busCur .flagsintaControl
  let f ← busCur .flagsintaFlags
  let toSend : W := setBit (setBit (setBit 0 0 (f.getLsbD 0)) 7 (f.getLsbD 1)) 6 false
  if c.getLsbD CB.flbus then publish .data toSend

/-! ## Control unit -/

/-- `run_cu_seq_b_jnr` (`cu/seq_fgs_jnr.c:33-48`). -/
def runSeqJnr : Prog Unit := do
  busUpdate .seqJnrRi
  busUpdate .seqJnrFlags
  let f ← busCur .seqJnrFlags
  let r ← busCur .seqJnrRi
  let toSend : W := setBit (setBit 0 0 (f.getLsbD 1)) 1 (f.getLsbD 0)
  publish .joiner (copyBits toSend 2 r 0 30)

/-- `run_cu_mxreg_jnr` (`cu/mxreg_jnr.c:23-37`). -/
def runMxregJnr : Prog Unit := do
  busUpdate .mxregJnrRi
  let r ← busCur .mxregJnrRi
  publish .jnr1 (selWord [r.getLsbD 0, r.getLsbD 1])
  publish .jnr2 (selWord [r.getLsbD 2, r.getLsbD 3])

/-- One comparison of the row scan (`cu/seq.c:183-198`): `cell != X && cell != v` skips the row. -/
def cellOk (cell : Int) (v : Bool) : Bool := cell = -1 || cell = (if v then 1 else 0)

/-- The row test of `run_cu_seq` (`cu/seq.c:183-198`): columns 1..16 against
q5..q0, c7..c0, fz, fc. -/
def rowMatches (row : List Int) (inputs : List Bool) : Bool :=
  ((row.drop 1).zip inputs).all fun p => cellOk p.1 p.2

/-- The scan of `run_cu_seq` (`cu/seq.c:181-204`): first matching row. -/
def findRow (inputs : List Bool) : Option (List Int) :=
  truthTable.find? fun row => rowMatches row inputs

/-- `dN.bits[0]` from the found row (`cu/seq.c:214-231`), for the six columns 17..22 (d5..d0).
Every cell of these columns is 0 or 1 (`truthTable_dcols`). -/
def rowD (row : Option (List Int)) (k : Nat) : Bool :=
  match row with
  | none => false
  | some r => (r.drop 17)[k]? = some 1

/-- `run_cu_seq` (`cu/seq.c:162-239`). -/
def runSeq : Prog Unit := do
  let q5 ← busNext .seqQ5
  let q4 ← busNext .seqQ4
  let q3 ← busNext .seqQ3
  let q2 ← busNext .seqQ2
  let q1 ← busNext .seqQ1
  let q0 ← busNext .seqQ0
  let j ← busNext .seqJoiner
  let found := findRow [q5.getLsbD 0, q4.getLsbD 0, q3.getLsbD 0, q2.getLsbD 0, q1.getLsbD 0,
    q0.getLsbD 0, j.getLsbD 9, j.getLsbD 8, j.getLsbD 7, j.getLsbD 6, j.getLsbD 5, j.getLsbD 4,
    j.getLsbD 3, j.getLsbD 2, j.getLsbD 1, j.getLsbD 0]
  publish .d5 (bit0 (rowD found 0))
  publish .d4 (bit0 (rowD found 1))
  publish .d3 (bit0 (rowD found 2))
  publish .d2 (bit0 (rowD found 3))
  publish .d1 (bit0 (rowD found 4))
  publish .d0 (bit0 (rowD found 5))

/-- `run_cu_dxflipflop` (`cu/dxflipflop.c:45-59`). -/
def runDxflipflop : Prog Unit := do
  busUpdate .ffD5
  busUpdate .ffD4
  busUpdate .ffD3
  busUpdate .ffD2
  busUpdate .ffD1
  busUpdate .ffD0
  publish .q5 (← busCur .ffD5)
  publish .q4 (← busCur .ffD4)
  publish .q3 (← busCur .ffD3)
  publish .q2 (← busCur .ffD2)
  publish .q1 (← busCur .ffD1)
  publish .q0 (← busCur .ffD0)

/-- `for (i = 0; i < 31; i++) to_send.bits[30 - i] = ROM[rom_pos][i];` (`cu/rom.c:122-128`). -/
def romWord (row : List Bool) : W := selWord row.reverse

/-- `run_cu_rom` (`cu/rom.c:107-138`). Reading row 45 (allowed by the test in line 120) is out of
bounds. -/
def runRom : Prog Unit := do
  let q5 ← busNext .romQ5
  let q4 ← busNext .romQ4
  let q3 ← busNext .romQ3
  let q2 ← busNext .romQ2
  let q1 ← busNext .romQ1
  let q0 ← busNext .romQ0
  let romPos ← toInt (selWord [q0.getLsbD 0, q1.getLsbD 0, q2.getLsbD 0, q3.getLsbD 0,
    q4.getLsbD 0, q5.getLsbD 0])
  if romPos.toInt < 0 ∨ romPos.toInt > 45 then pure ()
  else match ROM[romPos.toNat]? with
    | none => undefined
    | some row => do
      publish .control (romWord row)
      busUpdate .romQ5
      busUpdate .romQ4
      busUpdate .romQ3
      busUpdate .romQ2
      busUpdate .romQ1
      busUpdate .romQ0

/-- `run_asyncronus_components` (`cu/cu.c:112-122`; `ALU_MEM_RELATION` is 2). -/
def runAsync : Prog Unit := do
  runAddsub
  runMxdir
  runMxreg
  runMem
  runAlu
  runMem
  runAlu

/-- `run_sync_comp` (`cu/cu.c:124-127`). -/
def runSync (comp : Prog Unit) : Prog Unit := do
  comp
  runAsync

/-- One round of `run_acumm_or_flags` (`cu/cu.c:131-134`). -/
def runAcummOrFlagsRound : Prog Unit := do
  runAcumm
  runMxfldx
  runFlags
  runFlagsinta

/-- `run_acumm_or_flags` (`cu/cu.c:129-136`; `ACUM_FLAGS_RELATION` is 2). -/
def runAcummOrFlags : Prog Unit := do
  runAcummOrFlagsRound
  runAcummOrFlagsRound

/-- `run_cu(1)` from line 168 on (`cu/cu.c:168-174`). -/
def runCuSync : Prog Unit := do
  runSync runFffc
  runAcummOrFlags
  runSync runGreg
  runSync runOp2
  runSync runHl
  runSync runSp
  runSync runPc

/-- The RI part of `run_cu(1)` and what follows (`cu/cu.c:149-174`); an overflow returns from
`run_cu`. -/
def runCuRi : Prog Unit := do
  busUpdate .cuData
  busUpdate .cuFlags
  busUpdate .cuControl
  let c ← busCur .cuControl
  let d ← busCur .cuData
  if c.getLsbD CB.ricar ∧ usedBits d > 8 then throwError .riOverflow
  else do
    if c.getLsbD CB.ricar then setReg .ri d
    publish .riOut (← getReg .ri)
    runCuSync

/-- `run_cu` (`cu/cu.c:138-175`). -/
def runCu (clk : Bool) : Prog Unit :=
  if clk then do
    runSeqJnr
    runMxregJnr
    runSeq
    runRom
    runAsync
    runCuRi
  else runDxflipflop

/-! ## Linker functions that only use primitives -/

/-- `reset_control` (`linker/cu.c:160-181`). -/
def resetControl : Prog Unit := do
  publish .control 0
  publish .joiner 0
  publish .q5 0
  publish .q4 0
  publish .q3 0
  publish .q2 0
  publish .q1 0
  publish .q0 0
  publish .d5 0
  publish .d4 0
  publish .d3 0
  publish .d2 0
  publish .d1 0
  publish .d0 0

/-- `get_rom_pos` (`linker/cu.c:108-120`), returned by `get_state` (`linker/cu.c:148-150`). -/
def getRomPos : Prog CInt := do
  let q5 ← busNext .linkQ5
  let q4 ← busNext .linkQ4
  let q3 ← busNext .linkQ3
  let q2 ← busNext .linkQ2
  let q1 ← busNext .linkQ1
  let q0 ← busNext .linkQ0
  toInt (selWord [q0.getLsbD 0, q1.getLsbD 0, q2.getLsbD 0, q3.getLsbD 0, q4.getLsbD 0,
    q5.getLsbD 0])

/-- `get_processed_state` (`linker/cu.c:122-134`), returned by `get_next_state`
(`linker/cu.c:155`). -/
def getProcessedState : Prog CInt := do
  let d5 ← busNext .linkD5
  let d4 ← busNext .linkD4
  let d3 ← busNext .linkD3
  let d2 ← busNext .linkD2
  let d1 ← busNext .linkD1
  let d0 ← busNext .linkD0
  toInt (selWord [d0.getLsbD 0, d1.getLsbD 0, d2.getLsbD 0, d3.getLsbD 0, d4.getLsbD 0,
    d5.getLsbD 0])

/-- `get_data_bus` (`linker/bus.c:35`). -/
def getDataBus : Prog CInt := do toInt (← busNext .linkData)

/-- `get_memory_dir_bus` (`linker/mem.c:71`). -/
def getMemoryDirBus : Prog CInt := do toInt (← busNext .linkMemDir)

/-- The `get_control_bus_*` getters of one bit (`linker/bus.c:40-95`). -/
def getControlBit (k : Nat) : Prog CInt := do
  let c ← busNext .linkControl
  pure (if c.getLsbD k then 1 else 0)

/-- `get_control_bus_selalu` (`linker/bus.c:100-109`). -/
def getControlSelalu : Prog CInt := do
  let c ← busNext .linkControl
  toInt (selWord [c.getLsbD CB.selalu0, c.getLsbD CB.selalu1, c.getLsbD CB.selalu2])

end Mpp
