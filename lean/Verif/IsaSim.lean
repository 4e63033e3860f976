import Verif.Trace
/-!
# The microprograms implement the instruction set
-/
namespace Mpp

/-- The programmer's view of a visible state. -/
def V.prog (v : V) : P where
  ac := v.ac
  b := v.b
  c := v.c
  d := v.d
  e := v.e
  pc := v.pc
  sp := v.sp
  fc := v.fc
  fz := v.fz
  mem := v.mem
  errs := v.log

/-! ## Field-by-field forms -/

def satInc (x : BitVec 16) : BitVec 16 := if x = 0xFFFF then x else x + 1
def satDec (x : BitVec 16) : BitVec 16 := if x = 0 then x else x - 1
def logIf (c : Prop) [Decidable c] (e : Err) (l : List Err) : List Err := if c then e :: l else l

theorem V.incPc_eq (v : V) : v.incPc =
    { v with
      pc := satInc v.pc
      pch := if v.pc = 0xFFFF then v.pch else V.hi (v.pc + 1)
      pcl := if v.pc = 0xFFFF then v.pcl else V.lo (v.pc + 1)
      log := logIf (v.pc = 0xFFFF) .pcOverflow v.log } := by
  unfold V.incPc V.setPc satInc logIf; split <;> simp [*]

theorem V.decSp_eq (v : V) : v.decSp =
    { v with sp := satDec v.sp, log := logIf (v.sp = 0) .spOverflow v.log } := by
  unfold V.decSp satDec logIf; split <;> simp [*]

theorem V.incSp_eq (v : V) : v.incSp =
    { v with sp := satInc v.sp, log := logIf (v.sp = 0xFFFF) .spOverflow v.log } := by
  unfold V.incSp satInc logIf; split <;> simp [*]

theorem P.next_eq (p : P) : p.next =
    { p with pc := satInc p.pc, errs := logIf (p.pc = 0xFFFF) .pcOverflow p.errs } := by
  unfold P.next satInc logIf; split <;> simp [*]

theorem P.down_eq (p : P) : p.down =
    { p with sp := satDec p.sp, errs := logIf (p.sp = 0) .spOverflow p.errs } := by
  unfold P.down satDec logIf; split <;> simp [*]

theorem P.up_eq (p : P) : p.up =
    { p with sp := satInc p.sp, errs := logIf (p.sp = 0xFFFF) .spOverflow p.errs } := by
  unfold P.up satInc logIf; split <;> simp [*]

theorem upd_fun {α β} [DecidableEq α] (f : α → β) (a : α) (x : β) :
    upd f a x = fun i => if i = a then x else f i := rfl

def G.num : G → BitVec 8
  | .b => 0
  | .c => 1
  | .d => 2
  | .e => 3

/-- The opcode of an instruction. -/
def Instr.code : Instr → BitVec 8
  | .mov (.reg s) (.reg t) => 4 * t.num + s.num
  | .mov (.reg s) .ac => 0x10 + s.num
  | .mov .ac (.reg t) => 0x40 + t.num
  | .mov .ac .ac => 0x44
  | .mov .imm (.reg t) => 0x60 + t.num
  | .mov .imm .ac => 0x64
  | .alu .add (.reg s) => 0x30 + s.num
  | .alu .sub (.reg s) => 0x18 + s.num
  | .alu .cmp (.reg s) => 0x1C + s.num
  | .alu .and (.reg s) => 0x20 + s.num
  | .alu .or (.reg s) => 0x24 + s.num
  | .alu .xor (.reg s) => 0x28 + s.num
  | .alu .add .ac => 0x45
  | .alu .sub .ac => 0x46
  | .alu .cmp .ac => 0x47
  | .alu .and .ac => 0x48
  | .alu .or .ac => 0x49
  | .alu .xor .ac => 0x4A
  | .alu .add .imm => 0x65
  | .alu .sub .imm => 0x66
  | .alu .cmp .imm => 0x67
  | .alu .and .imm => 0x68
  | .alu .or .imm => 0x69
  | .alu .xor .imm => 0x6A
  | .inc (.reg s) => 0x2C + s.num
  | .inc .ac => 0x4B
  | .cma => 0x80
  | .lfa => 0x81
  | .sfa => 0x82
  | .lda => 0x70
  | .sta => 0x71
  | .beq => 0x72
  | .bc => 0x73
  | .jmp => 0x74
  | .stax => 0x90
  | .ldax => 0xB0
  | .iret => 0xC0
  | .push => 0xC1
  | .pop => 0xC2
  | .inisp => 0xC3
  | .call => 0xC4
  | .ret => 0xC5
  | .fin => 0xFF

theorem decode_code (o : BitVec 8) (i : Instr) (h : decode o = some i) : o = i.code := by
  have : ∀ o : BitVec 8, ∀ i ∈ decode o, o = i.code := by decide +kernel
  exact this o i h

theorem code_decode : ∀ p ∈ opcodes, decode p.1 = some p.2 := by decide +kernel

theorem mem_opcodes (i : Instr) : (i.code, i) ∈ opcodes := by
  cases i with
  | mov src dst => rcases src with (_ | _ | _ | _) | _ | _ <;> rcases dst with (_ | _ | _ | _) | _ <;> decide +kernel
  | alu op src => cases op <;> rcases src with (_ | _ | _ | _) | _ | _ <;> decide +kernel
  | inc dst => rcases dst with (_ | _ | _ | _) | _ <;> decide +kernel
  | _ => decide +kernel

/-- Every instruction has an opcode. -/
theorem decode_of_code (i : Instr) : decode i.code = some i := code_decode _ (mem_opcodes i)

/-- In S0 and after, the halves of PC follow PC. -/
theorem hi_lo (x : BitVec 16) : V.hi x ++ V.lo x = x := by
  apply BitVec.eq_of_getLsbD_eq
  intro i hi
  simp only [V.hi, V.lo, BitVec.getLsbD_append, BitVec.getLsbD_extractLsb']
  by_cases h : i < 8
  · simp [h]
  · simp [h]; rw [show 8 + (i - 8) = i by omega, decide_eq_true (show i - 8 < 8 by omega)]; simp

syntax "micro" : tactic
macro_rules | `(tactic| micro) => `(tactic|
  simp only [V.follow_cons, V.follow_nil, V.prog, P.instr, P.operand, P.address, P.byte, P.next_eq,
    P.down_eq, P.up_eq, P.top, P.set, P.setReg, P.reg, P.getDest, P.aluOp, P.store,
    V.rtl, BitVec.reduceToNat, V.incPc_eq, V.decSp_eq, V.incSp_eq, V.setR, V.r, V.lowSel, V.highSel,
    V.setAcFlags, V.setPc, V.hl, V.store, V.flagByte, Operand.micro, AluOp.micro, *])

/-- The carry of a sum. -/
theorem carry_eq (x y : BitVec 8) : decide (255 < x.toNat + y.toNat) = decide (x.toNat + y.toNat ≥ 256) := by
  rw [decide_eq_decide]; omega

theorem sub_zero_iff (x y : BitVec 8) : decide (x - y = 0) = decide (x = y) := by
  rw [decide_eq_decide]
  constructor
  · intro h
    have h2 := congrArg (· + y) h
    simp only [BitVec.sub_add_cancel] at h2
    simpa using h2
  · rintro rfl; simp

theorem hi_sat0 (x : BitVec 16) (h : BitVec 8) (e : x = 0xFFFF → h = V.hi x) :
    (if x = 0xFFFF then h else V.hi (x + 1)) = V.hi (satInc x) := by
  unfold satInc; split
  · rename_i hx; exact e hx
  · rfl

theorem lo_sat0 (x : BitVec 16) (h : BitVec 8) (e : x = 0xFFFF → h = V.lo x) :
    (if x = 0xFFFF then h else V.lo (x + 1)) = V.lo (satInc x) := by
  unfold satInc; split
  · rename_i hx; exact e hx
  · rfl

theorem hi_append (h l : BitVec 8) : (h ++ l).extractLsb' 8 8 = h := by
  apply BitVec.eq_of_getLsbD_eq
  intro i hi
  rw [BitVec.getLsbD_extractLsb', BitVec.getLsbD_append]
  simp [hi, show ¬ (8 + i < 8) by omega]

theorem lo_append (h l : BitVec 8) : (h ++ l).extractLsb' 0 8 = l := by
  apply BitVec.eq_of_getLsbD_eq
  intro i hi
  rw [BitVec.getLsbD_extractLsb', BitVec.getLsbD_append]
  simp [hi]

theorem isa_mov (v : V) (src : Operand) (dst : Dest) (ho : v.mem v.pc = (Instr.mov src dst).code) :
    (v.follow (0 :: (Instr.mov src dst).path v.fc v.fz)).prog = v.prog.instr (.mov src dst) := by
  rcases src with (_ | _ | _ | _) | _ | _ <;> rcases dst with (_ | _ | _ | _) | _ <;>
    simp only [Instr.code, G.num] at ho <;> simp only [Instr.path] <;> micro <;>
    (try simp (config := { decide := true }) only [if_true, if_false])

theorem isa_alu (v : V) (op : AluOp) (src : Operand) (ho : v.mem v.pc = (Instr.alu op src).code) :
    (v.follow (0 :: (Instr.alu op src).path v.fc v.fz)).prog = v.prog.instr (.alu op src) := by
  cases op <;> rcases src with (_ | _ | _ | _) | _ | _ <;>
    simp only [Instr.code, G.num] at ho <;> simp only [Instr.path] <;> micro <;>
    (try simp (config := { decide := true }) only [if_true, if_false]) <;>
    (try simp only [carry_eq, sub_zero_iff])

theorem isa_inc (v : V) (dst : Dest) (ho : v.mem v.pc = (Instr.inc dst).code) :
    (v.follow (0 :: (Instr.inc dst).path v.fc v.fz)).prog = v.prog.instr (.inc dst) := by
  rcases dst with (_ | _ | _ | _) | _ <;>
    simp only [Instr.code, G.num] at ho <;> simp only [Instr.path] <;> micro <;>
    (try simp (config := { decide := true }) only [if_true, if_false])

/-- Every documented instruction does what the instruction set says. The only condition is for
CALL: the halves of PC, which it pushes, follow PC except after `set_register_pc(0xFFFF)`. -/
theorem isa_sim (v : V) (i : Instr) (hd : decode (v.mem v.pc) = some i)
    (hc : i = .call → v.pc = 0xFFFF → v.pch ++ v.pcl = v.pc) :
    (v.follow (0 :: i.path v.fc v.fz)).prog = v.prog.instr i := by
  have ho := decode_code _ _ hd
  cases i with
  | mov src dst => exact isa_mov v src dst ho
  | alu op src => exact isa_alu v op src ho
  | inc dst => exact isa_inc v dst ho
  | beq =>
    cases hf : v.fz <;> simp only [Instr.path, if_true, if_false, Bool.false_eq_true] <;> micro <;>
      simp only [if_true, if_false, Bool.false_eq_true]
  | bc =>
    cases hf : v.fc <;> simp only [Instr.path, if_true, if_false, Bool.false_eq_true] <;> micro <;>
      simp only [if_true, if_false, Bool.false_eq_true]
  | call =>
    have h1 : v.pc = 0xFFFF → v.pch = V.hi v.pc := fun h => by
      rw [← hc rfl h]; exact (hi_append _ _).symm
    have h2 : v.pc = 0xFFFF → v.pcl = V.lo v.pc := fun h => by
      rw [← hc rfl h]; exact (lo_append _ _).symm
    clear hc
    simp only [Instr.path]
    micro
    simp only [hi_sat0 v.pc v.pch h1, lo_sat0 v.pc v.pcl h2, hi_sat0 _ _ fun _ => rfl,
      lo_sat0 _ _ fun _ => rfl]
    rfl
  | ret =>
    simp only [Instr.path]; micro; simp only [V.lo, lo_append]
  | iret =>
    simp only [Instr.path]; micro; simp only [V.lo, lo_append]
  | _ => simp only [Instr.path]; micro <;> (try simp only [upd_fun])
end Mpp
