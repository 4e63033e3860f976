import Verif.TypedRules
import Verif.TypedSim
import Verif.Rtl
/-!
# Each microstate does on the typed machine what its register-transfer specification says
-/
namespace Mpp

/-- The visible part of a typed state. -/
def A.view (a : A) : V :=
  ⟨a.ac, a.rb, a.rc, a.rd, a.re, a.rh, a.rl, a.op2, a.pch, a.pcl, a.ri, a.pc, a.sp, a.fc, a.fz,
    a.mem, a.log⟩

/-- Between clock cycles every register is on its output bus. -/
def A.Settled (a : A) : Prop :=
  a.acOut = a.ac ∧ a.op2Out = a.op2 ∧ a.hlOut = a.rh ++ a.rl ∧ a.riOut = a.ri ∧
  a.pcOut = a.pc ∧ a.spOut = a.sp ∧ a.fcOut = a.fc ∧ a.fzOut = a.fz

/-- A typed state with visible part `v`, about to execute the control word `c`; all the rest as
in `s`. -/
def V.at (v : V) (s : A) (c : W) : A :=
  { s with
    ac := v.ac, acOut := v.ac, rb := v.b, rc := v.c, rd := v.d, re := v.e, rh := v.h, rl := v.l
    hlOut := v.h ++ v.l, op2 := v.op2, op2Out := v.op2, pch := v.pch, pcl := v.pcl, ri := v.ri
    riOut := v.ri, pc := v.pc, pcOut := v.pc, sp := v.sp, spOut := v.sp, fc := v.fc
    fcOut := v.fc, fz := v.fz, fzOut := v.fz, mem := v.mem, log := v.log, control := c
    jnr1 := v.lowSel, jnr2 := v.highSel }

namespace A

section
variable (data : BitVec 8) (dir1 : W) (dir2 pcOut spOut hlOut fffcOut : BitVec 16)
  (acOut op2Out : BitVec 8) (aluFc aluFz : Bool) (selreg : BitVec 2) (mx7 mx0 fcOut fzOut : Bool)
  (riOut : BitVec 8) (joiner : W) (q dd : BitVec 6) (jnr1 jnr2 : BitVec 2) (control : W)
  (ac rb rc rd re rh rl op2 pch pcl ri : BitVec 8) (pc sp : BitVec 16) (fc fz : Bool)
  (mem : BitVec 16 → BitVec 8) (log : List Err)

theorem view_mk : A.view (A.mk data dir1 dir2 pcOut spOut hlOut fffcOut acOut op2Out aluFc aluFz selreg mx7 mx0 fcOut
    fzOut riOut joiner q dd jnr1 jnr2 control ac rb rc rd re rh rl op2 pch pcl ri pc sp fc fz
    mem log) =
    ⟨ac, rb, rc, rd, re, rh, rl, op2, pch, pcl, ri, pc, sp, fc, fz, mem, log⟩ := rfl

theorem settled_mk : A.Settled (A.mk data dir1 dir2 pcOut spOut hlOut fffcOut acOut op2Out aluFc aluFz selreg mx7 mx0 fcOut
    fzOut riOut joiner q dd jnr1 jnr2 control ac rb rc rd re rh rl op2 pch pcl ri pc sp fc fz
    mem log) =
    (acOut = ac ∧ op2Out = op2 ∧ hlOut = rh ++ rl ∧ riOut = ri ∧ pcOut = pc ∧ spOut = sp ∧
      fcOut = fc ∧ fzOut = fz) := rfl

end

theorem upd_upd {α β} [DecidableEq α] (f : α → β) (a : α) (x y : β) :
    upd (upd f a x) a y = upd f a y := by
  funext i; simp only [upd_apply]; split <;> rfl

theorem inc_lt (x : BitVec 16) : ((x.setWidth 32 + (1 : W)).toNat < 2 ^ 16) = ¬ x = 0xFFFF := by
  have := x.isLt
  rw [BitVec.toNat_add, BitVec.toNat_setWidth, ← BitVec.toNat_inj]
  simp only [BitVec.reduceToNat, eq_iff_iff]
  omega

theorem dec_lt (x : BitVec 16) : ((x.setWidth 32 - (1 : W)).toNat < 2 ^ 16) = ¬ x = 0 := by
  have := x.isLt
  rw [BitVec.toNat_sub, BitVec.toNat_setWidth, ← BitVec.toNat_inj]
  simp only [BitVec.reduceToNat, eq_iff_iff]
  omega

theorem wid_lt (x : BitVec 16) : ((x.setWidth 32).toNat < 2 ^ 16) = True := by
  have := x.isLt
  rw [BitVec.toNat_setWidth]
  simp only [eq_iff_iff, iff_true]
  omega

theorem inc_narrow (x : BitVec 16) : (x.setWidth 32 + (1 : W)).setWidth 16 = x + 1 := by
  rw [BitVec.setWidth_add _ _ (by decide)]; simp

theorem dec_narrow (x : BitVec 16) : (x.setWidth 32 - (1 : W)).setWidth 16 = x - 1 := by
  apply BitVec.eq_of_toNat_eq
  have := x.isLt
  simp only [BitVec.toNat_setWidth, BitVec.toNat_sub, BitVec.reduceToNat]
  omega

theorem wid_narrow (x : BitVec 16) : (x.setWidth 32).setWidth 16 = x := by simp

theorem sel3 (x : BitVec 2) : (¬ x = 0 ∧ ¬ x = 1 ∧ ¬ x = 2) = (x = 3) := by
  revert x; decide

/-- Evaluate a cycle for a literal control word. -/
macro "cycle_simp" : tactic => `(tactic|
  simp only [ucycle, async, cuSync, acummOrFlags, V.at, view_mk, settled_mk, acumm_mk, flags_mk,
    flagsinta_mk, mxfldx_mk, gregStep_mk, op2Step_mk, hl_mk, spStep_mk, pcStep_mk, fffc_mk,
    addsub_mk, mxdir_mk, mxreg_mk, memStep_mk, alu_mk, riStep_mk, BitVec.reduceGetLsb, if_true,
    if_false, Bool.false_eq_true, aluRes, aluCarry, Bool.or_false, Bool.or_true, Bool.true_or,
    Bool.false_or, upd_upd, inc_lt, dec_lt, wid_lt, inc_narrow, dec_narrow, wid_narrow, sel3])

/-- Fold the specification. -/
macro "rtl_simp" : tactic => `(tactic|
  simp only [V.rtl, V.incPc, V.setPc, V.decSp, V.incSp, V.store, V.setAcFlags, V.setR, V.r,
    V.lowSel, V.highSel, V.hl, V.hi, V.lo, A.hi, A.lo, V.flagByte, A.flagByte, ite_not,
    and_self, reduceCtorEq])

macro "cycle_close" : tactic => `(tactic|
  (cycle_simp
   rtl_simp
   try (constructor <;> repeat' (first | trivial | (split <;> simp_all)))))


theorem cycle0 (v : V) (s : A) : (v.at s 0xa83000#32).ucycle.view = v.rtl 0 ∧
    (v.at s 0xa83000#32).ucycle.Settled := by
  cycle_close

theorem rom0 : romOf 0 = 0xa83000#32 := by decide +kernel

theorem cycle1 (v : V) (s : A) : (v.at s 0x200000#32).ucycle.view = v.rtl 1 ∧
    (v.at s 0x200000#32).ucycle.Settled := by
  cycle_close

theorem rom1 : romOf 1 = 0x200000#32 := by decide +kernel

theorem cycle2 (v : V) (s : A) : (v.at s 0x300200#32).ucycle.view = v.rtl 2 ∧
    (v.at s 0x300200#32).ucycle.Settled := by
  cycle_close

theorem rom2 : romOf 2 = 0x300200#32 := by decide +kernel

theorem cycle3 (v : V) (s : A) : (v.at s 0x64210800#32).ucycle.view = v.rtl 3 ∧
    (v.at s 0x64210800#32).ucycle.Settled := by
  cycle_close

theorem rom3 : romOf 3 = 0x64210800#32 := by decide +kernel

theorem cycle4 (v : V) (s : A) : (v.at s 0x60210400#32).ucycle.view = v.rtl 4 ∧
    (v.at s 0x60210400#32).ucycle.Settled := by
  cycle_close

theorem rom4 : romOf 4 = 0x60210400#32 := by decide +kernel

theorem cycle5 (v : V) (s : A) : (v.at s 0x210580#32).ucycle.view = v.rtl 5 ∧
    (v.at s 0x210580#32).ucycle.Settled := by
  cycle_close

theorem rom5 : romOf 5 = 0x210580#32 := by decide +kernel

theorem cycle6 (v : V) (s : A) : (v.at s 0x10210580#32).ucycle.view = v.rtl 6 ∧
    (v.at s 0x10210580#32).ucycle.Settled := by
  cycle_close

theorem rom6 : romOf 6 = 0x10210580#32 := by decide +kernel

theorem cycle7 (v : V) (s : A) : (v.at s 0x10200180#32).ucycle.view = v.rtl 7 ∧
    (v.at s 0x10200180#32).ucycle.Settled := by
  cycle_close

theorem rom7 : romOf 7 = 0x10200180#32 := by decide +kernel

theorem cycle8 (v : V) (s : A) : (v.at s 0x70210980#32).ucycle.view = v.rtl 8 ∧
    (v.at s 0x70210980#32).ucycle.Settled := by
  cycle_close

theorem rom8 : romOf 8 = 0x70210980#32 := by decide +kernel

theorem cycle9 (v : V) (s : A) : (v.at s 0x20210580#32).ucycle.view = v.rtl 9 ∧
    (v.at s 0x20210580#32).ucycle.Settled := by
  cycle_close

theorem rom9 : romOf 9 = 0x20210580#32 := by decide +kernel

theorem cycle10 (v : V) (s : A) : (v.at s 0x30210580#32).ucycle.view = v.rtl 10 ∧
    (v.at s 0x30210580#32).ucycle.Settled := by
  cycle_close

theorem rom10 : romOf 10 = 0x30210580#32 := by decide +kernel

theorem cycle11 (v : V) (s : A) : (v.at s 0x40210580#32).ucycle.view = v.rtl 11 ∧
    (v.at s 0x40210580#32).ucycle.Settled := by
  cycle_close

theorem rom11 : romOf 11 = 0x40210580#32 := by decide +kernel

theorem cycle12 (v : V) (s : A) : (v.at s 0x220200#32).ucycle.view = v.rtl 12 ∧
    (v.at s 0x220200#32).ucycle.Settled := by
  cycle_close

theorem rom12 : romOf 12 = 0x220200#32 := by decide +kernel

theorem cycle13 (v : V) (s : A) : (v.at s 0x70210580#32).ucycle.view = v.rtl 13 ∧
    (v.at s 0x70210580#32).ucycle.Settled := by
  cycle_close

theorem rom13 : romOf 13 = 0x70210580#32 := by decide +kernel

theorem cycle14 (v : V) (s : A) : (v.at s 0x50210580#32).ucycle.view = v.rtl 14 ∧
    (v.at s 0x50210580#32).ucycle.Settled := by
  cycle_close

theorem rom14 : romOf 14 = 0x50210580#32 := by decide +kernel

theorem cycle15 (v : V) (s : A) : (v.at s 0xa81200#32).ucycle.view = v.rtl 15 ∧
    (v.at s 0xa81200#32).ucycle.Settled := by
  cycle_close

theorem rom15 : romOf 15 = 0xa81200#32 := by decide +kernel

theorem cycle16 (v : V) (s : A) : (v.at s 0xa81040#32).ucycle.view = v.rtl 16 ∧
    (v.at s 0xa81040#32).ucycle.Settled := by
  cycle_close

theorem rom16 : romOf 16 = 0xa81040#32 := by decide +kernel

theorem cycle17 (v : V) (s : A) : (v.at s 0xa81020#32).ucycle.view = v.rtl 17 ∧
    (v.at s 0xa81020#32).ucycle.Settled := by
  cycle_close

theorem rom17 : romOf 17 = 0xa81020#32 := by decide +kernel

theorem cycle18 (v : V) (s : A) : (v.at s 0x2280200#32).ucycle.view = v.rtl 18 ∧
    (v.at s 0x2280200#32).ucycle.Settled := by
  cycle_close

theorem rom18 : romOf 18 = 0x2280200#32 := by decide +kernel

theorem cycle19 (v : V) (s : A) : (v.at s 0x62010000#32).ucycle.view = v.rtl 19 ∧
    (v.at s 0x62010000#32).ucycle.Settled := by
  cycle_close

theorem rom19 : romOf 19 = 0x62010000#32 := by decide +kernel

theorem cycle20 (v : V) (s : A) : (v.at s 0x2201000#32).ucycle.view = v.rtl 20 ∧
    (v.at s 0x2201000#32).ucycle.Settled := by
  cycle_close

theorem rom20 : romOf 20 = 0x2201000#32 := by decide +kernel

theorem cycle21 (v : V) (s : A) : (v.at s 0x8300040#32).ucycle.view = v.rtl 21 ∧
    (v.at s 0x8300040#32).ucycle.Settled := by
  cycle_close

theorem rom21 : romOf 21 = 0x8300040#32 := by decide +kernel

theorem cycle22 (v : V) (s : A) : (v.at s 0xc300020#32).ucycle.view = v.rtl 22 ∧
    (v.at s 0xc300020#32).ucycle.Settled := by
  cycle_close

theorem rom22 : romOf 22 = 0xc300020#32 := by decide +kernel

theorem cycle23 (v : V) (s : A) : (v.at s 0x240400#32).ucycle.view = v.rtl 23 ∧
    (v.at s 0x240400#32).ucycle.Settled := by
  cycle_close

theorem rom23 : romOf 23 = 0x240400#32 := by decide +kernel

theorem cycle24 (v : V) (s : A) : (v.at s 0x220080#32).ucycle.view = v.rtl 24 ∧
    (v.at s 0x220080#32).ucycle.Settled := by
  cycle_close

theorem rom24 : romOf 24 = 0x220080#32 := by decide +kernel

theorem cycle25 (v : V) (s : A) : (v.at s 0x200002#32).ucycle.view = v.rtl 25 ∧
    (v.at s 0x200002#32).ucycle.Settled := by
  cycle_close

theorem rom25 : romOf 25 = 0x200002#32 := by decide +kernel

theorem cycle26 (v : V) (s : A) : (v.at s 0x1e00004#32).ucycle.view = v.rtl 26 ∧
    (v.at s 0x1e00004#32).ucycle.Settled := by
  cycle_close

theorem rom26 : romOf 26 = 0x1e00004#32 := by decide +kernel

theorem cycle27 (v : V) (s : A) : (v.at s 0x1040000#32).ucycle.view = v.rtl 27 ∧
    (v.at s 0x1040000#32).ucycle.Settled := by
  cycle_close

theorem rom27 : romOf 27 = 0x1040000#32 := by decide +kernel

theorem cycle28 (v : V) (s : A) : (v.at s 0x1008000#32).ucycle.view = v.rtl 28 ∧
    (v.at s 0x1008000#32).ucycle.Settled := by
  cycle_close

theorem rom28 : romOf 28 = 0x1008000#32 := by decide +kernel

theorem cycle29 (v : V) (s : A) : (v.at s 0x1004000#32).ucycle.view = v.rtl 29 ∧
    (v.at s 0x1004000#32).ucycle.Settled := by
  cycle_close

theorem rom29 : romOf 29 = 0x1004000#32 := by decide +kernel

theorem cycle30 (v : V) (s : A) : (v.at s 0x3201000#32).ucycle.view = v.rtl 30 ∧
    (v.at s 0x3201000#32).ucycle.Settled := by
  cycle_close

theorem rom30 : romOf 30 = 0x3201000#32 := by decide +kernel

theorem cycle31 (v : V) (s : A) : (v.at s 0x1a00004#32).ucycle.view = v.rtl 31 ∧
    (v.at s 0x1a00004#32).ucycle.Settled := by
  cycle_close

theorem rom31 : romOf 31 = 0x1a00004#32 := by decide +kernel

theorem cycle32 (v : V) (s : A) : (v.at s 0x1280008#32).ucycle.view = v.rtl 32 ∧
    (v.at s 0x1280008#32).ucycle.Settled := by
  cycle_close

theorem rom32 : romOf 32 = 0x1280008#32 := by decide +kernel

theorem cycle33 (v : V) (s : A) : (v.at s 0x1280010#32).ucycle.view = v.rtl 33 ∧
    (v.at s 0x1280010#32).ucycle.Settled := by
  cycle_close

theorem rom33 : romOf 33 = 0x1280010#32 := by decide +kernel

theorem cycle34 (v : V) (s : A) : (v.at s 0x1280080#32).ucycle.view = v.rtl 34 ∧
    (v.at s 0x1280080#32).ucycle.Settled := by
  cycle_close

theorem rom34 : romOf 34 = 0x1280080#32 := by decide +kernel

theorem cycle35 (v : V) (s : A) : (v.at s 0x200001#32).ucycle.view = v.rtl 35 ∧
    (v.at s 0x200001#32).ucycle.Settled := by
  cycle_close

theorem rom35 : romOf 35 = 0x200001#32 := by decide +kernel

theorem cycle36 (v : V) (s : A) : (v.at s 0x1020000#32).ucycle.view = v.rtl 36 ∧
    (v.at s 0x1020000#32).ucycle.Settled := by
  cycle_close

theorem rom36 : romOf 36 = 0x1020000#32 := by decide +kernel

theorem cycle37 (v : V) (s : A) : (v.at s 0x1280400#32).ucycle.view = v.rtl 37 ∧
    (v.at s 0x1280400#32).ucycle.Settled := by
  cycle_close

theorem rom37 : romOf 37 = 0x1280400#32 := by decide +kernel

theorem cycle38 (v : V) (s : A) : (v.at s 0x2200004#32).ucycle.view = v.rtl 38 ∧
    (v.at s 0x2200004#32).ucycle.Settled := by
  cycle_close

theorem rom38 : romOf 38 = 0x2200004#32 := by decide +kernel

theorem cycle39 (v : V) (s : A) : (v.at s 0x60210800#32).ucycle.view = v.rtl 39 ∧
    (v.at s 0x60210800#32).ucycle.Settled := by
  cycle_close

theorem rom39 : romOf 39 = 0x60210800#32 := by decide +kernel

theorem cycle40 (v : V) (s : A) : (v.at s 0x1e00004#32).ucycle.view = v.rtl 40 ∧
    (v.at s 0x1e00004#32).ucycle.Settled := by
  cycle_close

theorem rom40 : romOf 40 = 0x1e00004#32 := by decide +kernel

theorem cycle41 (v : V) (s : A) : (v.at s 0x1a00004#32).ucycle.view = v.rtl 41 ∧
    (v.at s 0x1a00004#32).ucycle.Settled := by
  cycle_close

theorem rom41 : romOf 41 = 0x1a00004#32 := by decide +kernel

theorem cycle42 (v : V) (s : A) : (v.at s 0x1e00004#32).ucycle.view = v.rtl 42 ∧
    (v.at s 0x1e00004#32).ucycle.Settled := by
  cycle_close

theorem rom42 : romOf 42 = 0x1e00004#32 := by decide +kernel

theorem cycle43 (v : V) (s : A) : (v.at s 0x1a00004#32).ucycle.view = v.rtl 43 ∧
    (v.at s 0x1a00004#32).ucycle.Settled := by
  cycle_close

theorem rom43 : romOf 43 = 0x1a00004#32 := by decide +kernel

theorem cycle44 (v : V) (s : A) : (v.at s 0x60210800#32).ucycle.view = v.rtl 44 ∧
    (v.at s 0x60210800#32).ucycle.Settled := by
  cycle_close

theorem rom44 : romOf 44 = 0x60210800#32 := by decide +kernel

/-- All rows of the control store. -/
theorem cycle_at (k : Nat) (hk : k < 45) (v : V) (s : A) :
    (v.at s (romOf k)).ucycle.view = v.rtl k ∧ (v.at s (romOf k)).ucycle.Settled := by
  match k, hk with
  | 0, _ => rw [rom0]; exact cycle0 v s
  | 1, _ => rw [rom1]; exact cycle1 v s
  | 2, _ => rw [rom2]; exact cycle2 v s
  | 3, _ => rw [rom3]; exact cycle3 v s
  | 4, _ => rw [rom4]; exact cycle4 v s
  | 5, _ => rw [rom5]; exact cycle5 v s
  | 6, _ => rw [rom6]; exact cycle6 v s
  | 7, _ => rw [rom7]; exact cycle7 v s
  | 8, _ => rw [rom8]; exact cycle8 v s
  | 9, _ => rw [rom9]; exact cycle9 v s
  | 10, _ => rw [rom10]; exact cycle10 v s
  | 11, _ => rw [rom11]; exact cycle11 v s
  | 12, _ => rw [rom12]; exact cycle12 v s
  | 13, _ => rw [rom13]; exact cycle13 v s
  | 14, _ => rw [rom14]; exact cycle14 v s
  | 15, _ => rw [rom15]; exact cycle15 v s
  | 16, _ => rw [rom16]; exact cycle16 v s
  | 17, _ => rw [rom17]; exact cycle17 v s
  | 18, _ => rw [rom18]; exact cycle18 v s
  | 19, _ => rw [rom19]; exact cycle19 v s
  | 20, _ => rw [rom20]; exact cycle20 v s
  | 21, _ => rw [rom21]; exact cycle21 v s
  | 22, _ => rw [rom22]; exact cycle22 v s
  | 23, _ => rw [rom23]; exact cycle23 v s
  | 24, _ => rw [rom24]; exact cycle24 v s
  | 25, _ => rw [rom25]; exact cycle25 v s
  | 26, _ => rw [rom26]; exact cycle26 v s
  | 27, _ => rw [rom27]; exact cycle27 v s
  | 28, _ => rw [rom28]; exact cycle28 v s
  | 29, _ => rw [rom29]; exact cycle29 v s
  | 30, _ => rw [rom30]; exact cycle30 v s
  | 31, _ => rw [rom31]; exact cycle31 v s
  | 32, _ => rw [rom32]; exact cycle32 v s
  | 33, _ => rw [rom33]; exact cycle33 v s
  | 34, _ => rw [rom34]; exact cycle34 v s
  | 35, _ => rw [rom35]; exact cycle35 v s
  | 36, _ => rw [rom36]; exact cycle36 v s
  | 37, _ => rw [rom37]; exact cycle37 v s
  | 38, _ => rw [rom38]; exact cycle38 v s
  | 39, _ => rw [rom39]; exact cycle39 v s
  | 40, _ => rw [rom40]; exact cycle40 v s
  | 41, _ => rw [rom41]; exact cycle41 v s
  | 42, _ => rw [rom42]; exact cycle42 v s
  | 43, _ => rw [rom43]; exact cycle43 v s
  | 44, _ => rw [rom44]; exact cycle44 v s
  | k + 45, h => omega

section
variable (a : A)

macro "frame_tac" x:ident : tactic => `(tactic|
  (obtain ⟨data, dir1, dir2, pcOut, spOut, hlOut, fffcOut, acOut, op2Out, aluFc, aluFz, selreg, mx7,
      mx0, fcOut, fzOut, riOut, joiner, q, dd, jnr1, jnr2, control, ac, rb, rc, rd, re, rh, rl, op2,
      pch, pcl, ri, pc, sp, fc, fz, mem, log⟩ := $x:ident
   simp only [async, acummOrFlags, acumm_mk, flags_mk, flagsinta_mk, mxfldx_mk, gregStep_mk,
     op2Step_mk, hl_mk, spStep_mk, pcStep_mk, fffc_mk, addsub_mk, mxdir_mk, mxreg_mk, memStep_mk,
     alu_mk, riStep_mk]))

/-- What a cycle never changes once the control word is out. -/
def kept (a : A) : BitVec 6 × BitVec 6 × W × W × BitVec 2 × BitVec 2 :=
  (a.q, a.dd, a.control, a.joiner, a.jnr1, a.jnr2)

theorem kept_async : a.async.kept = a.kept := by simp only [kept]; frame_tac a
theorem kept_acummOrFlags : a.acummOrFlags.kept = a.kept := by simp only [kept]; frame_tac a
theorem kept_gregStep : a.gregStep.kept = a.kept := by simp only [kept]; frame_tac a
theorem kept_op2Step : a.op2Step.kept = a.kept := by simp only [kept]; frame_tac a
theorem kept_hl : a.hl.kept = a.kept := by simp only [kept]; frame_tac a
theorem kept_spStep : a.spStep.kept = a.kept := by simp only [kept]; frame_tac a
theorem kept_pcStep : a.pcStep.kept = a.kept := by simp only [kept]; frame_tac a
theorem kept_fffc : a.fffc.kept = a.kept := by simp only [kept]; frame_tac a
theorem kept_riStep : a.riStep.kept = a.kept := by simp only [kept]; frame_tac a

theorem kept_ucycle : a.ucycle.kept = a.kept := by
  simp only [ucycle, cuSync, kept_async, kept_acummOrFlags, kept_gregStep, kept_op2Step, kept_hl,
    kept_spStep, kept_pcStep, kept_fffc, kept_riStep]

/-- The address bus selected by the control word. -/
def muxed (a : A) : BitVec 16 :=
  if a.cb CB.seldir1 then if a.cb CB.seldir0 then a.fffcOut else a.hlOut
  else if a.cb CB.seldir0 then a.spOut else a.pcOut

theorem dir2_async : a.async.dir2 = a.async.muxed := by
  simp only [muxed, cb, CB.seldir1, CB.seldir0]; frame_tac a

/-- A cycle ends with the address multiplexer having seen the final registers. -/
theorem dir2_ucycle : a.ucycle.dir2 = a.ucycle.muxed := dir2_async _

theorem fffc_async : a.async.fffcOut = a.fffcOut := by frame_tac a

theorem fffc_ucycle : a.ucycle.fffcOut = 0xFFFC := by
  have h1 : ∀ a : A, a.acummOrFlags.fffcOut = a.fffcOut := fun a => by frame_tac a
  have h2 : ∀ a : A, a.gregStep.fffcOut = a.fffcOut := fun a => by frame_tac a
  have h3 : ∀ a : A, a.op2Step.fffcOut = a.fffcOut := fun a => by frame_tac a
  have h4 : ∀ a : A, a.hl.fffcOut = a.fffcOut := fun a => by frame_tac a
  have h5 : ∀ a : A, a.spStep.fffcOut = a.fffcOut := fun a => by frame_tac a
  have h6 : ∀ a : A, a.pcStep.fffcOut = a.fffcOut := fun a => by frame_tac a
  simp only [ucycle, cuSync, fffc_async, h1, h2, h3, h4, h5, h6]
  rfl

end

/-- The sequencer as a function of the microstate, the instruction register and the flags. -/
def nextOf (s : BitVec 6) (ri : BitVec 8) (fc fz : Bool) : BitVec 6 :=
  rowNext (findRow [s.getLsbD 5, s.getLsbD 4, s.getLsbD 3, s.getLsbD 2, s.getLsbD 1, s.getLsbD 0,
    ri.getLsbD 7, ri.getLsbD 6, ri.getLsbD 5, ri.getLsbD 4, ri.getLsbD 3, ri.getLsbD 2,
    ri.getLsbD 1, ri.getLsbD 0, fz, fc])

theorem seqNext_jnr (s : BitVec 6) (a : A) :
    seqNext s a.seqJnr.joiner = nextOf s a.riOut a.fcOut a.fzOut := by
  have h : ∀ j, a.seqJnr.joiner.getLsbD j = if 2 ≤ j ∧ j < 32 then a.riOut.getLsbD (j - 2)
      else if j = 1 then a.fzOut else if j = 0 then a.fcOut else false := by
    intro j
    simp only [seqJnr]
    rw [getLsbD_copyBits _ _ _ _ _ _ (by decide)]
    split
    · rw [BitVec.getLsbD_setWidth, Nat.zero_add, show decide (j - 2 < 32) = true by
        rw [decide_eq_true_eq]; omega, Bool.true_and]
    · rw [getLsbD_setBit _ _ _ _ (by decide), getLsbD_setBit _ _ _ _ (by decide)]
      simp
  simp only [seqNext, nextOf, h]
  rfl

/-- One full clock cycle, from high to high. -/
def cycle (a : A) : A := a.dxflipflop.cuHigh

/-- A clock cycle executes the register transfer of the microstate it enters and computes the
following one. -/
theorem cycle_spec (a : A) (hs : a.Settled) (hq : a.dd.toNat < 45) :
    a.cycle.view = a.view.rtl a.dd.toNat ∧ a.cycle.Settled ∧ a.cycle.q = a.dd ∧
    a.cycle.dd = nextOf a.dd a.ri a.fc a.fz ∧ a.cycle.control = romOf a.dd.toNat ∧
    a.cycle.dir2 = a.cycle.muxed ∧ a.cycle.fffcOut = 0xFFFC := by
  obtain ⟨h1, h2, h3, h4, h5, h6, h7, h8⟩ := hs
  have e : a.dxflipflop.seqJnr.mxregJnr.seq.rom =
      a.view.at a.dxflipflop.seqJnr.mxregJnr.seq (romOf a.dd.toNat) := by
    obtain ⟨data, dir1, dir2, pcOut, spOut, hlOut, fffcOut, acOut, op2Out, aluFc, aluFz, selreg, mx7,
      mx0, fcOut, fzOut, riOut, joiner, q, dd, jnr1, jnr2, control, ac, rb, rc, rd, re, rh, rl, op2,
      pch, pcl, ri, pc, sp, fc, fz, mem, log⟩ := a
    dsimp only at h1 h2 h3 h4 h5 h6 h7 h8
    subst h1 h2 h3 h4 h5 h6 h7 h8
    rfl
  have c : a.cycle = (a.view.at a.dxflipflop.seqJnr.mxregJnr.seq (romOf a.dd.toNat)).ucycle := by
    rw [← e]; rfl
  have k := kept_ucycle (a.view.at a.dxflipflop.seqJnr.mxregJnr.seq (romOf a.dd.toNat))
  rw [← c] at k
  simp only [kept, Prod.mk.injEq] at k
  have n := seqNext_jnr a.dd a.dxflipflop
  refine ⟨?_, ?_, k.1, ?_, k.2.2.1, ?_, ?_⟩
  · rw [c]; exact (cycle_at _ hq _ _).1
  · rw [c]; exact (cycle_at _ hq _ _).2
  · rw [k.2.1, ← h4, ← h7, ← h8]; exact n
  · rw [c]; exact dir2_ucycle _
  · rw [c]; exact fffc_ucycle _

end A
end Mpp
