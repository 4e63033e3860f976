import Verif.Typed
/-!
# The typed component steps field by field

Rewriting rules used to evaluate a whole clock cycle for a known control word.
-/
namespace Mpp
namespace A

variable (data : BitVec 8) (dir1 : W) (dir2 pcOut spOut hlOut fffcOut : BitVec 16)
  (acOut op2Out : BitVec 8) (aluFc aluFz : Bool) (selreg : BitVec 2) (mx7 mx0 fcOut fzOut : Bool)
  (riOut : BitVec 8) (joiner : W) (q dd : BitVec 6) (jnr1 jnr2 : BitVec 2) (control : W)
  (ac rb rc rd re rh rl op2 pch pcl ri : BitVec 8) (pc sp : BitVec 16) (fc fz : Bool)
  (mem : BitVec 16 → BitVec 8) (log : List Err)

theorem addsub_mk : (A.addsub (A.mk data dir1 dir2 pcOut spOut hlOut fffcOut acOut op2Out aluFc aluFz selreg mx7 mx0 fcOut fzOut riOut joiner q dd jnr1 jnr2 control ac rb rc rd re rh rl op2 pch pcl ri pc sp fc fz mem log)) = A.mk
    data (if control.getLsbD 23 then (if control.getLsbD 22 then dir2.setWidth 32 - 1 else
      dir2.setWidth 32 + 1) else dir2.setWidth 32) dir2 pcOut spOut hlOut fffcOut acOut op2Out
      aluFc aluFz selreg mx7 mx0 fcOut fzOut riOut joiner q dd jnr1 jnr2 control ac rb rc rd re
      rh rl op2 pch pcl ri pc sp fc fz mem log := by
  rfl

theorem mxdir_mk : (A.mxdir (A.mk data dir1 dir2 pcOut spOut hlOut fffcOut acOut op2Out aluFc aluFz selreg mx7 mx0 fcOut fzOut riOut joiner q dd jnr1 jnr2 control ac rb rc rd re rh rl op2 pch pcl ri pc sp fc fz mem log)) = A.mk
    data dir1 (if control.getLsbD 25 then (if control.getLsbD 24 then fffcOut else hlOut) else
      (if control.getLsbD 24 then spOut else pcOut)) pcOut spOut hlOut fffcOut acOut op2Out
      aluFc aluFz selreg mx7 mx0 fcOut fzOut riOut joiner q dd jnr1 jnr2 control ac rb rc rd re
      rh rl op2 pch pcl ri pc sp fc fz mem log := by
  rfl

theorem mxreg_mk : (A.mxreg (A.mk data dir1 dir2 pcOut spOut hlOut fffcOut acOut op2Out aluFc aluFz selreg mx7 mx0 fcOut fzOut riOut joiner q dd jnr1 jnr2 control ac rb rc rd re rh rl op2 pch pcl ri pc sp fc fz mem log)) = A.mk
    data dir1 dir2 pcOut spOut hlOut fffcOut acOut op2Out aluFc aluFz (if control.getLsbD 27
      then (if control.getLsbD 26 then 3 else 2) else (if control.getLsbD 26 then jnr2 else
      jnr1)) mx7 mx0 fcOut fzOut riOut joiner q dd jnr1 jnr2 control ac rb rc rd re rh rl op2
      pch pcl ri pc sp fc fz mem log := by
  rfl

theorem memStep_mk : (A.memStep (A.mk data dir1 dir2 pcOut spOut hlOut fffcOut acOut op2Out aluFc aluFz selreg mx7 mx0 fcOut fzOut riOut joiner q dd jnr1 jnr2 control ac rb rc rd re rh rl op2 pch pcl ri pc sp fc fz mem log)) = A.mk
    (if control.getLsbD 21 then (if control.getLsbD 19 then mem dir2 else data) else data) dir1
      dir2 pcOut spOut hlOut fffcOut acOut op2Out aluFc aluFz selreg mx7 mx0 fcOut fzOut riOut
      joiner q dd jnr1 jnr2 control ac rb rc rd re rh rl op2 pch pcl ri pc sp fc fz (if
      control.getLsbD 21 then mem else (upd mem dir2 data)) log := by
  unfold A.memStep
  simp only [A.cb, CB.le, CB.membus]
  by_cases h21 : control.getLsbD 21 = true <;> by_cases h19 : control.getLsbD 19 = true <;>
    simp only [h21, h19, if_true, if_false, Bool.false_eq_true]

theorem alu_mk : (A.alu (A.mk data dir1 dir2 pcOut spOut hlOut fffcOut acOut op2Out aluFc aluFz selreg mx7 mx0 fcOut fzOut riOut joiner q dd jnr1 jnr2 control ac rb rc rd re rh rl op2 pch pcl ri pc sp fc fz mem log)) = A.mk
    (if control.getLsbD 16 then (A.aluRes (control.getLsbD 30) (control.getLsbD 29)
      (control.getLsbD 28) acOut op2Out) else data) dir1 dir2 pcOut spOut hlOut fffcOut acOut
      op2Out (A.aluCarry (control.getLsbD 30) (control.getLsbD 29) (control.getLsbD 28) acOut
      op2Out) (decide ((A.aluRes (control.getLsbD 30) (control.getLsbD 29) (control.getLsbD 28)
      acOut op2Out) = 0)) selreg mx7 mx0 fcOut fzOut riOut joiner q dd jnr1 jnr2 control ac rb
      rc rd re rh rl op2 pch pcl ri pc sp fc fz mem log := by
  rfl

theorem fffc_mk : (A.fffc (A.mk data dir1 dir2 pcOut spOut hlOut fffcOut acOut op2Out aluFc aluFz selreg mx7 mx0 fcOut fzOut riOut joiner q dd jnr1 jnr2 control ac rb rc rd re rh rl op2 pch pcl ri pc sp fc fz mem log)) = A.mk
    data dir1 dir2 pcOut spOut hlOut 0xFFFC#16 acOut op2Out aluFc aluFz selreg mx7 mx0 fcOut
      fzOut riOut joiner q dd jnr1 jnr2 control ac rb rc rd re rh rl op2 pch pcl ri pc sp fc fz
      mem log := by
  rfl

theorem acumm_mk : (A.acumm (A.mk data dir1 dir2 pcOut spOut hlOut fffcOut acOut op2Out aluFc aluFz selreg mx7 mx0 fcOut fzOut riOut joiner q dd jnr1 jnr2 control ac rb rc rd re rh rl op2 pch pcl ri pc sp fc fz mem log)) = A.mk
    (if control.getLsbD 17 then (if control.getLsbD 10 then data else ac) else data) dir1 dir2
      pcOut spOut hlOut fffcOut (if control.getLsbD 10 then data else ac) op2Out aluFc aluFz
      selreg mx7 mx0 fcOut fzOut riOut joiner q dd jnr1 jnr2 control (if control.getLsbD 10 then
      data else ac) rb rc rd re rh rl op2 pch pcl ri pc sp fc fz mem log := by
  rfl

theorem op2Step_mk : (A.op2Step (A.mk data dir1 dir2 pcOut spOut hlOut fffcOut acOut op2Out aluFc aluFz selreg mx7 mx0 fcOut fzOut riOut joiner q dd jnr1 jnr2 control ac rb rc rd re rh rl op2 pch pcl ri pc sp fc fz mem log)) = A.mk
    data dir1 dir2 pcOut spOut hlOut fffcOut acOut (if control.getLsbD 9 then data else op2)
      aluFc aluFz selreg mx7 mx0 fcOut fzOut riOut joiner q dd jnr1 jnr2 control ac rb rc rd re
      rh rl (if control.getLsbD 9 then data else op2) pch pcl ri pc sp fc fz mem log := by
  rfl

theorem hl_mk : (A.hl (A.mk data dir1 dir2 pcOut spOut hlOut fffcOut acOut op2Out aluFc aluFz selreg mx7 mx0 fcOut fzOut riOut joiner q dd jnr1 jnr2 control ac rb rc rd re rh rl op2 pch pcl ri pc sp fc fz mem log)) = A.mk
    data dir1 dir2 pcOut spOut ((if control.getLsbD 6 then data else rh) ++ (if control.getLsbD
      5 then data else rl)) fffcOut acOut op2Out aluFc aluFz selreg mx7 mx0 fcOut fzOut riOut
      joiner q dd jnr1 jnr2 control ac rb rc rd re (if control.getLsbD 6 then data else rh) (if
      control.getLsbD 5 then data else rl) op2 pch pcl ri pc sp fc fz mem log := by
  rfl

theorem gregStep_mk : (A.gregStep (A.mk data dir1 dir2 pcOut spOut hlOut fffcOut acOut op2Out aluFc aluFz selreg mx7 mx0 fcOut fzOut riOut joiner q dd jnr1 jnr2 control ac rb rc rd re rh rl op2 pch pcl ri pc sp fc fz mem log)) = A.mk
    (if control.getLsbD 20 then (if control.getLsbD 11 then data else (if selreg = 0 then rb
      else if selreg = 1 then rc else if selreg = 2 then rd else re)) else data) dir1 dir2 pcOut
      spOut hlOut fffcOut acOut op2Out aluFc aluFz selreg mx7 mx0 fcOut fzOut riOut joiner q dd
      jnr1 jnr2 control ac (if control.getLsbD 11 then (if selreg = 0 then data else rb) else
      rb) (if control.getLsbD 11 then (if selreg = 1 then data else rc) else rc) (if
      control.getLsbD 11 then (if selreg = 2 then data else rd) else rd) (if control.getLsbD 11
      then (if ¬ selreg = 0 ∧ ¬ selreg = 1 ∧ ¬ selreg = 2 then data else re) else re) rh rl op2
      pch pcl ri pc sp fc fz mem log := by
  unfold A.gregStep
  simp only [A.setGreg, A.greg, A.cb, CB.regcar, CB.regbus]
  by_cases h0 : selreg = 0 <;> by_cases h1 : selreg = 1 <;> by_cases h2 : selreg = 2 <;>
    by_cases h11 : control.getLsbD 11 = true <;> by_cases h20 : control.getLsbD 20 = true <;>
    simp only [h0, h1, h2, h11, h20, if_true, if_false, not_false_eq_true, and_self, not_true_eq_false, and_false, false_and] <;> simp_all

theorem spStep_mk : (A.spStep (A.mk data dir1 dir2 pcOut spOut hlOut fffcOut acOut op2Out aluFc aluFz selreg mx7 mx0 fcOut fzOut riOut joiner q dd jnr1 jnr2 control ac rb rc rd re rh rl op2 pch pcl ri pc sp fc fz mem log)) = A.mk
    data dir1 dir2 pcOut (if control.getLsbD 2 then (if dir1.toNat < 2 ^ 16 then dir1.setWidth
      16 else spOut) else sp) hlOut fffcOut acOut op2Out aluFc aluFz selreg mx7 mx0 fcOut fzOut
      riOut joiner q dd jnr1 jnr2 control ac rb rc rd re rh rl op2 pch pcl ri pc (if
      control.getLsbD 2 then (if dir1.toNat < 2 ^ 16 then dir1.setWidth 16 else sp) else sp) fc
      fz mem (if control.getLsbD 2 then (if dir1.toNat < 2 ^ 16 then log else (.spOverflow ::
      log)) else log) := by
  unfold A.spStep
  simp only [A.cb, CB.spcar]
  by_cases h2 : control.getLsbD 2 = true <;> by_cases h : dir1.toNat < 2 ^ 16 <;>
    simp only [h, h2, if_true, if_false, Bool.false_eq_true]

theorem mxfldx_mk : (A.mxfldx (A.mk data dir1 dir2 pcOut spOut hlOut fffcOut acOut op2Out aluFc aluFz selreg mx7 mx0 fcOut fzOut riOut joiner q dd jnr1 jnr2 control ac rb rc rd re rh rl op2 pch pcl ri pc sp fc fz mem log)) = A.mk
    data dir1 dir2 pcOut spOut hlOut fffcOut acOut op2Out aluFc aluFz selreg (if control.getLsbD
      8 then aluFc else data.getLsbD 7) (if control.getLsbD 8 then aluFz else data.getLsbD 0)
      fcOut fzOut riOut joiner q dd jnr1 jnr2 control ac rb rc rd re rh rl op2 pch pcl ri pc sp
      fc fz mem log := by
  rfl

theorem flags_mk : (A.flags (A.mk data dir1 dir2 pcOut spOut hlOut fffcOut acOut op2Out aluFc aluFz selreg mx7 mx0 fcOut fzOut riOut joiner q dd jnr1 jnr2 control ac rb rc rd re rh rl op2 pch pcl ri pc sp fc fz mem log)) = A.mk
    data dir1 dir2 pcOut spOut hlOut fffcOut acOut op2Out aluFc aluFz selreg mx7 mx0 (if
      control.getLsbD 7 then mx7 else fc) (if control.getLsbD 7 then mx0 else fz) riOut joiner q
      dd jnr1 jnr2 control ac rb rc rd re rh rl op2 pch pcl ri pc sp (if control.getLsbD 7 then
      mx7 else fc) (if control.getLsbD 7 then mx0 else fz) mem log := by
  rfl

theorem flagsinta_mk : (A.flagsinta (A.mk data dir1 dir2 pcOut spOut hlOut fffcOut acOut op2Out aluFc aluFz selreg mx7 mx0 fcOut fzOut riOut joiner q dd jnr1 jnr2 control ac rb rc rd re rh rl op2 pch pcl ri pc sp fc fz mem log)) = A.mk
    (if control.getLsbD 18 then (A.flagByte fcOut fzOut) else data) dir1 dir2 pcOut spOut hlOut
      fffcOut acOut op2Out aluFc aluFz selreg mx7 mx0 fcOut fzOut riOut joiner q dd jnr1 jnr2
      control ac rb rc rd re rh rl op2 pch pcl ri pc sp fc fz mem log := by
  unfold A.flagsinta
  simp only [A.cb, CB.flbus]
  by_cases h18 : control.getLsbD 18 = true <;>
    simp only [h18, if_true, if_false, Bool.false_eq_true]

theorem riStep_mk : (A.riStep (A.mk data dir1 dir2 pcOut spOut hlOut fffcOut acOut op2Out aluFc aluFz selreg mx7 mx0 fcOut fzOut riOut joiner q dd jnr1 jnr2 control ac rb rc rd re rh rl op2 pch pcl ri pc sp fc fz mem log)) = A.mk
    data dir1 dir2 pcOut spOut hlOut fffcOut acOut op2Out aluFc aluFz selreg mx7 mx0 fcOut fzOut
      (if control.getLsbD 13 then data else ri) joiner q dd jnr1 jnr2 control ac rb rc rd re rh
      rl op2 pch pcl (if control.getLsbD 13 then data else ri) pc sp fc fz mem log := by
  rfl

theorem pcStep_mk : (A.pcStep (A.mk data dir1 dir2 pcOut spOut hlOut fffcOut acOut op2Out aluFc aluFz selreg mx7 mx0 fcOut fzOut riOut joiner q dd jnr1 jnr2 control ac rb rc rd re rh rl op2 pch pcl ri pc sp fc fz mem log)) = A.mk
    (if control.getLsbD 3 then (if control.getLsbD 4 then data else (if control.getLsbD 15 then
      pch else data)) else (if control.getLsbD 14 then pcl else (if control.getLsbD 4 then data
      else (if control.getLsbD 15 then pch else data)))) dir1 dir2 (if control.getLsbD 12 then
      (if dir1.toNat < 2 ^ 16 then (dir1.setWidth 16) else pcOut) else (if control.getLsbD 3
      then (A.hi (if control.getLsbD 4 then (data ++ A.lo pc) else pc) ++ data) else (if
      control.getLsbD 4 then (data ++ A.lo pc) else pc))) spOut hlOut fffcOut acOut op2Out aluFc
      aluFz selreg mx7 mx0 fcOut fzOut riOut joiner q dd jnr1 jnr2 control ac rb rc rd re rh rl
      op2 (if control.getLsbD 12 then (if dir1.toNat < 2 ^ 16 then A.hi (dir1.setWidth 16) else
      (if control.getLsbD 4 then data else pch)) else (if control.getLsbD 4 then data else pch))
      (if control.getLsbD 12 then (if dir1.toNat < 2 ^ 16 then A.lo (dir1.setWidth 16) else (if
      control.getLsbD 3 then data else pcl)) else (if control.getLsbD 3 then data else pcl)) ri
      (if control.getLsbD 12 then (if dir1.toNat < 2 ^ 16 then (dir1.setWidth 16) else (if
      control.getLsbD 3 then (A.hi (if control.getLsbD 4 then (data ++ A.lo pc) else pc) ++
      data) else (if control.getLsbD 4 then (data ++ A.lo pc) else pc))) else (if
      control.getLsbD 3 then (A.hi (if control.getLsbD 4 then (data ++ A.lo pc) else pc) ++
      data) else (if control.getLsbD 4 then (data ++ A.lo pc) else pc))) sp fc fz mem (if
      control.getLsbD 12 then (if dir1.toNat < 2 ^ 16 then log else (.pcOverflow :: log)) else
      log) := by
  unfold A.pcStep
  simp only [A.cb, CB.pchcar, CB.pchbus, CB.pclcar, CB.pclbus, CB.pccar]
  by_cases h4 : control.getLsbD 4 = true <;> by_cases h3 : control.getLsbD 3 = true <;>
    by_cases h15 : control.getLsbD 15 = true <;> by_cases h14 : control.getLsbD 14 = true <;>
    by_cases h12 : control.getLsbD 12 = true <;> by_cases h : dir1.toNat < 2 ^ 16 <;>
    simp only [h4, h3, h15, h14, h12, h, if_true, if_false, Bool.false_eq_true]

end A
end Mpp
