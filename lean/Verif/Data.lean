import Verif.History
/-!
# The data bus after a clock cycle

What a clock cycle leaves on the data bus depends only on the visible state, the microstate and the
value that was on the bus before; what it leaves on the other hidden buses has no effect.
-/
namespace Mpp
namespace A

set_option linter.unusedVariables false

theorem data0 (v : V) (s s' : A) (h : s.data = s'.data) :
    (v.at s 0xa83000#32).ucycle.data = (v.at s' 0xa83000#32).ucycle.data := by
  cycle_simp
  try simp only [h]

theorem data1 (v : V) (s s' : A) (h : s.data = s'.data) :
    (v.at s 0x200000#32).ucycle.data = (v.at s' 0x200000#32).ucycle.data := by
  cycle_simp
  try simp only [h]

theorem data2 (v : V) (s s' : A) (h : s.data = s'.data) :
    (v.at s 0x300200#32).ucycle.data = (v.at s' 0x300200#32).ucycle.data := by
  cycle_simp
  try simp only [h]

theorem data3 (v : V) (s s' : A) (h : s.data = s'.data) :
    (v.at s 0x64210800#32).ucycle.data = (v.at s' 0x64210800#32).ucycle.data := by
  cycle_simp
  try simp only [h]

theorem data4 (v : V) (s s' : A) (h : s.data = s'.data) :
    (v.at s 0x60210400#32).ucycle.data = (v.at s' 0x60210400#32).ucycle.data := by
  cycle_simp
  try simp only [h]

theorem data5 (v : V) (s s' : A) (h : s.data = s'.data) :
    (v.at s 0x210580#32).ucycle.data = (v.at s' 0x210580#32).ucycle.data := by
  cycle_simp
  try simp only [h]

theorem data6 (v : V) (s s' : A) (h : s.data = s'.data) :
    (v.at s 0x10210580#32).ucycle.data = (v.at s' 0x10210580#32).ucycle.data := by
  cycle_simp
  try simp only [h]

theorem data7 (v : V) (s s' : A) (h : s.data = s'.data) :
    (v.at s 0x10200180#32).ucycle.data = (v.at s' 0x10200180#32).ucycle.data := by
  cycle_simp
  try simp only [h]

theorem data8 (v : V) (s s' : A) (h : s.data = s'.data) :
    (v.at s 0x70210980#32).ucycle.data = (v.at s' 0x70210980#32).ucycle.data := by
  cycle_simp
  try simp only [h]

theorem data9 (v : V) (s s' : A) (h : s.data = s'.data) :
    (v.at s 0x20210580#32).ucycle.data = (v.at s' 0x20210580#32).ucycle.data := by
  cycle_simp
  try simp only [h]

theorem data10 (v : V) (s s' : A) (h : s.data = s'.data) :
    (v.at s 0x30210580#32).ucycle.data = (v.at s' 0x30210580#32).ucycle.data := by
  cycle_simp
  try simp only [h]

theorem data11 (v : V) (s s' : A) (h : s.data = s'.data) :
    (v.at s 0x40210580#32).ucycle.data = (v.at s' 0x40210580#32).ucycle.data := by
  cycle_simp
  try simp only [h]

theorem data12 (v : V) (s s' : A) (h : s.data = s'.data) :
    (v.at s 0x220200#32).ucycle.data = (v.at s' 0x220200#32).ucycle.data := by
  cycle_simp
  try simp only [h]

theorem data13 (v : V) (s s' : A) (h : s.data = s'.data) :
    (v.at s 0x70210580#32).ucycle.data = (v.at s' 0x70210580#32).ucycle.data := by
  cycle_simp
  try simp only [h]

theorem data14 (v : V) (s s' : A) (h : s.data = s'.data) :
    (v.at s 0x50210580#32).ucycle.data = (v.at s' 0x50210580#32).ucycle.data := by
  cycle_simp
  try simp only [h]

theorem data15 (v : V) (s s' : A) (h : s.data = s'.data) :
    (v.at s 0xa81200#32).ucycle.data = (v.at s' 0xa81200#32).ucycle.data := by
  cycle_simp
  try simp only [h]

theorem data16 (v : V) (s s' : A) (h : s.data = s'.data) :
    (v.at s 0xa81040#32).ucycle.data = (v.at s' 0xa81040#32).ucycle.data := by
  cycle_simp
  try simp only [h]

theorem data17 (v : V) (s s' : A) (h : s.data = s'.data) :
    (v.at s 0xa81020#32).ucycle.data = (v.at s' 0xa81020#32).ucycle.data := by
  cycle_simp
  try simp only [h]

theorem data18 (v : V) (s s' : A) (h : s.data = s'.data) :
    (v.at s 0x2280200#32).ucycle.data = (v.at s' 0x2280200#32).ucycle.data := by
  cycle_simp
  try simp only [h]

theorem data19 (v : V) (s s' : A) (h : s.data = s'.data) :
    (v.at s 0x62010000#32).ucycle.data = (v.at s' 0x62010000#32).ucycle.data := by
  cycle_simp
  try simp only [h]

theorem data20 (v : V) (s s' : A) (h : s.data = s'.data) :
    (v.at s 0x2201000#32).ucycle.data = (v.at s' 0x2201000#32).ucycle.data := by
  cycle_simp
  try simp only [h]

theorem data21 (v : V) (s s' : A) (h : s.data = s'.data) :
    (v.at s 0x8300040#32).ucycle.data = (v.at s' 0x8300040#32).ucycle.data := by
  cycle_simp
  try simp only [h]

theorem data22 (v : V) (s s' : A) (h : s.data = s'.data) :
    (v.at s 0xc300020#32).ucycle.data = (v.at s' 0xc300020#32).ucycle.data := by
  cycle_simp
  try simp only [h]

theorem data23 (v : V) (s s' : A) (h : s.data = s'.data) :
    (v.at s 0x240400#32).ucycle.data = (v.at s' 0x240400#32).ucycle.data := by
  cycle_simp
  try simp only [h]

theorem data24 (v : V) (s s' : A) (h : s.data = s'.data) :
    (v.at s 0x220080#32).ucycle.data = (v.at s' 0x220080#32).ucycle.data := by
  cycle_simp
  try simp only [h]

theorem data25 (v : V) (s s' : A) (h : s.data = s'.data) :
    (v.at s 0x200002#32).ucycle.data = (v.at s' 0x200002#32).ucycle.data := by
  cycle_simp
  try simp only [h]

theorem data26 (v : V) (s s' : A) (h : s.data = s'.data) :
    (v.at s 0x1e00004#32).ucycle.data = (v.at s' 0x1e00004#32).ucycle.data := by
  cycle_simp
  try simp only [h]

theorem data27 (v : V) (s s' : A) (h : s.data = s'.data) :
    (v.at s 0x1040000#32).ucycle.data = (v.at s' 0x1040000#32).ucycle.data := by
  cycle_simp
  try simp only [h]

theorem data28 (v : V) (s s' : A) (h : s.data = s'.data) :
    (v.at s 0x1008000#32).ucycle.data = (v.at s' 0x1008000#32).ucycle.data := by
  cycle_simp
  try simp only [h]

theorem data29 (v : V) (s s' : A) (h : s.data = s'.data) :
    (v.at s 0x1004000#32).ucycle.data = (v.at s' 0x1004000#32).ucycle.data := by
  cycle_simp
  try simp only [h]

theorem data30 (v : V) (s s' : A) (h : s.data = s'.data) :
    (v.at s 0x3201000#32).ucycle.data = (v.at s' 0x3201000#32).ucycle.data := by
  cycle_simp
  try simp only [h]

theorem data31 (v : V) (s s' : A) (h : s.data = s'.data) :
    (v.at s 0x1a00004#32).ucycle.data = (v.at s' 0x1a00004#32).ucycle.data := by
  cycle_simp
  try simp only [h]

theorem data32 (v : V) (s s' : A) (h : s.data = s'.data) :
    (v.at s 0x1280008#32).ucycle.data = (v.at s' 0x1280008#32).ucycle.data := by
  cycle_simp
  try simp only [h]

theorem data33 (v : V) (s s' : A) (h : s.data = s'.data) :
    (v.at s 0x1280010#32).ucycle.data = (v.at s' 0x1280010#32).ucycle.data := by
  cycle_simp
  try simp only [h]

theorem data34 (v : V) (s s' : A) (h : s.data = s'.data) :
    (v.at s 0x1280080#32).ucycle.data = (v.at s' 0x1280080#32).ucycle.data := by
  cycle_simp
  try simp only [h]

theorem data35 (v : V) (s s' : A) (h : s.data = s'.data) :
    (v.at s 0x200001#32).ucycle.data = (v.at s' 0x200001#32).ucycle.data := by
  cycle_simp
  try simp only [h]

theorem data36 (v : V) (s s' : A) (h : s.data = s'.data) :
    (v.at s 0x1020000#32).ucycle.data = (v.at s' 0x1020000#32).ucycle.data := by
  cycle_simp
  try simp only [h]

theorem data37 (v : V) (s s' : A) (h : s.data = s'.data) :
    (v.at s 0x1280400#32).ucycle.data = (v.at s' 0x1280400#32).ucycle.data := by
  cycle_simp
  try simp only [h]

theorem data38 (v : V) (s s' : A) (h : s.data = s'.data) :
    (v.at s 0x2200004#32).ucycle.data = (v.at s' 0x2200004#32).ucycle.data := by
  cycle_simp
  try simp only [h]

theorem data39 (v : V) (s s' : A) (h : s.data = s'.data) :
    (v.at s 0x60210800#32).ucycle.data = (v.at s' 0x60210800#32).ucycle.data := by
  cycle_simp
  try simp only [h]

theorem data40 (v : V) (s s' : A) (h : s.data = s'.data) :
    (v.at s 0x1e00004#32).ucycle.data = (v.at s' 0x1e00004#32).ucycle.data := by
  cycle_simp
  try simp only [h]

theorem data41 (v : V) (s s' : A) (h : s.data = s'.data) :
    (v.at s 0x1a00004#32).ucycle.data = (v.at s' 0x1a00004#32).ucycle.data := by
  cycle_simp
  try simp only [h]

theorem data42 (v : V) (s s' : A) (h : s.data = s'.data) :
    (v.at s 0x1e00004#32).ucycle.data = (v.at s' 0x1e00004#32).ucycle.data := by
  cycle_simp
  try simp only [h]

theorem data43 (v : V) (s s' : A) (h : s.data = s'.data) :
    (v.at s 0x1a00004#32).ucycle.data = (v.at s' 0x1a00004#32).ucycle.data := by
  cycle_simp
  try simp only [h]

theorem data44 (v : V) (s s' : A) (h : s.data = s'.data) :
    (v.at s 0x60210800#32).ucycle.data = (v.at s' 0x60210800#32).ucycle.data := by
  cycle_simp
  try simp only [h]

/-- All rows of the control store. -/
theorem data_at (k : Nat) (hk : k < 45) (v : V) (s s' : A) (h : s.data = s'.data) :
    (v.at s (romOf k)).ucycle.data = (v.at s' (romOf k)).ucycle.data := by
  match k, hk with
  | 0, _ => rw [rom0]; exact data0 v s s' h
  | 1, _ => rw [rom1]; exact data1 v s s' h
  | 2, _ => rw [rom2]; exact data2 v s s' h
  | 3, _ => rw [rom3]; exact data3 v s s' h
  | 4, _ => rw [rom4]; exact data4 v s s' h
  | 5, _ => rw [rom5]; exact data5 v s s' h
  | 6, _ => rw [rom6]; exact data6 v s s' h
  | 7, _ => rw [rom7]; exact data7 v s s' h
  | 8, _ => rw [rom8]; exact data8 v s s' h
  | 9, _ => rw [rom9]; exact data9 v s s' h
  | 10, _ => rw [rom10]; exact data10 v s s' h
  | 11, _ => rw [rom11]; exact data11 v s s' h
  | 12, _ => rw [rom12]; exact data12 v s s' h
  | 13, _ => rw [rom13]; exact data13 v s s' h
  | 14, _ => rw [rom14]; exact data14 v s s' h
  | 15, _ => rw [rom15]; exact data15 v s s' h
  | 16, _ => rw [rom16]; exact data16 v s s' h
  | 17, _ => rw [rom17]; exact data17 v s s' h
  | 18, _ => rw [rom18]; exact data18 v s s' h
  | 19, _ => rw [rom19]; exact data19 v s s' h
  | 20, _ => rw [rom20]; exact data20 v s s' h
  | 21, _ => rw [rom21]; exact data21 v s s' h
  | 22, _ => rw [rom22]; exact data22 v s s' h
  | 23, _ => rw [rom23]; exact data23 v s s' h
  | 24, _ => rw [rom24]; exact data24 v s s' h
  | 25, _ => rw [rom25]; exact data25 v s s' h
  | 26, _ => rw [rom26]; exact data26 v s s' h
  | 27, _ => rw [rom27]; exact data27 v s s' h
  | 28, _ => rw [rom28]; exact data28 v s s' h
  | 29, _ => rw [rom29]; exact data29 v s s' h
  | 30, _ => rw [rom30]; exact data30 v s s' h
  | 31, _ => rw [rom31]; exact data31 v s s' h
  | 32, _ => rw [rom32]; exact data32 v s s' h
  | 33, _ => rw [rom33]; exact data33 v s s' h
  | 34, _ => rw [rom34]; exact data34 v s s' h
  | 35, _ => rw [rom35]; exact data35 v s s' h
  | 36, _ => rw [rom36]; exact data36 v s s' h
  | 37, _ => rw [rom37]; exact data37 v s s' h
  | 38, _ => rw [rom38]; exact data38 v s s' h
  | 39, _ => rw [rom39]; exact data39 v s s' h
  | 40, _ => rw [rom40]; exact data40 v s s' h
  | 41, _ => rw [rom41]; exact data41 v s s' h
  | 42, _ => rw [rom42]; exact data42 v s s' h
  | 43, _ => rw [rom43]; exact data43 v s s' h
  | 44, _ => rw [rom44]; exact data44 v s s' h
  | k + 45, h => omega

/-- The typed state in which a cycle executes its control word. -/
theorem cycle_eq (a : A) (hs : a.Settled) : a.cycle =
    (a.view.at a.dxflipflop.seqJnr.mxregJnr.seq (romOf a.dd.toNat)).ucycle := by
  obtain ⟨h1, h2, h3, h4, h5, h6, h7, h8⟩ := hs
  have e : a.dxflipflop.seqJnr.mxregJnr.seq.rom =
      a.view.at a.dxflipflop.seqJnr.mxregJnr.seq (romOf a.dd.toNat) := by
    obtain ⟨data, dir1, dir2, pcOut, spOut, hlOut, fffcOut, acOut, op2Out, aluFc, aluFz, selreg, mx7,
      mx0, fcOut, fzOut, riOut, joiner, q, dd, jnr1, jnr2, control, ac, rb, rc, rd, re, rh, rl, op2,
      pch, pcl, ri, pc, sp, fc, fz, mem, log⟩ := a
    dsimp only at h1 h2 h3 h4 h5 h6 h7 h8
    subst h1 h2 h3 h4 h5 h6 h7 h8
    rfl
  rw [← e]; rfl

/-- The data bus after a cycle is a function of visible state, microstate and old data bus. -/
theorem cycle_data (a b : A) (ha : a.Settled) (hb : b.Settled) (hq : a.dd.toNat < 45)
    (h : a.m = b.m) (hd : a.data = b.data) : a.cycle.data = b.cycle.data := by
  have e1 : a.view = b.view := congrArg M.v h
  have e2 : a.dd = b.dd := congrArg M.s h
  rw [cycle_eq a ha, cycle_eq b hb, ← e1, ← e2]
  exact data_at _ hq _ _ _ hd

/-! ## The error log has no influence -/

/-- The same state with older errors. -/
def app (l : List Err) (a : A) : A := { a with log := a.log ++ l }

section
variable (l : List Err) (a : A)

theorem app_addsub : (a.app l).addsub = a.addsub.app l := rfl
theorem app_mxdir : (a.app l).mxdir = a.mxdir.app l := rfl
theorem app_mxreg : (a.app l).mxreg = a.mxreg.app l := rfl
theorem app_memStep : (a.app l).memStep = a.memStep.app l := by
  show (if a.cb CB.le then _ else _) = _
  unfold memStep
  split
  · show (if a.cb CB.membus then _ else _) = _
    split <;> rfl
  · rfl
theorem app_alu : (a.app l).alu = a.alu.app l := rfl
theorem app_fffc : (a.app l).fffc = a.fffc.app l := rfl
theorem app_acumm : (a.app l).acumm = a.acumm.app l := rfl
theorem app_op2Step : (a.app l).op2Step = a.op2Step.app l := rfl
theorem app_gregStep : (a.app l).gregStep = a.gregStep.app l := by
  obtain ⟨data, dir1, dir2, pcOut, spOut, hlOut, fffcOut, acOut, op2Out, aluFc, aluFz, selreg, mx7,
      mx0, fcOut, fzOut, riOut, joiner, q, dd, jnr1, jnr2, control, ac, rb, rc, rd, re, rh, rl, op2,
      pch, pcl, ri, pc, sp, fc, fz, mem, log⟩ := a
  simp only [app, gregStep_mk]
theorem app_hl : (a.app l).hl = a.hl.app l := rfl
theorem app_spStep : (a.app l).spStep = a.spStep.app l := by
  show (if a.cb CB.spcar then if a.dir1.toNat < 2 ^ 16 then _ else _ else _) = _
  unfold spStep
  split
  · split <;> rfl
  · rfl
theorem app_mxfldx : (a.app l).mxfldx = a.mxfldx.app l := rfl
theorem app_flags : (a.app l).flags = a.flags.app l := rfl
theorem app_flagsinta : (a.app l).flagsinta = a.flagsinta.app l := by
  show (if a.cb CB.flbus then _ else _) = _
  unfold flagsinta
  split <;> rfl
theorem app_riStep : (a.app l).riStep = a.riStep.app l := rfl
theorem app_pcStep : (a.app l).pcStep = a.pcStep.app l := by
  obtain ⟨data, dir1, dir2, pcOut, spOut, hlOut, fffcOut, acOut, op2Out, aluFc, aluFz, selreg, mx7,
      mx0, fcOut, fzOut, riOut, joiner, q, dd, jnr1, jnr2, control, ac, rb, rc, rd, re, rh, rl, op2,
      pch, pcl, ri, pc, sp, fc, fz, mem, log⟩ := a
  simp only [app, pcStep_mk, A.mk.injEq, true_and]
  split
  · split <;> rfl
  · rfl

theorem app_async : (a.app l).async = a.async.app l := by
  simp only [async, app_addsub, app_mxdir, app_mxreg, app_memStep, app_alu]

theorem app_cycle : (a.app l).cycle = a.cycle.app l := by
  have d : (a.app l).dxflipflop = a.dxflipflop.app l := rfl
  have j : ∀ a : A, (a.app l).seqJnr = a.seqJnr.app l := fun _ => rfl
  have x : ∀ a : A, (a.app l).mxregJnr = a.mxregJnr.app l := fun _ => rfl
  have s : ∀ a : A, (a.app l).seq = a.seq.app l := fun _ => rfl
  have r : ∀ a : A, (a.app l).rom = a.rom.app l := fun _ => rfl
  simp only [cycle, cuHigh, d, j, x, s, r, ucycle, cuSync, acummOrFlags, app_async, app_riStep, app_fffc,
    app_acumm, app_mxfldx, app_flags, app_flagsinta, app_gregStep, app_op2Step, app_hl, app_spStep,
    app_pcStep]

theorem app_call (c : Call) : (a.app l).call c = (a.call c).app l := by
  cases c with
  | runClockCycle u => exact app_cycle l a
  | _ => rfl

theorem app_value (c : Call) : (a.app l).value c = a.value c := by
  cases c <;> first | rfl | (rename_i t; cases t <;> rfl)

end

end A
end Mpp
