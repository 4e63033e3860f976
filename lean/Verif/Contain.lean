import Verif.History
/-!
# Registers that check what they load

`Safe p Q`: if the checked registers hold values of their widths before `p`, they do so after it,
and `Q` holds of the result. No assumption is made about the buses, the memory or the other
registers. Used for C44.
-/
set_option linter.unusedSimpArgs false

namespace Mpp

/-- The bound checked (or guaranteed) when a register is loaded; 2OP, H, L, PC, FC and FZ are loaded
without a check. -/
def Reg.limit : Reg → Option Nat
  | .ac | .b | .c | .d | .e | .ri | .pch | .pcl => some 256
  | .sp => some 65536
  | _ => none

/-- `w` respects the bound of `r`. -/
def Reg.Fits (r : Reg) (w : W) : Prop := ∀ n, r.limit = some n → w.toNat < n

def Prog.Safe {α} : Prog α → (α → Prop) → Prop
  | .pure a, Q => Q a
  | .op (.getReg r) k, Q => ∀ w : W, r.Fits w → (k w).Safe Q
  | .op (.setReg r w) k, Q => r.Fits w ∧ (k ()).Safe Q
  | .op (.upd _) k, Q => (k ()).Safe Q
  | .op (.pub _ _) k, Q => (k ()).Safe Q
  | .op (.err _) k, Q => (k ()).Safe Q
  | .op (.memSet _ _) k, Q => (k ()).Safe Q
  | .op (.cur _) k, Q => ∀ w : W, (k w).Safe Q
  | .op (.nxt _) k, Q => ∀ w : W, (k w).Safe Q
  | .op (.memGet _) k, Q => ∀ w : CInt, (k w).Safe Q
  | .op .ub _, _ => True

theorem safe_sound {α} (p : Prog α) (Q : α → Prop) {h h' : H} {v : α}
    (i : ∀ r : Reg, r.Fits (h.regs r)) (hp : p.Safe Q) (e : H.run p h = some (v, h')) :
    (∀ r : Reg, r.Fits (h'.regs r)) ∧ Q v := by
  induction p generalizing h with
  | pure a => cases e; exact ⟨i, hp⟩
  | op o k ih =>
    have e : (H.handle o h).bind (fun x => H.run (k x.1) x.2) = some (v, h') := e
    cases ho : H.handle o h with
    | none => rw [ho] at e; cases e
    | some x =>
      rw [ho] at e
      have e : H.run (k x.1) x.2 = some (v, h') := e
      cases o with
      | ub => cases ho
      | getReg r => cases ho; exact ih _ i (hp _ (i r)) e
      | setReg r w =>
        cases ho
        refine ih _ (fun r' => ?_) hp.2 e
        simp only [upd_apply]
        split
        · rename_i e; rw [e]; exact hp.1
        · exact i r'
      | err er => cases ho; exact ih _ (h := { h with log := er :: h.log }) i hp e
      | upd s =>
        simp only [H.handle, Option.map_eq_some_iff] at ho
        obtain ⟨p, _, rfl⟩ := ho
        exact ih _ (h := { h with ps := p }) i hp e
      | pub t w =>
        simp only [H.handle, Option.map_eq_some_iff] at ho
        obtain ⟨p, _, rfl⟩ := ho
        exact ih _ (h := { h with ps := p.2 }) i hp e
      | cur s =>
        simp only [H.handle, Option.map_eq_some_iff] at ho
        obtain ⟨p, _, rfl⟩ := ho
        exact ih _ i (hp _) e
      | nxt s =>
        simp only [H.handle, Option.map_eq_some_iff] at ho
        obtain ⟨p, _, rfl⟩ := ho
        exact ih _ i (hp _) e
      | memGet j =>
        simp only [H.handle] at ho
        split at ho
        · cases ho; exact ih _ i (hp _) e
        · cases ho
      | memSet j v =>
        simp only [H.handle] at ho
        split at ho
        · rename_i m _
          cases ho; exact ih _ (h := { h with mem := .live (upd m j v) }) i hp e
        · cases ho

theorem safe_bind {α β} (p : Prog α) (f : α → Prog β) (Q : β → Prop) :
    (p >>= f).Safe Q ↔ p.Safe (fun x => (f x).Safe Q) := by
  show (p.bind f).Safe Q ↔ _
  induction p with
  | pure a => rfl
  | op o k ih =>
    cases o with
    | ub => exact Iff.rfl
    | upd s => exact ih ()
    | pub t w => exact ih ()
    | err e => exact ih ()
    | memSet i v => exact ih ()
    | setReg r w => exact and_congr Iff.rfl (ih ())
    | getReg r => exact forall_congr' fun w => imp_congr Iff.rfl (ih w)
    | cur s => exact forall_congr' fun w => ih w
    | nxt s => exact forall_congr' fun w => ih w
    | memGet i => exact forall_congr' fun w => ih w

theorem safe_pure' {α} (a : α) (Q : α → Prop) : (Pure.pure a : Prog α).Safe Q ↔ Q a := Iff.rfl
theorem safe_ppure {α} (a : α) (Q : α → Prop) : (Prog.pure a : Prog α).Safe Q ↔ Q a := Iff.rfl
theorem safe_upd (s : Slot) (Q : Unit → Prop) : (busUpdate s).Safe Q ↔ Q () := Iff.rfl
theorem safe_cur (s : Slot) (Q : W → Prop) : (busCur s).Safe Q ↔ ∀ w, Q w := Iff.rfl
theorem safe_nxt (s : Slot) (Q : W → Prop) : (busNext s).Safe Q ↔ ∀ w, Q w := Iff.rfl
theorem safe_pub (t : Topic) (w : W) (Q : Unit → Prop) : (publish t w).Safe Q ↔ Q () := Iff.rfl
theorem safe_getReg (r : Reg) (Q : W → Prop) : (getReg r).Safe Q ↔ ∀ w, r.Fits w → Q w := Iff.rfl
theorem safe_setReg (r : Reg) (w : W) (Q : Unit → Prop) :
    (setReg r w).Safe Q ↔ r.Fits w ∧ Q () := Iff.rfl
theorem safe_memGet (i : BitVec 16) (Q : CInt → Prop) : (memGet i).Safe Q ↔ ∀ w, Q w := Iff.rfl
theorem safe_memSet (i : BitVec 16) (v : CInt) (Q : Unit → Prop) : (memSet i v).Safe Q ↔ Q () :=
  Iff.rfl
theorem safe_err (e : Err) (Q : Unit → Prop) : (throwError e).Safe Q ↔ Q () := Iff.rfl
theorem safe_ub {α} (Q : α → Prop) : (undefined : Prog α).Safe Q ↔ True := Iff.rfl
theorem safe_ite {α} (c : Prop) [Decidable c] (p q : Prog α) (Q : α → Prop) :
    (if c then p else q).Safe Q ↔ (c → p.Safe Q) ∧ (¬ c → q.Safe Q) := by
  by_cases h : c <;> simp [h]
theorem safe_toInt (w : W) (Q : CInt → Prop) : (toInt w).Safe Q ↔ ∀ v, wordToInt w = some v → Q v := by
  unfold toInt
  cases wordToInt w with
  | none => simp [safe_ub]
  | some v => simp [safe_ppure]

/-- Programs that set no register. -/
theorem fits_none {r : Reg} (h : r.limit = none) (w : W) : r.Fits w := fun n e => by
  rw [h] at e; cases e

theorem fits_8 {r : Reg} (h : r.limit = some 256) {w : W} (hw : ¬ usedBits w > 8) : r.Fits w := by
  intro n e
  rw [h] at e
  cases e
  exact (usedBits_le w 8).1 (by omega)

theorem fits_16 {r : Reg} (h : r.limit = some 65536) {w : W} (hw : ¬ usedBits w > 16) : r.Fits w := by
  intro n e
  rw [h] at e
  cases e
  exact (usedBits_le w 16).1 (by omega)

theorem copy_fits {x p : W} {so : Nat} (hx : x.toNat < 256) : (copyBits x 0 p so 8).toNat < 256 := by
  rw [show (256 : Nat) = 2 ^ 8 from rfl]
  apply Nat.lt_pow_two_of_testBit
  intro i hi
  have : (copyBits x 0 p so 8).getLsbD i = (copyBits x 0 p so 8).toNat.testBit i := rfl
  have hn : ¬(0 ≤ i ∧ i < 0 + 8) := by omega
  rw [← this, getLsbD_copyBits _ _ _ _ _ _ (by omega), if_neg hn]
  exact Nat.testBit_lt_two_pow (Nat.lt_of_lt_of_le hx (Nat.pow_le_pow_right (n := 2) (by decide) hi))

theorem copy_fits_reg {r : Reg} (h : r.limit = some 256) {x p : W} {so : Nat} (hx : r.Fits x) :
    r.Fits (copyBits x 0 p so 8) := by
  intro n e
  have := hx n e
  rw [h] at e
  cases e
  exact copy_fits this

/-- Safe without a postcondition. -/
def Prog.Ok (p : Prog Unit) : Prop := p.Safe fun _ => True

theorem Prog.Ok.seq {p q : Prog Unit} (hp : p.Ok) (hq : q.Ok) : Prog.Ok (do p; q) := by
  have mono : ∀ {α} (p : Prog α) (Q R : α → Prop), (∀ x, Q x → R x) → p.Safe Q → p.Safe R := by
    intro α p Q R h hp
    induction p with
    | pure a => exact h a hp
    | op o k ih => cases o with
      | ub => trivial
      | getReg r => exact fun w hw => ih _ (hp w hw)
      | setReg r w => exact ⟨hp.1, ih _ hp.2⟩
      | upd s => exact ih _ hp
      | pub t w => exact ih _ hp
      | err e => exact ih _ hp
      | memSet i v => exact ih _ hp
      | cur s => exact fun w => ih _ (hp w)
      | nxt s => exact fun w => ih _ (hp w)
      | memGet i => exact fun w => ih _ (hp w)
  exact (safe_bind p (fun _ => q) _).2 (mono p _ _ (fun _ _ => hq) hp)

open Lean.Parser.Tactic in
macro "safe_simp" : tactic => `(tactic| simp (config := { contextual := true }) only
  [Prog.Ok, safe_bind, safe_pure', safe_ppure, safe_upd, safe_cur, safe_nxt, safe_pub, safe_getReg,
   safe_setReg, safe_memGet, safe_memSet, safe_err, safe_ub, safe_ite, safe_toInt, implies_true,
   and_self, and_true, true_and])

theorem ok_addsub : runAddsub.Ok := by unfold runAddsub cAdd cSub; safe_simp
theorem ok_mxdir : runMxdir.Ok := by unfold runMxdir; safe_simp
theorem ok_mxreg : runMxreg.Ok := by unfold runMxreg; safe_simp
theorem ok_mem : runMem.Ok := by
  unfold runMem setMemValue
  safe_simp
  intro w v _ c
  refine ⟨fun _ => ?_, fun _ => ?_⟩
  · cases getValueByOffset v <;> safe_simp
  · intro x y _
    refine fun _ => ?_
    cases getValueByOffset v <;> safe_simp
theorem safe_add (a b : CInt) (Q : CInt → Prop) (h : ∀ x, Q x) : (cAdd a b).Safe Q := by
  unfold cAdd; safe_simp; exact fun _ => h _

theorem safe_sub (a b : CInt) (Q : CInt → Prop) (h : ∀ x, Q x) : (cSub a b).Safe Q := by
  unfold cSub; safe_simp; exact fun _ => h _

theorem safe_aluSwitch (sel a b : CInt) (Q : CInt × Bool → Prop) (h : ∀ x, Q x) :
    (aluSwitch sel a b).Safe Q := by
  unfold aluSwitch
  simp only [safe_ite, safe_bind, safe_pure', h, implies_true, and_true]
  exact ⟨fun _ => safe_add _ _ _ fun _ => trivial, fun _ => ⟨fun _ => safe_sub _ _ _ fun _ => trivial,
    fun _ => ⟨trivial, fun _ => ⟨trivial, fun _ => ⟨trivial, fun _ => ⟨trivial, fun _ => ⟨trivial,
    fun _ _ => safe_add _ _ _ fun _ => trivial⟩⟩⟩⟩⟩⟩⟩

theorem ok_alu : runAlu.Ok := by
  unfold runAlu
  simp only [Prog.Ok, safe_bind, safe_upd, safe_cur, safe_nxt, safe_toInt]
  intro c _ _ w v _ w' v' _
  apply safe_aluSwitch
  intro x
  safe_simp

theorem ok_async : runAsync.Ok :=
  ok_addsub.seq (ok_mxdir.seq (ok_mxreg.seq (ok_mem.seq (ok_alu.seq (ok_mem.seq ok_alu)))))
theorem ok_fffc : runFffc.Ok := trivial
theorem ok_acumm : runAcumm.Ok := by
  unfold runAcumm
  simp only [Prog.Ok, safe_bind, safe_upd, safe_cur, safe_ite, safe_err, safe_setReg, safe_pub,
    safe_getReg, safe_pure', implies_true, and_true, true_and]
  exact fun c d h hc => fits_8 rfl fun hd => h ⟨hc, hd⟩
theorem ok_op2 : runOp2.Ok := by
  unfold runOp2
  simp only [Prog.Ok, safe_bind, safe_upd, safe_cur, safe_ite, safe_err, safe_setReg, safe_pub,
    safe_getReg, safe_pure', implies_true, and_true, true_and]
  exact fun c _ d => fits_none rfl d
theorem ok_greg : runGreg.Ok := by
  unfold runGreg getGregister
  simp only [Prog.Ok, safe_bind, safe_upd, safe_cur, safe_toInt]
  intro w v _
  have key : ∀ r : Reg, r.limit = some 256 → ∀ c d : W, ¬(c.getLsbD CB.regcar = true ∧ usedBits d > 8) →
      c.getLsbD CB.regcar = true → r.Fits d := fun r hr c d h hc => fits_8 hr fun hd => h ⟨hc, hd⟩
  split
  · safe_simp
  · rename_i r hr
    have hr : r.limit = some 256 := by
      repeat' split at hr
      all_goals cases hr
      all_goals rfl
    simp only [safe_bind, safe_cur, safe_ite, safe_err, safe_setReg, safe_pub,
      safe_getReg, safe_pure', implies_true, and_true, true_and]
    exact key r hr
theorem ok_hl : runHl.Ok := by
  unfold runHl
  simp only [Prog.Ok, safe_bind, safe_upd, safe_cur, safe_ite, safe_err, safe_setReg, safe_pub,
    safe_getReg, safe_pure', implies_true, and_true, true_and]
  exact fun c => ⟨fun _ d => ⟨fits_none rfl d, fun _ d => fits_none rfl d⟩,
    fun _ _ d => fits_none rfl d⟩
theorem ok_sp : runSp.Ok := by
  unfold runSp
  simp only [Prog.Ok, safe_bind, safe_upd, safe_cur, safe_ite, safe_err, safe_setReg, safe_pub,
    safe_getReg, safe_pure', implies_true, and_true, true_and]
  exact fun c d h hc => fits_16 rfl fun hd => h ⟨hc, hd⟩

theorem ok_pcLoad (c : W) : (runPcLoad c).Ok := by
  unfold runPcLoad
  simp only [Prog.Ok, safe_bind, safe_upd, safe_cur, safe_ite, safe_err, safe_setReg, safe_pub,
    safe_getReg, safe_pure', implies_true, and_true, true_and]
  exact fun d _ _ => ⟨fits_none rfl d, fun x hx p _ => ⟨copy_fits_reg rfl hx, fun x hx p _ =>
    copy_fits_reg rfl hx⟩⟩
theorem ok_pcMix (c : W) : (runPcMix c).Ok := by
  unfold runPcMix
  have := ok_pcLoad c
  simp only [Prog.Ok, safe_bind, safe_upd, safe_cur, safe_ite, safe_err, safe_setReg, safe_pub,
    safe_getReg, safe_pure', implies_true, and_true, true_and, fits_none (r := .pc) rfl] at this ⊢
  simp only [this, implies_true, and_self]
theorem ok_pcLow (c : W) : (runPcLow c).Ok := by
  unfold runPcLow
  have := ok_pcMix c
  simp only [Prog.Ok, safe_bind, safe_upd, safe_cur, safe_ite, safe_err, safe_setReg, safe_pub,
    safe_getReg, safe_pure', implies_true, and_true, true_and] at this ⊢
  simp only [this, implies_true, and_true]
  exact fun d h hc => fits_8 rfl fun hd => h ⟨hc, hd⟩
theorem ok_pc : runPc.Ok := by
  unfold runPc
  have := ok_pcLow
  simp only [Prog.Ok, safe_bind, safe_upd, safe_cur, safe_ite, safe_err, safe_setReg, safe_pub,
    safe_getReg, safe_pure', implies_true, and_true, true_and] at this ⊢
  simp only [this, implies_true, and_true]
  exact fun c d h hc => fits_8 rfl fun hd => h ⟨hc, hd⟩
theorem ok_mxfldx : runMxfldx.Ok := by
  unfold runMxfldx runMxfld7 runMxfld0 cllGetSelfl
  safe_simp
theorem ok_flags : runFlags.Ok := by
  unfold runFlags
  simp only [Prog.Ok, safe_bind, safe_upd, safe_cur, safe_ite, safe_err, safe_setReg, safe_pub,
    safe_getReg, safe_pure', implies_true, and_true, true_and]
  exact fun c _ w => ⟨fits_none rfl w, fun w => fits_none rfl w⟩
theorem ok_flagsinta : runFlagsinta.Ok := by
  unfold runFlagsinta
  safe_simp
theorem ok_seqJnr : runSeqJnr.Ok := by
  unfold runSeqJnr
  safe_simp
theorem ok_mxregJnr : runMxregJnr.Ok := by
  unfold runMxregJnr
  safe_simp
theorem ok_seq : runSeq.Ok := by
  unfold runSeq
  simp only [Prog.Ok, safe_bind, safe_nxt, safe_pub, implies_true]
theorem ok_rom : runRom.Ok := by
  unfold runRom
  simp only [Prog.Ok, safe_bind, safe_nxt, safe_ite, safe_pure', safe_toInt, implies_true, true_and]
  intro _ _ _ _ _ _ v _ _
  cases ROM[v.toNat]? <;> safe_simp
theorem ok_dxflipflop : runDxflipflop.Ok := by
  unfold runDxflipflop
  safe_simp
theorem ok_sync {p : Prog Unit} (h : p.Ok) : (runSync p).Ok := h.seq ok_async
theorem ok_acummOrFlags : runAcummOrFlags.Ok :=
  have h : runAcummOrFlagsRound.Ok := ok_acumm.seq (ok_mxfldx.seq (ok_flags.seq ok_flagsinta))
  h.seq h
theorem ok_cuSync : runCuSync.Ok :=
  (ok_sync ok_fffc).seq (ok_acummOrFlags.seq ((ok_sync ok_greg).seq ((ok_sync ok_op2).seq
    ((ok_sync ok_hl).seq ((ok_sync ok_sp).seq (ok_sync ok_pc))))))
theorem ok_cuRi : runCuRi.Ok := by
  unfold runCuRi
  have := ok_cuSync
  simp only [Prog.Ok, safe_bind, safe_upd, safe_cur, safe_ite, safe_err, safe_setReg, safe_pub,
    safe_getReg, safe_pure', implies_true, and_true, true_and] at this ⊢
  simp only [this, implies_true, and_true]
  exact fun c d h hc => fits_8 rfl fun hd => h ⟨hc, hd⟩
theorem ok_cu (clk : Bool) : (runCu clk).Ok := by
  cases clk with
  | false => exact ok_dxflipflop
  | true => exact ok_seqJnr.seq (ok_mxregJnr.seq (ok_seq.seq (ok_rom.seq (ok_async.seq ok_cuRi))))
theorem ok_resetControl : Mpp.resetControl.Ok := by
  unfold Mpp.resetControl
  safe_simp

/-! ## Histories without any precondition -/

/-- All checked registers hold values of their widths. -/
def Fitting (h : H) : Prop := ∀ r : Reg, r.Fits (h.regs r)

theorem Fitting.cmd {rand : Nat → Nat} {c : Cmd} {h h' : H} (i : Fitting h)
    (e : h.cmd rand c = some h') : Fitting h' := by
  cases c with
  | initReg r =>
    cases e
    intro r'
    simp only [upd_apply]
    split
    · intro n hn; cases r' <;> cases hn <;> decide
    · exact i r'
  | create s => cases e; exact i
  | subscribe s t =>
    simp only [H.cmd, Option.map_eq_some_iff] at e
    obtain ⟨_, _, rfl⟩ := e; exact i
  | watch r => cases e; exact i
  | fillMem => cases e; exact i
  | unwatch r => cases e; exact i
  | unsub s =>
    simp only [H.cmd, Option.map_eq_some_iff] at e
    obtain ⟨_, _, rfl⟩ := e; exact i
  | destroy s =>
    simp only [H.cmd, Option.map_eq_some_iff] at e
    obtain ⟨_, _, rfl⟩ := e; exact i
  | unfillMem =>
    simp only [H.cmd] at e
    split at e <;> cases e <;> exact i

theorem Fitting.cmds {rand : Nat → Nat} (cs : List Cmd) {h h' : H} (i : Fitting h)
    (e : h.cmds rand cs = some h') : Fitting h' := by
  induction cs generalizing h with
  | nil => cases e; exact i
  | cons c cs ih =>
    simp only [H.cmds] at e
    cases h1 : h.cmd rand c with
    | none => rw [h1] at e; cases e
    | some x => rw [h1] at e; exact ih (i.cmd h1) e

theorem Fitting.clock (n : Nat) {h h' : H} (i : Fitting h) (e : clockLoop n h = some h') :
    Fitting h' := by
  induction n generalizing h with
  | zero => cases e
  | succ n ih =>
    simp only [clockLoop] at e
    cases hx : H.run (runCu !h.clk) { h with clk := !h.clk } with
    | none => rw [hx] at e; cases e
    | some x =>
      rw [hx] at e
      have ix : Fitting x.2 := (safe_sound _ _ (h := { h with clk := !h.clk }) i (ok_cu _) hx).1
      simp only at e
      split at e
      · cases e; exact ix
      · exact ih ix e

theorem getRegister_reg {h : H} {t : WType} {r : Reg} (e : h.getRegister t = some r) :
    r = t.theReg := by
  simp only [H.getRegister, Option.map_eq_some_iff] at e
  obtain ⟨w, h1, rfl⟩ := e
  have := List.find?_some h1
  simp only [decide_eq_true_eq] at this
  subst this
  cases w <;> rfl

theorem Fitting.callUi {h h' : H} (i : Fitting h) (e : h.callUi = some h') : Fitting h' := by
  unfold H.callUi at e
  split at e <;> cases e
  exact i

/-- Getters do not change the registers. -/
theorem Fitting.run {α} {p : Prog α} {Q : α → Prop} {h h' : H} {v : α} (i : Fitting h)
    (hp : p.Safe Q) (e : H.run p h = some (v, h')) : Fitting h' := (safe_sound p Q i hp e).1

theorem Fitting.call {c : Call} {h h' : H} {v : CInt} (i : Fitting h)
    (e : exec c h = some (v, h')) : Fitting h' := by
  cases c with
  | init rand =>
    simp only [exec, Option.map_eq_some_iff] at e
    obtain ⟨_, e, h2⟩ := e; cases h2; exact i.cmds _ e
  | shutdown =>
    simp only [exec, Option.map_eq_some_iff] at e
    obtain ⟨_, e, h2⟩ := e; cases h2; exact i.cmds _ e
  | setUpdateUi b => cases e; exact i
  | runClockCycle u =>
    simp only [exec, Option.bind_eq_some_iff] at e
    obtain ⟨x, e1, e2⟩ := e
    have ix := i.clock 2 e1
    split at e2
    · simp only [Option.map_eq_some_iff] at e2
      obtain ⟨y, e3, e4⟩ := e2
      cases e4; exact ix.callUi e3
    · cases e2; exact ix
  | resetControl =>
    simp only [exec, Option.map_eq_some_iff] at e
    obtain ⟨x, e, h2⟩ := e; cases h2; exact i.run ok_resetControl e
  | setMemoryValue o w =>
    simp only [exec] at e
    split at e
    · cases e
    · simp only [Option.bind_eq_some_iff, Option.map_eq_some_iff] at e
      obtain ⟨x, e1, y, e2, e3⟩ := e
      cases e3
      refine Fitting.callUi ?_ e2
      simp only [H.handle] at e1
      split at e1 <;> cases e1
      exact i
  | setRegisterPc w =>
    simp only [exec] at e
    split at e
    · cases e
    · rename_i r hr
      obtain rfl := getRegister_reg hr
      simp only [Option.bind_eq_some_iff, Option.map_eq_some_iff] at e
      obtain ⟨x, e1, y, e2, e3⟩ := e
      cases e3
      refine Fitting.callUi ?_ e2
      refine i.run (Q := fun _ => True) ?_ e1
      simp only [safe_bind, safe_setReg, safe_getReg, safe_pub, implies_true, and_true]
      exact fits_none rfl w
  | getRegisterValue t =>
    simp only [exec] at e
    split at e
    · cases e
    · refine i.run (Q := fun _ => True) ?_ e
      simp only [safe_bind, safe_getReg, safe_toInt, implies_true]
  | getMemoryValue o =>
    simp only [exec] at e
    split at e
    · cases e; exact i
    · exact i.run (Q := fun _ => True) ((safe_memGet _ _).2 fun _ => trivial) e
  | getMemorySize => cases e; exact i
  | getMemoryValueSizeBits => cases e; exact i
  | getState =>
    refine i.run (Q := fun _ => True) ?_ e
    unfold getRomPos; simp only [safe_bind, safe_nxt, safe_toInt, implies_true]
  | getNextState =>
    refine i.run (Q := fun _ => True) ?_ e
    unfold getProcessedState; simp only [safe_bind, safe_nxt, safe_toInt, implies_true]
  | getDataBus =>
    refine i.run (Q := fun _ => True) ?_ e
    unfold Mpp.getDataBus; simp only [safe_bind, safe_nxt, safe_toInt, implies_true]
  | getMemoryDirBus =>
    refine i.run (Q := fun _ => True) ?_ e
    unfold Mpp.getMemoryDirBus; simp only [safe_bind, safe_nxt, safe_toInt, implies_true]
  | getControlBit k =>
    refine i.run (Q := fun _ => True) ?_ e
    unfold Mpp.getControlBit; simp only [safe_bind, safe_nxt, safe_pure', implies_true]
  | getControlSelalu =>
    refine i.run (Q := fun _ => True) ?_ e
    unfold Mpp.getControlSelalu; simp only [safe_bind, safe_nxt, safe_toInt, implies_true]

theorem Fitting.calls (cs : List Call) {h h' : H} {vs : List CInt} (i : Fitting h)
    (e : execAll cs h = some (vs, h')) : Fitting h' := by
  induction cs generalizing h vs with
  | nil => cases e; exact i
  | cons c cs ih =>
    simp only [execAll, Option.bind_eq_some_iff, Option.map_eq_some_iff] at e
    obtain ⟨x, e1, y, e2, e3⟩ := e
    cases e3
    exact ih (i.call e1) e2

theorem Fitting.start : Fitting H.start := by
  intro r n hn
  cases r <;> cases hn <;> decide

end Mpp
