import Verif.Typed
import Verif.TopicMachine
/-!
# The component programs implement the typed machine
-/
namespace Mpp

/-- The topic machine state of a typed state, for arbitrary latched copies. -/
def lift (a : A) (cur : Slot → W) : T where
  topic
    | .data => a.data.setWidth 32
    | .dir1 => a.dir1
    | .dir2 => a.dir2.setWidth 32
    | .pcOut => a.pcOut.setWidth 32
    | .spOut => a.spOut.setWidth 32
    | .hlOut => a.hlOut.setWidth 32
    | .fffcOut => a.fffcOut.setWidth 32
    | .acummOut => a.acOut.setWidth 32
    | .op2Out => a.op2Out.setWidth 32
    | .aluFc => boolWord a.aluFc
    | .aluFz => boolWord a.aluFz
    | .selreg => a.selreg.setWidth 32
    | .mxfld7 => boolWord a.mx7
    | .mxfld0 => boolWord a.mx0
    | .flagsOut => getFlags (boolWord a.fcOut) (boolWord a.fzOut)
    | .riOut => a.riOut.setWidth 32
    | .joiner => a.joiner
    | .q5 => boolWord (a.q.getLsbD 5)
    | .q4 => boolWord (a.q.getLsbD 4)
    | .q3 => boolWord (a.q.getLsbD 3)
    | .q2 => boolWord (a.q.getLsbD 2)
    | .q1 => boolWord (a.q.getLsbD 1)
    | .q0 => boolWord (a.q.getLsbD 0)
    | .d5 => boolWord (a.dd.getLsbD 5)
    | .d4 => boolWord (a.dd.getLsbD 4)
    | .d3 => boolWord (a.dd.getLsbD 3)
    | .d2 => boolWord (a.dd.getLsbD 2)
    | .d1 => boolWord (a.dd.getLsbD 1)
    | .d0 => boolWord (a.dd.getLsbD 0)
    | .jnr1 => a.jnr1.setWidth 32
    | .jnr2 => a.jnr2.setWidth 32
    | .jnr3 => 0
    | .jnr4 => 0
    | .control => a.control
  cur := cur
  regs
    | .ac => a.ac.setWidth 32
    | .fc => boolWord a.fc
    | .fz => boolWord a.fz
    | .b => a.rb.setWidth 32
    | .c => a.rc.setWidth 32
    | .d => a.rd.setWidth 32
    | .e => a.re.setWidth 32
    | .h => a.rh.setWidth 32
    | .l => a.rl.setWidth 32
    | .op2 => a.op2.setWidth 32
    | .pch => a.pch.setWidth 32
    | .pcl => a.pcl.setWidth 32
    | .pc => a.pc.setWidth 32
    | .sp => a.sp.setWidth 32
    | .ri => a.ri.setWidth 32
  mem i := (a.mem i).setWidth 32
  log := a.log

/-- `p` does on the topic machine what `f` says, whatever the latched copies. -/
def Impl (p : Prog Unit) (f : A → A) : Prop :=
  ∀ a cur, ∃ cur', T.run p (lift a cur) = some ((), lift (f a) cur')

theorem Impl.seq {p q : Prog Unit} {f g : A → A} (hp : Impl p f) (hq : Impl q g) :
    Impl (do p; q) (fun a => g (f a)) := by
  intro a cur
  obtain ⟨c1, h1⟩ := hp a cur
  obtain ⟨c2, h2⟩ := hq (f a) c1
  exact ⟨c2, by
    show T.run (p >>= fun _ => q) _ = _
    simp only [T.run] at *
    rw [Prog.run_bind, h1]
    exact h2⟩

/-! ## Symbolic execution -/

namespace T
def setCur (t : T) (s : Slot) (w : W) : T := { t with cur := Mpp.upd t.cur s w }
def setTopic (t : T) (tp : Topic) (w : W) : T := { t with topic := Mpp.upd t.topic tp w }
def setReg (t : T) (r : Reg) (w : W) : T := { t with regs := Mpp.upd t.regs r w }
def setMem (t : T) (i : BitVec 16) (w : CInt) : T := { t with mem := Mpp.upd t.mem i w }
def addLog (t : T) (e : Err) : T := { t with log := e :: t.log }
end T

section run
variable (t : T)
theorem run_pure' {α} (x : α) : T.run (pure x) t = some (x, t) := rfl
theorem run_ppure {α} (x : α) : T.run (Prog.pure x) t = some (x, t) := rfl
theorem run_bind' {α β} (p : Prog α) (f : α → Prog β) :
    T.run (p >>= f) t = (T.run p t).bind fun r => T.run (f r.1) r.2 := Prog.run_bind _ _ _ _
theorem run_upd (s : Slot) : T.run (busUpdate s) t = some ((), t.setCur s (t.topic s.topic)) := rfl
theorem run_cur (s : Slot) : T.run (busCur s) t = some (t.cur s, t) := rfl
theorem run_nxt (s : Slot) : T.run (busNext s) t = some (t.topic s.topic, t) := rfl
theorem run_pub (tp : Topic) (w : W) : T.run (publish tp w) t = some ((), t.setTopic tp w) := rfl
theorem run_getReg (r : Reg) : T.run (getReg r) t = some (t.regs r, t) := rfl
theorem run_setReg (r : Reg) (w : W) : T.run (setReg r w) t = some ((), t.setReg r w) := rfl
theorem run_memGet (i : BitVec 16) : T.run (memGet i) t = some (t.mem i, t) := rfl
theorem run_memSet (i : BitVec 16) (w : CInt) :
    T.run (memSet i w) t = some ((), t.setMem i w) := rfl
theorem run_err (e : Err) : T.run (throwError e) t = some ((), t.addLog e) := rfl
theorem run_ite {α} (c : Prop) [Decidable c] (p q : Prog α) :
    T.run (if c then p else q) t = if c then T.run p t else T.run q t := by split <;> rfl
end run

section lifted
variable (a : A) (cur : Slot → W)

theorem lift_setCur (s : Slot) (w : W) : (lift a cur).setCur s w = lift a (upd cur s w) := rfl
theorem lift_cur (s : Slot) : (lift a cur).cur s = cur s := rfl
theorem lift_addLog (e : Err) : (lift a cur).addLog e = lift { a with log := e :: a.log } cur := rfl
theorem lift_mem (i : BitVec 16) : (lift a cur).mem i = (a.mem i).setWidth 32 := rfl
theorem lift_setMem (i : BitVec 16) (v : BitVec 8) :
    (lift a cur).setMem i (v.setWidth 32) = lift { a with mem := upd a.mem i v } cur := by
  have : (upd (lift a cur).mem i (v.setWidth 32)) = fun j => (upd a.mem i v j).setWidth 32 := by
    funext j; simp only [upd_apply]; split <;> rfl
  simp only [T.setMem, this]; rfl

theorem T.ext' {t t' : T} (h1 : t.topic = t'.topic) (h2 : t.cur = t'.cur)
    (h3 : t.regs = t'.regs) (h4 : t.mem = t'.mem) (h5 : t.log = t'.log) : t = t' := by
  cases t; cases t'; simp_all

macro "topic_tac" : tactic => `(tactic|
  (apply T.ext' <;> first | rfl | (funext x; cases x <;> rfl)))

theorem lift_data (v : BitVec 8) :
    (lift a cur).setTopic .data (v.setWidth 32) = lift { a with data := v } cur := by topic_tac
theorem lift_dir1 (v : W) :
    (lift a cur).setTopic .dir1 v = lift { a with dir1 := v } cur := by topic_tac
theorem lift_dir2 (v : BitVec 16) :
    (lift a cur).setTopic .dir2 (v.setWidth 32) = lift { a with dir2 := v } cur := by topic_tac
theorem lift_pcOut (v : BitVec 16) :
    (lift a cur).setTopic .pcOut (v.setWidth 32) = lift { a with pcOut := v } cur := by topic_tac
theorem lift_spOut (v : BitVec 16) :
    (lift a cur).setTopic .spOut (v.setWidth 32) = lift { a with spOut := v } cur := by topic_tac
theorem lift_hlOut (v : BitVec 16) :
    (lift a cur).setTopic .hlOut (v.setWidth 32) = lift { a with hlOut := v } cur := by topic_tac
theorem lift_fffcOut (v : BitVec 16) :
    (lift a cur).setTopic .fffcOut (v.setWidth 32) = lift { a with fffcOut := v } cur := by topic_tac
theorem lift_acOut (v : BitVec 8) :
    (lift a cur).setTopic .acummOut (v.setWidth 32) = lift { a with acOut := v } cur := by topic_tac
theorem lift_op2Out (v : BitVec 8) :
    (lift a cur).setTopic .op2Out (v.setWidth 32) = lift { a with op2Out := v } cur := by topic_tac
theorem lift_aluFc (v : Bool) :
    (lift a cur).setTopic .aluFc (boolWord v) = lift { a with aluFc := v } cur := by topic_tac
theorem lift_aluFz (v : Bool) :
    (lift a cur).setTopic .aluFz (boolWord v) = lift { a with aluFz := v } cur := by topic_tac
theorem lift_selreg (v : BitVec 2) :
    (lift a cur).setTopic .selreg (v.setWidth 32) = lift { a with selreg := v } cur := by topic_tac
theorem lift_selreg2 :
    (lift a cur).setTopic .selreg 2 = lift { a with selreg := 2 } cur := by topic_tac
theorem lift_selreg3 :
    (lift a cur).setTopic .selreg 3 = lift { a with selreg := 3 } cur := by topic_tac
theorem lift_mx7 (v : Bool) :
    (lift a cur).setTopic .mxfld7 (boolWord v) = lift { a with mx7 := v } cur := by topic_tac
theorem lift_mx0 (v : Bool) :
    (lift a cur).setTopic .mxfld0 (boolWord v) = lift { a with mx0 := v } cur := by topic_tac
theorem lift_flagsOut (v w : Bool) :
    (lift a cur).setTopic .flagsOut (getFlags (boolWord v) (boolWord w)) =
      lift { a with fcOut := v, fzOut := w } cur := by topic_tac
theorem lift_riOut (v : BitVec 8) :
    (lift a cur).setTopic .riOut (v.setWidth 32) = lift { a with riOut := v } cur := by topic_tac
theorem lift_joiner (v : W) :
    (lift a cur).setTopic .joiner v = lift { a with joiner := v } cur := by topic_tac
theorem lift_jnr1 (v : BitVec 2) :
    (lift a cur).setTopic .jnr1 (v.setWidth 32) = lift { a with jnr1 := v } cur := by topic_tac
theorem lift_jnr2 (v : BitVec 2) :
    (lift a cur).setTopic .jnr2 (v.setWidth 32) = lift { a with jnr2 := v } cur := by topic_tac
theorem lift_control (v : W) :
    (lift a cur).setTopic .control v = lift { a with control := v } cur := by topic_tac

theorem lift_set_ac (v : BitVec 8) :
    (lift a cur).setReg .ac (v.setWidth 32) = lift { a with ac := v } cur := by topic_tac
theorem lift_set_b (v : BitVec 8) :
    (lift a cur).setReg .b (v.setWidth 32) = lift { a with rb := v } cur := by topic_tac
theorem lift_set_c (v : BitVec 8) :
    (lift a cur).setReg .c (v.setWidth 32) = lift { a with rc := v } cur := by topic_tac
theorem lift_set_d (v : BitVec 8) :
    (lift a cur).setReg .d (v.setWidth 32) = lift { a with rd := v } cur := by topic_tac
theorem lift_set_e (v : BitVec 8) :
    (lift a cur).setReg .e (v.setWidth 32) = lift { a with re := v } cur := by topic_tac
theorem lift_set_h (v : BitVec 8) :
    (lift a cur).setReg .h (v.setWidth 32) = lift { a with rh := v } cur := by topic_tac
theorem lift_set_l (v : BitVec 8) :
    (lift a cur).setReg .l (v.setWidth 32) = lift { a with rl := v } cur := by topic_tac
theorem lift_set_op2 (v : BitVec 8) :
    (lift a cur).setReg .op2 (v.setWidth 32) = lift { a with op2 := v } cur := by topic_tac
theorem lift_set_pch (v : BitVec 8) :
    (lift a cur).setReg .pch (v.setWidth 32) = lift { a with pch := v } cur := by topic_tac
theorem lift_set_pcl (v : BitVec 8) :
    (lift a cur).setReg .pcl (v.setWidth 32) = lift { a with pcl := v } cur := by topic_tac
theorem lift_set_ri (v : BitVec 8) :
    (lift a cur).setReg .ri (v.setWidth 32) = lift { a with ri := v } cur := by topic_tac
theorem lift_set_pc (v : BitVec 16) :
    (lift a cur).setReg .pc (v.setWidth 32) = lift { a with pc := v } cur := by topic_tac
theorem lift_set_sp (v : BitVec 16) :
    (lift a cur).setReg .sp (v.setWidth 32) = lift { a with sp := v } cur := by topic_tac
theorem lift_set_fc (v : Bool) :
    (lift a cur).setReg .fc (boolWord v) = lift { a with fc := v } cur := by topic_tac
theorem lift_set_fz (v : Bool) :
    (lift a cur).setReg .fz (boolWord v) = lift { a with fz := v } cur := by topic_tac
theorem top_data : (lift a cur).topic .data = a.data.setWidth 32 := rfl
theorem top_dir1 : (lift a cur).topic .dir1 = a.dir1 := rfl
theorem top_dir2 : (lift a cur).topic .dir2 = a.dir2.setWidth 32 := rfl
theorem top_pcOut : (lift a cur).topic .pcOut = a.pcOut.setWidth 32 := rfl
theorem top_spOut : (lift a cur).topic .spOut = a.spOut.setWidth 32 := rfl
theorem top_hlOut : (lift a cur).topic .hlOut = a.hlOut.setWidth 32 := rfl
theorem top_fffcOut : (lift a cur).topic .fffcOut = a.fffcOut.setWidth 32 := rfl
theorem top_acummOut : (lift a cur).topic .acummOut = a.acOut.setWidth 32 := rfl
theorem top_op2Out : (lift a cur).topic .op2Out = a.op2Out.setWidth 32 := rfl
theorem top_aluFc : (lift a cur).topic .aluFc = boolWord a.aluFc := rfl
theorem top_aluFz : (lift a cur).topic .aluFz = boolWord a.aluFz := rfl
theorem top_selreg : (lift a cur).topic .selreg = a.selreg.setWidth 32 := rfl
theorem top_mxfld7 : (lift a cur).topic .mxfld7 = boolWord a.mx7 := rfl
theorem top_mxfld0 : (lift a cur).topic .mxfld0 = boolWord a.mx0 := rfl
theorem top_flagsOut : (lift a cur).topic .flagsOut = getFlags (boolWord a.fcOut) (boolWord a.fzOut) := rfl
theorem top_riOut : (lift a cur).topic .riOut = a.riOut.setWidth 32 := rfl
theorem top_joiner : (lift a cur).topic .joiner = a.joiner := rfl
theorem top_q5 : (lift a cur).topic .q5 = boolWord (a.q.getLsbD 5) := rfl
theorem top_q4 : (lift a cur).topic .q4 = boolWord (a.q.getLsbD 4) := rfl
theorem top_q3 : (lift a cur).topic .q3 = boolWord (a.q.getLsbD 3) := rfl
theorem top_q2 : (lift a cur).topic .q2 = boolWord (a.q.getLsbD 2) := rfl
theorem top_q1 : (lift a cur).topic .q1 = boolWord (a.q.getLsbD 1) := rfl
theorem top_q0 : (lift a cur).topic .q0 = boolWord (a.q.getLsbD 0) := rfl
theorem top_d5 : (lift a cur).topic .d5 = boolWord (a.dd.getLsbD 5) := rfl
theorem top_d4 : (lift a cur).topic .d4 = boolWord (a.dd.getLsbD 4) := rfl
theorem top_d3 : (lift a cur).topic .d3 = boolWord (a.dd.getLsbD 3) := rfl
theorem top_d2 : (lift a cur).topic .d2 = boolWord (a.dd.getLsbD 2) := rfl
theorem top_d1 : (lift a cur).topic .d1 = boolWord (a.dd.getLsbD 1) := rfl
theorem top_d0 : (lift a cur).topic .d0 = boolWord (a.dd.getLsbD 0) := rfl
theorem top_jnr1 : (lift a cur).topic .jnr1 = a.jnr1.setWidth 32 := rfl
theorem top_jnr2 : (lift a cur).topic .jnr2 = a.jnr2.setWidth 32 := rfl
theorem top_jnr3 : (lift a cur).topic .jnr3 = 0 := rfl
theorem top_jnr4 : (lift a cur).topic .jnr4 = 0 := rfl
theorem top_control : (lift a cur).topic .control = a.control := rfl
theorem reg_ac : (lift a cur).regs .ac = a.ac.setWidth 32 := rfl
theorem reg_fc : (lift a cur).regs .fc = boolWord a.fc := rfl
theorem reg_fz : (lift a cur).regs .fz = boolWord a.fz := rfl
theorem reg_b : (lift a cur).regs .b = a.rb.setWidth 32 := rfl
theorem reg_c : (lift a cur).regs .c = a.rc.setWidth 32 := rfl
theorem reg_d : (lift a cur).regs .d = a.rd.setWidth 32 := rfl
theorem reg_e : (lift a cur).regs .e = a.re.setWidth 32 := rfl
theorem reg_h : (lift a cur).regs .h = a.rh.setWidth 32 := rfl
theorem reg_l : (lift a cur).regs .l = a.rl.setWidth 32 := rfl
theorem reg_op2 : (lift a cur).regs .op2 = a.op2.setWidth 32 := rfl
theorem reg_pch : (lift a cur).regs .pch = a.pch.setWidth 32 := rfl
theorem reg_pcl : (lift a cur).regs .pcl = a.pcl.setWidth 32 := rfl
theorem reg_pc : (lift a cur).regs .pc = a.pc.setWidth 32 := rfl
theorem reg_sp : (lift a cur).regs .sp = a.sp.setWidth 32 := rfl
theorem reg_ri : (lift a cur).regs .ri = a.ri.setWidth 32 := rfl
end lifted

/-! ## Values -/

theorem toInt_8 (x : BitVec 8) : toInt (x.setWidth 32) = Prog.pure (x.setWidth 32) := by
  have : (x.setWidth 32).msb = false := by
    simp [BitVec.msb_setWidth, BitVec.getLsbD_of_ge]
  simp [toInt, wordToInt, this]

theorem toInt_16 (x : BitVec 16) : toInt (x.setWidth 32) = Prog.pure (x.setWidth 32) := by
  have : (x.setWidth 32).msb = false := by
    simp [BitVec.msb_setWidth, BitVec.getLsbD_of_ge]
  simp [toInt, wordToInt, this]

theorem toInt_2 (x : BitVec 2) : toInt (x.setWidth 32) = Prog.pure (x.setWidth 32) := by
  have : (x.setWidth 32).msb = false := by
    simp [BitVec.msb_setWidth, BitVec.getLsbD_of_ge]
  simp [toInt, wordToInt, this]

theorem toInt_bool (x : Bool) : toInt (boolWord x) = Prog.pure (boolWord x) := by
  cases x <;> rfl

theorem usedBits_8 (x : BitVec 8) : ¬ usedBits (x.setWidth 32) > 8 := by
  have := (usedBits_le (x.setWidth 32) 8).2 (by
    simp only [BitVec.toNat_setWidth]; omega)
  omega

theorem ne_neg_one_16 (x : BitVec 16) : x.setWidth 32 ≠ (-1 : CInt) := by
  intro h
  have := congrArg BitVec.toNat h
  simp only [BitVec.toNat_setWidth] at this
  have h2 : (-1 : CInt).toNat = 4294967295 := rfl
  rw [h2] at this
  omega

theorem toInt_sel2 (b0 b1 : Bool) : toInt (selWord [b0, b1]) =
    Prog.pure (if b1 then if b0 then 3 else 2 else if b0 then 1 else 0) := by
  cases b0 <;> cases b1 <;> rfl

theorem toInt_sel3 (b0 b1 b2 : Bool) : toInt (selWord [b0, b1, b2]) =
    Prog.pure (if b2 then if b1 then if b0 then 7 else 6 else if b0 then 5 else 4
      else if b1 then if b0 then 3 else 2 else if b0 then 1 else 0) := by
  cases b0 <;> cases b1 <;> cases b2 <;> rfl

theorem toInt_ofNat_16 (x : BitVec 16) : (x.setWidth 32).toInt = x.toNat := by
  rw [BitVec.toInt_eq_toNat_of_lt] <;> simp only [BitVec.toNat_setWidth] <;> omega

theorem cAdd_16 (x : BitVec 16) : cAdd (x.setWidth 32) 1 = Prog.pure (x.setWidth 32 + 1) := by
  unfold cAdd
  rw [if_pos]
  rw [toInt_ofNat_16]
  have : (1 : CInt).toInt = 1 := rfl
  omega

theorem cSub_16 (x : BitVec 16) : cSub (x.setWidth 32) 1 = Prog.pure (x.setWidth 32 - 1) := by
  unfold cSub
  rw [if_pos]
  rw [toInt_ofNat_16]
  have : (1 : CInt).toInt = 1 := rfl
  omega

theorem getValueByOffset_16 (x : BitVec 16) : getValueByOffset (x.setWidth 32) = some x := by
  unfold getValueByOffset
  rw [toInt_ofNat_16, if_neg (by omega)]
  congr 1
  apply BitVec.eq_of_toNat_eq
  simp only [BitVec.toNat_setWidth]
  omega

theorem isMemValueValid_8 (x : BitVec 8) : isMemValueValid (x.setWidth 32) = true := by
  unfold isMemValueValid
  rw [BitVec.toInt_eq_toNat_of_lt] <;> simp only [BitVec.toNat_setWidth]
  · simp; omega
  · omega

theorem getLsbD_copyBits (dst : W) (o : Nat) (src : W) (so n j : Nat) (h : o + n ≤ 32) :
    (copyBits dst o src so n).getLsbD j =
      if o ≤ j ∧ j < o + n then src.getLsbD (so + (j - o)) else dst.getLsbD j := by
  induction n with
  | zero => simp only [copyBits]; rw [if_neg (by omega)]
  | succ n ih =>
    simp only [copyBits]
    rw [getLsbD_setBit _ _ _ _ (by omega), ih (by omega)]
    by_cases e : j = o + n
    · subst e
      rw [if_pos rfl, if_pos (by omega)]
      congr 1; omega
    · rw [if_neg e]
      by_cases e2 : o ≤ j ∧ j < o + n
      · rw [if_pos e2, if_pos (by omega)]
      · rw [if_neg e2, if_neg (by omega)]

theorem getLsbD_clearBits (w : W) (l n j : Nat) (h : l + n ≤ 32) :
    (clearBits w l n).getLsbD j = if l ≤ j ∧ j < l + n then false else w.getLsbD j := by
  induction n generalizing w with
  | zero => simp only [clearBits]; rw [if_neg (by omega)]
  | succ n ih =>
    simp only [clearBits]
    rw [ih _ (by omega), getLsbD_setBit _ _ _ _ (by omega)]
    by_cases e : j = l + n
    · subst e
      rw [if_pos rfl, ite_self, if_pos (by omega)]
    · rw [if_neg e]
      by_cases e2 : l ≤ j ∧ j < l + n
      · rw [if_pos e2, if_pos (by omega)]
      · rw [if_neg e2, if_neg (by omega)]

theorem copy_hl (h l : BitVec 8) :
    copyBits (copyBits 0 0 (l.setWidth 32) 0 8) 8 (h.setWidth 32) 0 8 = (h ++ l).setWidth 32 := by
  apply BitVec.eq_of_getLsbD_eq
  intro i hi
  rw [getLsbD_copyBits _ _ _ _ _ _ (by omega), getLsbD_copyBits _ _ _ _ _ _ (by omega)]
  simp only [BitVec.getLsbD_setWidth, BitVec.getLsbD_append]
  by_cases h1 : i < 8
  · simp [h1, hi, show ¬ 8 ≤ i by omega]
  · by_cases h2 : i < 16
    · simp [h1, hi, show 8 ≤ i by omega, h2, show i - 8 < 32 by omega]
    · simp [h1, hi, h2, BitVec.getLsbD_of_ge h (i - 8) (by omega)]

theorem copy_lo (x : BitVec 8) (p : BitVec 16) :
    copyBits (x.setWidth 32) 0 (p.setWidth 32) 0 8 = (A.lo p).setWidth 32 := by
  apply BitVec.eq_of_getLsbD_eq
  intro i hi
  rw [getLsbD_copyBits _ _ _ _ _ _ (by omega)]
  simp only [BitVec.getLsbD_setWidth, A.lo, BitVec.getLsbD_extractLsb']
  by_cases h1 : i < 8
  · simp [h1, hi]
  · simp [h1, hi, BitVec.getLsbD_of_ge x i (by omega)]

theorem copy_hi (x : BitVec 8) (p : BitVec 16) :
    copyBits (x.setWidth 32) 0 (p.setWidth 32) 8 8 = (A.hi p).setWidth 32 := by
  apply BitVec.eq_of_getLsbD_eq
  intro i hi
  rw [getLsbD_copyBits _ _ _ _ _ _ (by omega)]
  simp only [BitVec.getLsbD_setWidth, A.hi, BitVec.getLsbD_extractLsb']
  by_cases h1 : i < 8
  · simp [h1, hi, show 8 + i < 32 by omega]
  · simp [h1, hi, BitVec.getLsbD_of_ge x i (by omega)]

theorem copy_pch (x : BitVec 8) (p : BitVec 16) :
    copyBits (p.setWidth 32) 8 (x.setWidth 32) 0 8 = (x ++ A.lo p).setWidth 32 := by
  apply BitVec.eq_of_getLsbD_eq
  intro i hi
  rw [getLsbD_copyBits _ _ _ _ _ _ (by omega)]
  simp only [BitVec.getLsbD_setWidth, A.lo, BitVec.getLsbD_extractLsb', BitVec.getLsbD_append]
  by_cases h1 : i < 8
  · simp [h1, hi, show ¬ 8 ≤ i by omega]
  · by_cases h2 : i < 16
    · simp [h1, hi, show 8 ≤ i by omega, h2, show i - 8 < 32 by omega]
    · simp [h1, hi, h2, BitVec.getLsbD_of_ge x (i - 8) (by omega),
        BitVec.getLsbD_of_ge p i (by omega)]

theorem copy_pcl (x : BitVec 8) (p : BitVec 16) :
    copyBits (p.setWidth 32) 0 (x.setWidth 32) 0 8 = (A.hi p ++ x).setWidth 32 := by
  apply BitVec.eq_of_getLsbD_eq
  intro i hi
  rw [getLsbD_copyBits _ _ _ _ _ _ (by omega)]
  simp only [BitVec.getLsbD_setWidth, A.hi, BitVec.getLsbD_extractLsb', BitVec.getLsbD_append]
  by_cases h1 : i < 8
  · simp [h1, hi]
  · by_cases h2 : i < 16
    · simp [h1, hi, show i - 8 < 8 by omega, show 8 + (i - 8) = i by omega]
    · simp [h1, hi, show ¬ i - 8 < 8 by omega, BitVec.getLsbD_of_ge p i (by omega)]

theorem widen_16 (x : W) (h : x.toNat < 2 ^ 16) : (x.setWidth 16).setWidth 32 = x := by
  apply BitVec.eq_of_toNat_eq
  simp only [BitVec.toNat_setWidth]
  omega

theorem narrow_16 (x : BitVec 16) : (x.setWidth 32 : W).setWidth 16 = x := by
  apply BitVec.eq_of_toNat_eq
  simp only [BitVec.toNat_setWidth]
  omega

theorem narrow_8 (x : BitVec 8) : (x.setWidth 32 : W).setWidth 8 = x := by
  apply BitVec.eq_of_toNat_eq
  simp only [BitVec.toNat_setWidth]
  omega

theorem sel_jnr1 (x : BitVec 8) :
    selWord [(x.setWidth 32 : W).getLsbD 0, (x.setWidth 32 : W).getLsbD 1] =
      (x.extractLsb' 0 2).setWidth 32 := by
  have : ∀ x : BitVec 8, selWord [(x.setWidth 32 : W).getLsbD 0, (x.setWidth 32 : W).getLsbD 1] =
      (x.extractLsb' 0 2).setWidth 32 := by decide +kernel
  exact this x

theorem sel_jnr2 (x : BitVec 8) :
    selWord [(x.setWidth 32 : W).getLsbD 2, (x.setWidth 32 : W).getLsbD 3] =
      (x.extractLsb' 2 2).setWidth 32 := by
  have : ∀ x : BitVec 8, selWord [(x.setWidth 32 : W).getLsbD 2, (x.setWidth 32 : W).getLsbD 3] =
      (x.extractLsb' 2 2).setWidth 32 := by decide +kernel
  exact this x

theorem clear_8 (r : W) : (if decide (usedBits r > 8) = true then toInt (clearBits r 8 24)
      else pure r) = Prog.pure ((r.setWidth 8).setWidth 32) := by
  have e : clearBits r 8 24 = (r.setWidth 8).setWidth 32 := by
    apply BitVec.eq_of_getLsbD_eq
    intro i hi
    rw [getLsbD_clearBits _ _ _ _ (by omega)]
    simp only [BitVec.getLsbD_setWidth]
    by_cases h : i < 8
    · simp [h, hi, show ¬ 8 ≤ i by omega]
    · simp [h, hi, show 8 ≤ i by omega]
  rw [e, toInt_8]
  by_cases h : usedBits r > 8
  · simp [h]
  · have h2 := (usedBits_le r 8).1 (by omega)
    have : (r.setWidth 8).setWidth 32 = r := by
      apply BitVec.eq_of_toNat_eq
      simp only [BitVec.toNat_setWidth]
      omega
    simp only [h, decide_false, Bool.false_eq_true, if_false, this]
    rfl

theorem zero_8 (x : BitVec 8) : decide ((x.setWidth 32 : W) = 0) = decide (x = 0) := by
  congr 1
  apply propext
  constructor
  · intro h
    apply BitVec.eq_of_toNat_eq
    have := congrArg BitVec.toNat h
    simp only [BitVec.toNat_setWidth] at this
    simp at this ⊢
    omega
  · rintro rfl; rfl

/-! ## Components -/

/-- Symbolic execution on a lifted state. -/
macro "run_simp" "[" ls:Lean.Parser.Tactic.simpLemma,* "]" : tactic => `(tactic|
  simp only [run_bind', run_upd, run_cur, run_nxt, run_pub, run_getReg, run_setReg, run_memGet,
    run_memSet, run_err, run_pure', run_ppure, run_ite, Option.bind_some, lift_setCur, lift_cur,
    lift_addLog, lift_mem, lift_setMem, lift_data, lift_dir1, lift_dir2, lift_pcOut, lift_spOut,
    lift_hlOut, lift_fffcOut, lift_acOut, lift_op2Out, lift_aluFc, lift_aluFz, lift_selreg,
    lift_mx7, lift_mx0, lift_flagsOut, lift_riOut, lift_joiner, lift_jnr1, lift_jnr2,
    lift_control, lift_set_ac, lift_set_b, lift_set_c, lift_set_d, lift_set_e, lift_set_h,
    lift_set_l, lift_set_op2, lift_set_pch, lift_set_pcl, lift_set_ri, lift_set_pc, lift_set_sp,
    lift_set_fc, lift_set_fz, upd_same, upd_apply, reduceCtorEq, Slot.topic, toInt_8, toInt_16,
    toInt_2, toInt_bool, toInt_sel2, toInt_sel3, usedBits_8, and_false, false_and, and_true,
    true_and, not_true, not_false_iff, if_true, if_false, reduceIte, Bool.false_eq_true, ite_self,
    Nat.reduceEqDiff, 
    top_data, top_dir1, top_dir2, top_pcOut, top_spOut, top_hlOut, top_fffcOut,
    top_acummOut, top_op2Out, top_aluFc, top_aluFz, top_selreg, top_mxfld7, top_mxfld0,
    top_flagsOut, top_riOut, top_joiner, top_q5, top_q4, top_q3, top_q2, top_q1, top_q0,
    top_d5, top_d4, top_d3, top_d2, top_d1, top_d0, top_jnr1, top_jnr2, top_jnr3,
    top_jnr4, top_control, reg_ac, reg_fc, reg_fz, reg_b, reg_c, reg_d, reg_e, reg_h,
    reg_l, reg_op2, reg_pch, reg_pcl, reg_pc, reg_sp, reg_ri, $ls,*])

theorem impl_addsub : Impl runAddsub A.addsub := by
  intro a cur
  unfold runAddsub A.addsub A.cb
  cases h0 : a.control.getLsbD CB.id0 <;> cases h1 : a.control.getLsbD CB.id1 <;>
  run_simp [h0, h1, cAdd_16, cSub_16, BitVec.reduceEq] <;> exact ⟨_, rfl⟩

theorem impl_mxdir : Impl runMxdir A.mxdir := by
  intro a cur
  unfold runMxdir A.mxdir A.cb
  cases h0 : a.control.getLsbD CB.seldir0 <;> cases h1 : a.control.getLsbD CB.seldir1 <;>
  run_simp [h0, h1, run4x1mx, BitVec.reduceToNat, ne_neg_one_16] <;>
  exact ⟨_, rfl⟩

theorem impl_mxreg : Impl runMxreg A.mxreg := by
  intro a cur
  unfold runMxreg A.mxreg A.cb
  cases h0 : a.control.getLsbD CB.mxreg0 <;> cases h1 : a.control.getLsbD CB.mxreg1 <;>
  run_simp [h0, h1, run4x1mx, BitVec.reduceToNat, lift_selreg2, lift_selreg3] <;> exact ⟨_, rfl⟩

theorem impl_mem : Impl runMem A.memStep := by
  intro a cur
  unfold runMem A.memStep A.cb
  cases h0 : a.control.getLsbD CB.le <;> cases h1 : a.control.getLsbD CB.membus <;>
  run_simp [h0, h1, getValueByOffset_16, setMemValue, isMemValueValid_8] <;> exact ⟨_, rfl⟩

theorem impl_fffc : Impl runFffc A.fffc := by
  intro a cur
  have e : (0xFFFC : W) = (0xFFFC : BitVec 16).setWidth 32 := rfl
  unfold runFffc A.fffc
  rw [e]
  run_simp []
  exact ⟨_, rfl⟩

theorem impl_acumm : Impl runAcumm A.acumm := by
  intro a cur
  unfold runAcumm A.acumm A.cb
  cases h0 : a.control.getLsbD CB.accar <;> cases h1 : a.control.getLsbD CB.acbus <;>
  run_simp [h0, h1] <;> exact ⟨_, rfl⟩

theorem impl_op2 : Impl runOp2 A.op2Step := by
  intro a cur
  unfold runOp2 A.op2Step A.cb
  cases h0 : a.control.getLsbD CB.op2car <;> run_simp [h0] <;> exact ⟨_, rfl⟩

theorem impl_hl : Impl runHl A.hl := by
  intro a cur
  unfold runHl A.hl A.cb
  cases h0 : a.control.getLsbD CB.hcar <;> cases h1 : a.control.getLsbD CB.lcar <;>
  run_simp [h0, h1, copy_hl] <;> exact ⟨_, rfl⟩

theorem impl_sp : Impl runSp A.spStep := by
  intro a cur
  unfold runSp A.spStep A.cb
  cases h0 : a.control.getLsbD CB.spcar
  · run_simp [h0]; exact ⟨_, rfl⟩
  · by_cases h1 : a.dir1.toNat < 2 ^ 16
    · obtain ⟨x, hx⟩ : ∃ x : BitVec 16, a.dir1 = x.setWidth 32 := ⟨_, (widen_16 _ h1).symm⟩
      have h2 : ¬ usedBits a.dir1 > 16 := by have := (usedBits_le a.dir1 16).2 h1; omega
      rw [hx] at h1 h2
      run_simp [h0, h1, h2, hx, narrow_16]; exact ⟨_, rfl⟩
    · have h2 : usedBits a.dir1 > 16 := by
        rcases Nat.lt_or_ge 16 (usedBits a.dir1) with h | h
        · exact h
        · exact absurd ((usedBits_le a.dir1 16).1 h) h1
      run_simp [h0, h1, h2]; exact ⟨_, rfl⟩

theorem impl_ri : ∀ a cur, ∃ cur', T.run runCuRi (lift a cur) =
    T.run runCuSync (lift a.riStep cur') := by
  intro a cur
  unfold runCuRi A.riStep A.cb
  cases h0 : a.control.getLsbD CB.ricar <;> run_simp [h0] <;> exact ⟨_, rfl⟩

theorem impl_mxfldx : Impl runMxfldx A.mxfldx := by
  intro a cur
  have e : ∀ b : Bool, (if b = true then (1 : CInt) else 0) = boolWord b := fun _ => rfl
  have b7 : (a.data.setWidth 32 : W).getLsbD 7 = a.data.getLsbD 7 := by
    simp
  have b0 : (a.data.setWidth 32 : W).getLsbD 0 = a.data.getLsbD 0 := by
    simp
  have t1 : toInt (bit0 true) = Prog.pure 1 := rfl
  have t0 : toInt (bit0 false) = Prog.pure 0 := rfl
  unfold runMxfldx runMxfld7 runMxfld0 cllGetSelfl A.mxfldx A.cb
  cases h0 : a.control.getLsbD CB.selfl <;>
  run_simp [h0, b7, b0, e, t0, t1, run2x1mx, BitVec.reduceToNat] <;> exact ⟨_, rfl⟩

theorem impl_flags : Impl runFlags A.flags := by
  intro a cur
  unfold runFlags A.flags A.cb
  cases h0 : a.control.getLsbD CB.flcar <;> run_simp [h0] <;> exact ⟨_, rfl⟩

theorem impl_flagsinta : Impl runFlagsinta A.flagsinta := by
  intro a cur
  have e : ∀ c z, setBit (setBit (setBit 0 0 ((getFlags (boolWord c) (boolWord z)).getLsbD 0)) 7
      ((getFlags (boolWord c) (boolWord z)).getLsbD 1)) 6 false
      = (A.flagByte c z).setWidth 32 := by
    intro c z; cases c <;> cases z <;> rfl
  unfold runFlagsinta A.flagsinta A.cb
  cases h0 : a.control.getLsbD CB.flbus <;> run_simp [h0, e] <;> exact ⟨_, rfl⟩

theorem impl_seqJnr : Impl runSeqJnr A.seqJnr := by
  intro a cur
  have e : ∀ c z, setBit (setBit 0 0 ((getFlags (boolWord c) (boolWord z)).getLsbD 1)) 1
      ((getFlags (boolWord c) (boolWord z)).getLsbD 0) = setBit (setBit 0 0 c) 1 z := by
    intro c z; cases c <;> cases z <;> rfl
  unfold runSeqJnr A.seqJnr
  run_simp [e]
  exact ⟨_, rfl⟩

theorem impl_mxregJnr : Impl runMxregJnr A.mxregJnr := by
  intro a cur
  unfold runMxregJnr A.mxregJnr
  run_simp [sel_jnr1, sel_jnr2]
  exact ⟨_, rfl⟩

theorem impl_greg : Impl runGreg A.gregStep := by
  intro a cur
  have h : ∀ x : BitVec 2,
      (x = 0 ∧ getGregister (x.setWidth 32) = some .b) ∨
      (¬ x = 0 ∧ x = 1 ∧ getGregister (x.setWidth 32) = some .c) ∨
      (¬ x = 0 ∧ ¬ x = 1 ∧ x = 2 ∧ getGregister (x.setWidth 32) = some .d) ∨
      (¬ x = 0 ∧ ¬ x = 1 ∧ ¬ x = 2 ∧ getGregister (x.setWidth 32) = some .e) := by decide
  unfold runGreg A.gregStep A.setGreg A.greg A.cb
  rcases h a.selreg with ⟨g0, hg⟩ | ⟨g0, g1, hg⟩ | ⟨g0, g1, g2, hg⟩ | ⟨g0, g1, g2, hg⟩
  · cases h0 : a.control.getLsbD CB.regcar <;> cases h1 : a.control.getLsbD CB.regbus <;>
      run_simp [h0, h1, hg, if_pos g0] <;> exact ⟨_, rfl⟩
  · cases h0 : a.control.getLsbD CB.regcar <;> cases h1 : a.control.getLsbD CB.regbus <;>
      run_simp [h0, h1, hg, if_neg g0, if_pos g1] <;> exact ⟨_, rfl⟩
  · cases h0 : a.control.getLsbD CB.regcar <;> cases h1 : a.control.getLsbD CB.regbus <;>
      run_simp [h0, h1, hg, if_neg g0, if_neg g1, if_pos g2] <;> exact ⟨_, rfl⟩
  · cases h0 : a.control.getLsbD CB.regcar <;> cases h1 : a.control.getLsbD CB.regbus <;>
      run_simp [h0, h1, hg, if_neg g0, if_neg g1, if_neg g2] <;> exact ⟨_, rfl⟩

theorem decide_usedBits_8 (r : W) : decide (usedBits r > 8) = decide (256 ≤ r.toNat) := by
  have h := usedBits_le r 8
  by_cases h1 : r.toNat < 2 ^ 8
  · have := h.2 h1
    rw [decide_eq_false (by omega), decide_eq_false (by omega)]
  · have : ¬ usedBits r ≤ 8 := fun c => h1 (h.1 c)
    rw [decide_eq_true (by omega), decide_eq_true (by omega)]

theorem toInt_of_8 (x : BitVec 8) : (x.setWidth 32).toInt = x.toNat := by
  rw [BitVec.toInt_eq_toNat_of_lt] <;> simp only [BitVec.toNat_setWidth] <;> omega

theorem cAdd_8 (x y : BitVec 8) :
    cAdd (x.setWidth 32) (y.setWidth 32) = Prog.pure (x.setWidth 32 + y.setWidth 32) := by
  unfold cAdd
  rw [if_pos]
  rw [toInt_of_8, toInt_of_8]
  omega

theorem cAdd1_8 (x : BitVec 8) :
    cAdd (x.setWidth 32) 1 = Prog.pure (x.setWidth 32 + 1) := by
  unfold cAdd
  rw [if_pos]
  rw [toInt_of_8]
  have : (1 : CInt).toInt = 1 := rfl
  omega

theorem cSub_8 (x y : BitVec 8) :
    cSub (x.setWidth 32) (y.setWidth 32) = Prog.pure (x.setWidth 32 - y.setWidth 32) := by
  unfold cSub
  rw [if_pos]
  rw [toInt_of_8, toInt_of_8]
  omega

theorem aluSwitch_typed (s2 s1 s0 : Bool) (x y : BitVec 8) : ∃ r k,
    aluSwitch (if s2 then if s1 then if s0 then 7 else 6 else if s0 then 5 else 4
      else if s1 then if s0 then 3 else 2 else if s0 then 1 else 0)
      (x.setWidth 32) (y.setWidth 32) = Prog.pure (r, k) ∧
    r.setWidth 8 = A.aluRes s2 s1 s0 x y ∧
    (decide (usedBits r > 8) && k) = A.aluCarry s2 s1 s0 x y := by
  have hx := x.isLt
  have hy := y.isLt
  cases s2 <;> cases s1 <;> cases s0 <;>
    simp only [aluSwitch, reduceIte, Bool.false_eq_true, BitVec.reduceEq, cAdd_8, cSub_8, cAdd1_8,
      A.aluRes, A.aluCarry, decide_usedBits_8]
  · refine ⟨_, _, rfl, ?_, ?_⟩
    · simp [BitVec.setWidth_add]
    · simp [BitVec.toNat_add]; omega
  · refine ⟨_, _, rfl, ?_, ?_⟩
    · apply BitVec.eq_of_toNat_eq
      simp [BitVec.toNat_sub]; omega
    · simp [BitVec.toNat_sub]; omega
  · exact ⟨_, _, rfl, by simp, by simp⟩
  · exact ⟨_, _, rfl, by simp, by simp⟩
  · exact ⟨_, _, rfl, by simp, by simp⟩
  · exact ⟨_, _, rfl, by simp, by simp⟩
  · exact ⟨_, _, rfl, by simp, by simp⟩
  · refine ⟨_, _, rfl, ?_, by simp⟩
    apply BitVec.eq_of_toNat_eq
    simp [BitVec.toNat_add]

theorem impl_alu : Impl runAlu A.alu := by
  intro a cur
  obtain ⟨r, k, e1, e2, e3⟩ := aluSwitch_typed (a.control.getLsbD CB.selalu2)
    (a.control.getLsbD CB.selalu1) (a.control.getLsbD CB.selalu0) a.acOut a.op2Out
  unfold runAlu A.alu A.cb
  run_simp [e1, e3]
  have c := clear_8 r
  rw [e2] at c
  by_cases ho : usedBits r > 8
  · simp only [ho, decide_true, if_true] at c
    cases h3 : a.control.getLsbD CB.alubus <;> run_simp [ho, decide_true, c, zero_8] <;>
      exact ⟨_, rfl⟩
  · have hr : r = (A.aluRes (a.control.getLsbD CB.selalu2) (a.control.getLsbD CB.selalu1)
        (a.control.getLsbD CB.selalu0) a.acOut a.op2Out).setWidth 32 := by
      simp only [ho, decide_false, Bool.false_eq_true, if_false] at c
      injection c
    cases h3 : a.control.getLsbD CB.alubus <;>
      run_simp [ho, decide_false, Bool.false_eq_true, if_false] <;> rw [hr] <;>
      run_simp [zero_8] <;> exact ⟨_, rfl⟩

theorem impl_pcLoad : ∀ a cur, cur .pcDir = a.dir1 →
    ∃ cur', T.run (runPcLoad a.control) (lift a cur) = some ((), lift (
      if a.cb CB.pccar then
        if a.dir1.toNat < 2 ^ 16 then
          let v := a.dir1.setWidth 16
          { a with pc := v, pcl := A.lo v, pch := A.hi v, pcOut := v }
        else { a with log := .pcOverflow :: a.log }
      else { a with pcOut := a.pc }) cur') := by
  intro a cur hd
  unfold runPcLoad A.cb
  cases h0 : a.control.getLsbD CB.pccar
  · run_simp [h0]; exact ⟨_, rfl⟩
  · by_cases h1 : a.dir1.toNat < 2 ^ 16
    · obtain ⟨x, hx⟩ : ∃ x : BitVec 16, a.dir1 = x.setWidth 32 := ⟨_, (widen_16 _ h1).symm⟩
      have h2 : ¬ usedBits a.dir1 > 16 := by have := (usedBits_le a.dir1 16).2 h1; omega
      rw [hx] at h1 h2
      run_simp [h0, h1, h2, hd, hx, narrow_16, copy_lo, copy_hi]; exact ⟨_, rfl⟩
    · have h2 : usedBits a.dir1 > 16 := by
        rcases Nat.lt_or_ge 16 (usedBits a.dir1) with h | h
        · exact h
        · exact absurd ((usedBits_le a.dir1 16).1 h) h1
      run_simp [h0, h1, h2, hd]; exact ⟨_, rfl⟩

theorem impl_pc : Impl runPc A.pcStep := by
  intro a cur
  unfold runPc runPcLow runPcMix A.pcStep A.cb
  cases h0 : a.control.getLsbD CB.pchcar <;> cases h1 : a.control.getLsbD CB.pchbus <;>
  cases h2 : a.control.getLsbD CB.pclcar <;> cases h3 : a.control.getLsbD CB.pclbus <;>
  run_simp [h0, h1, h2, h3, copy_pch, copy_pcl] <;>
  exact impl_pcLoad _ _ rfl

theorem impl_async : Impl runAsync A.async :=
  impl_addsub.seq (impl_mxdir.seq (impl_mxreg.seq (impl_mem.seq (impl_alu.seq
    (impl_mem.seq impl_alu)))))

theorem Impl.sync {p : Prog Unit} {f : A → A} (h : Impl p f) :
    Impl (runSync p) (fun a => (f a).async) := h.seq impl_async

theorem impl_acummOrFlags : Impl runAcummOrFlags A.acummOrFlags :=
  (impl_acumm.seq (impl_mxfldx.seq (impl_flags.seq impl_flagsinta))).seq
    (impl_acumm.seq (impl_mxfldx.seq (impl_flags.seq impl_flagsinta)))

theorem impl_cuSync : Impl runCuSync A.cuSync :=
  impl_fffc.sync.seq (impl_acummOrFlags.seq (impl_greg.sync.seq (impl_op2.sync.seq
    (impl_hl.sync.seq (impl_sp.sync.seq impl_pc.sync)))))

theorem impl_cuRi : Impl runCuRi (fun a => a.riStep.cuSync) := by
  intro a cur
  obtain ⟨c1, h1⟩ := impl_ri a cur
  obtain ⟨c2, h2⟩ := impl_cuSync a.riStep c1
  exact ⟨c2, h1.trans h2⟩

theorem impl_ucycle : Impl (do runAsync; runCuRi) A.ucycle := impl_async.seq impl_cuRi

/-! ## Control unit -/

theorem bit0_boolWord (b : Bool) : bit0 b = boolWord b := by cases b <;> rfl

theorem getLsbD_boolWord (b : Bool) : (boolWord b).getLsbD 0 = b := by cases b <;> rfl

theorem lift_ds (a : A) (cur : Slot → W) (b5 b4 b3 b2 b1 b0 : Bool) :
    ((((((lift a cur).setTopic .d5 (boolWord b5)).setTopic .d4 (boolWord b4)).setTopic .d3
      (boolWord b3)).setTopic .d2 (boolWord b2)).setTopic .d1 (boolWord b1)).setTopic .d0
      (boolWord b0) = lift { a with dd := A.bits6 b5 b4 b3 b2 b1 b0 } cur := by
  apply T.ext' <;> try rfl
  funext x
  have h : ∀ b5 b4 b3 b2 b1 b0 : Bool, (A.bits6 b5 b4 b3 b2 b1 b0).getLsbD 5 = b5 ∧
    (A.bits6 b5 b4 b3 b2 b1 b0).getLsbD 4 = b4 ∧ (A.bits6 b5 b4 b3 b2 b1 b0).getLsbD 3 = b3 ∧
    (A.bits6 b5 b4 b3 b2 b1 b0).getLsbD 2 = b2 ∧ (A.bits6 b5 b4 b3 b2 b1 b0).getLsbD 1 = b1 ∧
    (A.bits6 b5 b4 b3 b2 b1 b0).getLsbD 0 = b0 := by decide
  obtain ⟨h5, h4, h3, h2, h1, h0⟩ := h b5 b4 b3 b2 b1 b0
  cases x <;> simp only [lift, T.setTopic, upd_apply, reduceCtorEq, if_true, if_false, h5, h4, h3,
    h2, h1, h0]

theorem impl_seq : Impl runSeq A.seq := by
  intro a cur
  unfold runSeq A.seq A.seqNext A.rowNext
  run_simp [getLsbD_boolWord, bit0_boolWord, lift_ds]
  exact ⟨_, rfl⟩

theorem impl_dxflipflop : Impl runDxflipflop A.dxflipflop := by
  intro a cur
  unfold runDxflipflop A.dxflipflop
  simp only [run_bind', run_upd, run_cur, run_pub, Option.bind_some]
  refine ⟨upd (upd (upd (upd (upd (upd cur .ffD5 (boolWord (a.dd.getLsbD 5)))
    .ffD4 (boolWord (a.dd.getLsbD 4))) .ffD3 (boolWord (a.dd.getLsbD 3)))
    .ffD2 (boolWord (a.dd.getLsbD 2))) .ffD1 (boolWord (a.dd.getLsbD 1)))
    .ffD0 (boolWord (a.dd.getLsbD 0)), ?_⟩
  congr 2
  apply T.ext' <;> try rfl
  funext x
  cases x <;> rfl

theorem sel_q (q : BitVec 6) : toInt (selWord [(boolWord (q.getLsbD 0)).getLsbD 0,
    (boolWord (q.getLsbD 1)).getLsbD 0, (boolWord (q.getLsbD 2)).getLsbD 0,
    (boolWord (q.getLsbD 3)).getLsbD 0, (boolWord (q.getLsbD 4)).getLsbD 0,
    (boolWord (q.getLsbD 5)).getLsbD 0]) = Prog.pure (q.setWidth 32) := by
  have h : ∀ q : BitVec 6, wordToInt (selWord [(boolWord (q.getLsbD 0)).getLsbD 0,
    (boolWord (q.getLsbD 1)).getLsbD 0, (boolWord (q.getLsbD 2)).getLsbD 0,
    (boolWord (q.getLsbD 3)).getLsbD 0, (boolWord (q.getLsbD 4)).getLsbD 0,
    (boolWord (q.getLsbD 5)).getLsbD 0]) = some (q.setWidth 32) := by decide +kernel
  unfold toInt
  rw [h q]

theorem rom_length : ROM.length = 45 := by decide +kernel

theorem run_rom (a : A) (cur : Slot → W) (h : a.q.toNat < 45) :
    ∃ cur', T.run runRom (lift a cur) = some ((), lift a.rom cur') := by
  have h1 : ROM[a.q.toNat]? = some (ROM[a.q.toNat]'(by rw [rom_length]; exact h)) :=
    List.getElem?_eq_getElem _
  have h2 : ¬ ((a.q.setWidth 32 : CInt).toInt < 0 ∨ (a.q.setWidth 32 : CInt).toInt > 45) := by
    rw [BitVec.toInt_eq_toNat_of_lt] <;> simp only [BitVec.toNat_setWidth] <;> omega
  have h3 : (a.q.setWidth 32 : CInt).toNat = a.q.toNat := by
    simp only [BitVec.toNat_setWidth]; omega
  unfold runRom A.rom A.romOf
  run_simp [sel_q, h2, h3, h1, Option.getD_some]
  exact ⟨_, rfl⟩

/-- `run_cu(1)` on a microstate inside the control store. -/
theorem run_cuHigh (a : A) (cur : Slot → W) (h : a.q.toNat < 45) :
    ∃ cur', T.run (runCu true) (lift a cur) = some ((), lift a.cuHigh cur') := by
  obtain ⟨c1, h1⟩ := (impl_seqJnr.seq (impl_mxregJnr.seq impl_seq)) a cur
  obtain ⟨c2, h2⟩ := run_rom a.seqJnr.mxregJnr.seq c1 h
  obtain ⟨c3, h3⟩ := impl_ucycle a.seqJnr.mxregJnr.seq.rom c2
  refine ⟨c3, ?_⟩
  have e : T.run (runCu true) (lift a cur) =
      (T.run (do runSeqJnr; runMxregJnr; runSeq) (lift a cur)).bind fun r =>
        (T.run runRom r.2).bind fun r => T.run (do runAsync; runCuRi) r.2 := by
    simp only [runCu, if_true, run_bind', Option.bind_assoc]
  rw [e, h1, Option.bind_some, h2, Option.bind_some, h3]
  rfl

theorem run_cuLow (a : A) (cur : Slot → W) :
    ∃ cur', T.run (runCu false) (lift a cur) = some ((), lift a.dxflipflop cur') :=
  impl_dxflipflop a cur

theorem impl_resetControl : Impl resetControl A.resetCtl := by
  intro a cur
  refine ⟨cur, ?_⟩
  unfold resetControl A.resetCtl
  simp only [run_bind', run_pub, Option.bind_some]
  congr 2
  apply T.ext' <;> try rfl
  funext x
  cases x <;> first | rfl | simp [lift, T.setTopic, boolWord]

end Mpp
