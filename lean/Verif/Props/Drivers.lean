import Verif.Drivers
import Verif.Loader
/-!
# One driver of the data bus (C97)
-/
namespace Mpp

/-! ## Messages of a sequence -/

theorem published_bind {α β} (p : Prog α) (f : α → Prog β) (h : H) :
    (p >>= f).published h = p.published h ++
      (match H.run p h with
        | none => []
        | some r => (f r.1).published r.2) := by
  show (p.bind f).published h = _
  induction p generalizing h with
  | pure a => rfl
  | op o k ih =>
    simp only [Prog.bind, Prog.published, H.run, Prog.run, List.append_assoc]
    cases H.handle o h with
    | none => rfl
    | some r => simp only [ih, H.run, Option.bind_some]

/-- Where a component is run, its messages are a part of those of the whole. -/
theorem inside_published {α} {q : Prog Unit} {h1 : H} {p : Prog α} {h : H} (i : Inside q h1 p h) :
    ∃ pre post, p.published h = pre ++ (q.published h1 ++ post) ∧
      ∀ t, Rep h t → ∃ t', Rep h1 t' ∧ t'.topic = record t.topic pre := by
  induction i with
  | here f => exact ⟨[], _, published_bind q f h1, fun t r => ⟨t, r, rfl⟩⟩
  | @step o k h h' x e i ih =>
    obtain ⟨pre, post, e1, e2⟩ := ih
    refine ⟨o.message ++ pre, post, ?_, fun t r => ?_⟩
    · simp only [Prog.published, e, e1, List.append_assoc]
    · obtain ⟨t1, r1, g1⟩ := message_topic r e
      obtain ⟨t2, r2, g2⟩ := e2 t1 r1
      exact ⟨t2, r2, by rw [g2, g1, record_append]⟩

theorem Inside.left {α β} {q : Prog Unit} {h1 : H} {p : Prog α} {h : H} (i : Inside q h1 p h)
    (f : α → Prog β) : Inside q h1 (p >>= f) h := by
  induction i with
  | here g =>
    have : ((q >>= g) >>= f) = (q >>= fun x => g x >>= f) := by
      show (q.bind g).bind f = q.bind fun x => (g x).bind f
      generalize q = q
      induction q with
      | pure a => rfl
      | op o k ih => simp only [Prog.bind, ih]
    rw [this]
    exact .here _
  | step e i ih => exact .step e ih

theorem Inside.right {α β} {q : Prog Unit} {h1 : H} (p : Prog α) {f : α → Prog β} {h h' : H} {v : α}
    (e : H.run p h = some (v, h')) (i : Inside q h1 (f v) h') : Inside q h1 (p >>= f) h := by
  show Inside q h1 (p.bind f) h
  induction p generalizing h with
  | pure a => cases e; exact i
  | op o k ih =>
    have e : (H.handle o h).bind (fun x => H.run (k x.1) x.2) = some (v, h') := e
    cases ho : H.handle o h with
    | none => rw [ho] at e; cases e
    | some x => rw [ho] at e; exact .step ho (ih _ e)

/-! ## Programs that never publish on a bus -/

/-- `p` publishes nothing on `t`. -/
def Prog.Never {α} (t : Topic) : Prog α → Prop
  | .pure _ => True
  | .op (.pub t' _) k => t' ≠ t ∧ ∀ x, (k x).Never t
  | .op (.upd _) k => ∀ x, (k x).Never t
  | .op (.cur _) k => ∀ x, (k x).Never t
  | .op (.nxt _) k => ∀ x, (k x).Never t
  | .op (.getReg _) k => ∀ x, (k x).Never t
  | .op (.setReg _ _) k => ∀ x, (k x).Never t
  | .op (.memGet _) k => ∀ x, (k x).Never t
  | .op (.memSet _ _) k => ∀ x, (k x).Never t
  | .op (.err _) k => ∀ x, (k x).Never t
  | .op .ub _ => True

theorem never_published {α} {t : Topic} {p : Prog α} (n : p.Never t) (h : H) (w : W) :
    (t, w) ∉ p.published h := by
  induction p generalizing h with
  | pure a => exact List.not_mem_nil
  | op o k ih =>
    simp only [Prog.published, List.mem_append, not_or]
    cases o with
    | ub => exact ⟨List.not_mem_nil, List.not_mem_nil⟩
    | pub t' w' =>
      refine ⟨fun e => ?_, ?_⟩
      · simp only [Op.message, List.mem_singleton, Prod.mk.injEq] at e
        exact n.1 e.1.symm
      · split
        · exact List.not_mem_nil
        · exact ih _ (n.2 _) _
    | _ =>
      refine ⟨List.not_mem_nil, ?_⟩
      split
      · exact List.not_mem_nil
      · exact ih _ (n _) _

theorem never_bind {α β} {t : Topic} (p : Prog α) (f : α → Prog β) (hp : p.Never t)
    (hf : ∀ a, (f a).Never t) : (p >>= f).Never t := by
  show (p.bind f).Never t
  induction p with
  | pure a => exact hf a
  | op o k ih =>
    cases o with
    | ub => trivial
    | pub t' w => exact ⟨hp.1, fun x => ih x (hp.2 x)⟩
    | _ => exact fun x => ih x (hp x)

theorem never_ite {α} {t : Topic} {c : Prop} [Decidable c] {p q : Prog α} (hp : p.Never t)
    (hq : q.Never t) : (if c then p else q).Never t := by split <;> assumption

theorem never_toInt {t : Topic} (w : W) : (toInt w).Never t := by
  unfold toInt
  cases wordToInt w <;> trivial

theorem never_cAdd {t : Topic} (a b : CInt) : (cAdd a b).Never t := by unfold cAdd; split <;> trivial
theorem never_cSub {t : Topic} (a b : CInt) : (cSub a b).Never t := by unfold cSub; split <;> trivial

macro "never" : tactic => `(tactic| repeat' first
  | exact never_toInt _ | exact never_cAdd _ _ | exact never_cSub _ _
  | exact ⟨by decide, fun _ => trivial⟩ | exact fun _ => trivial | exact True.intro
  | (refine never_bind _ _ ?_ (fun _ => ?_)) | refine never_ite ?_ ?_ | split)

theorem never_setMem {t : Topic} (i v : CInt) : (setMemValue i v).Never t := by
  unfold setMemValue; never

theorem never_aluSwitch {t : Topic} (s a b : CInt) : (aluSwitch s a b).Never t := by
  unfold aluSwitch; never

/-- The components that are not connected to the data bus as outputs. -/
theorem never_data (c : Comp) (h : ∀ k ∈ driveBits, driver k ≠ some c) : c.prog.Never .data := by
  cases c
  case mem => exact absurd rfl (h CB.membus (by decide))
  case alu => exact absurd rfl (h CB.alubus (by decide))
  case acumm => exact absurd rfl (h CB.acbus (by decide))
  case greg => exact absurd rfl (h CB.regbus (by decide))
  case flagsinta => exact absurd rfl (h CB.flbus (by decide))
  case pc => exact absurd rfl (h CB.pchbus (by decide))
  case mxfldx =>
    show runMxfldx.Never _
    unfold runMxfldx runMxfld7 runMxfld0 cllGetSelfl
    never
  case addsub => show runAddsub.Never _; unfold runAddsub; never
  case mxdir => show runMxdir.Never _; unfold runMxdir; never
  case mxreg => show runMxreg.Never _; unfold runMxreg; never
  case fffc => show runFffc.Never _; unfold runFffc; never
  case flags => show runFlags.Never _; unfold runFlags; never
  case op2 => show runOp2.Never _; unfold runOp2; never
  case hl => show runHl.Never _; unfold runHl; never
  case sp => show runSp.Never _; unfold runSp; never
  case seqJnr => show runSeqJnr.Never _; unfold runSeqJnr; never
  case mxregJnr => show runMxregJnr.Never _; unfold runMxregJnr; never
  case seq => show runSeq.Never _; unfold runSeq; never
  case rom => show runRom.Never _; unfold runRom; never
  case dxflipflop => show runDxflipflop.Never _; unfold runDxflipflop; never

theorem never_pcLoad (c : W) : (runPcLoad c).Never .control := by unfold runPcLoad; never
theorem never_pcMix (c : W) : (runPcMix c).Never .control := by
  unfold runPcMix
  repeat' first
    | with_reducible exact never_pcLoad _
    | exact fun _ => trivial | (refine never_bind _ _ ?_ (fun _ => ?_)) | refine never_ite ?_ ?_
theorem never_pcLow (c : W) : (runPcLow c).Never .control := by
  unfold runPcLow
  repeat' first
    | with_reducible exact never_pcMix _ | exact ⟨by decide, fun _ => trivial⟩
    | exact fun _ => trivial | (refine never_bind _ _ ?_ (fun _ => ?_)) | refine never_ite ?_ ?_
theorem never_pc : runPc.Never .control := by
  unfold runPc
  repeat' first
    | with_reducible exact never_pcLow _ | exact ⟨by decide, fun _ => trivial⟩
    | exact fun _ => trivial | (refine never_bind _ _ ?_ (fun _ => ?_)) | refine never_ite ?_ ?_

/-- Only the control store publishes control words. -/
theorem never_control (c : Comp) (h : c ≠ .rom) : c.prog.Never .control := by
  cases c
  case rom => exact absurd rfl h
  case mem =>
    show runMem.Never _
    unfold runMem
    never
  case alu =>
    show runAlu.Never _
    unfold runAlu
    never
  case acumm => show runAcumm.Never _; unfold runAcumm; never
  case greg => show runGreg.Never _; unfold runGreg; never
  case flagsinta => show runFlagsinta.Never _; unfold runFlagsinta; never
  case pc => exact never_pc
  case mxfldx =>
    show runMxfldx.Never _
    unfold runMxfldx runMxfld7 runMxfld0 cllGetSelfl
    never
  case addsub => show runAddsub.Never _; unfold runAddsub; never
  case mxdir => show runMxdir.Never _; unfold runMxdir; never
  case mxreg => show runMxreg.Never _; unfold runMxreg; never
  case fffc => show runFffc.Never _; unfold runFffc; never
  case flags => show runFlags.Never _; unfold runFlags; never
  case op2 => show runOp2.Never _; unfold runOp2; never
  case hl => show runHl.Never _; unfold runHl; never
  case sp => show runSp.Never _; unfold runSp; never
  case seqJnr => show runSeqJnr.Never _; unfold runSeqJnr; never
  case mxregJnr => show runMxregJnr.Never _; unfold runMxregJnr; never
  case seq => show runSeq.Never _; unfold runSeq; never
  case dxflipflop => show runDxflipflop.Never _; unfold runDxflipflop; never

/-! ## Programs that publish nothing on the data bus under a control word -/

/-- Run where the control bus carries `c` and the control copies of the variables in `u` are up to
date, `p` publishes nothing on the data bus. -/
def Prog.Hush {α} (c : W) : Prog α → List Slot → (α → List Slot → Prop) → Prop
  | .pure a, u, Q => Q a u
  | .op (.pub t _) k, u, Q => t ≠ .data ∧ t ≠ .control ∧ (k ()).Hush c u Q
  | .op (.upd s) k, u, Q => (k ()).Hush c (s :: u) Q
  | .op (.cur s) k, u, Q => ∀ w : W, (s ∈ u → s.topic = .control → w = c) → (k w).Hush c u Q
  | .op (.nxt s) k, u, Q => ∀ w : W, (s.topic = .control → w = c) → (k w).Hush c u Q
  | .op (.getReg _) k, u, Q => ∀ w : W, (k w).Hush c u Q
  | .op (.setReg _ _) k, u, Q => (k ()).Hush c u Q
  | .op (.memGet _) k, u, Q => ∀ w : CInt, (k w).Hush c u Q
  | .op (.memSet _ _) k, u, Q => (k ()).Hush c u Q
  | .op (.err _) k, u, Q => (k ()).Hush c u Q
  | .op .ub _, _, _ => True

theorem hush_published {α} {c : W} (p : Prog α) {u : List Slot} {Q : α → List Slot → Prop}
    (n : p.Hush c u Q) {h : H} {t : T} (r : Rep h t) (hc : t.topic .control = c)
    (hu : ∀ s ∈ u, s.topic = .control → t.cur s = c) (w : W) : (Topic.data, w) ∉ p.published h := by
  induction p generalizing h t u with
  | pure a => exact List.not_mem_nil
  | op o k ih =>
    simp only [Prog.published, List.mem_append, not_or]
    have so := sim_op o r
    cases ho : H.handle o h with
    | none =>
      refine ⟨?_, List.not_mem_nil⟩
      cases o with
      | pub t' w' =>
        simp only [Op.message, List.mem_singleton, Prod.mk.injEq]
        exact fun e => n.1 e.1.symm
      | _ => exact List.not_mem_nil
    | some x =>
      rw [ho] at so
      cases o with
      | ub => cases ho
      | pub t' w' =>
        refine ⟨?_, ih _ n.2.2 so.2.1 ?_ hu⟩
        · simp only [Op.message, List.mem_singleton, Prod.mk.injEq]
          exact fun e => n.1 e.1.symm
        · simp only [upd_ne _ _ (Ne.symm n.2.1)]; exact hc
      | upd s =>
        refine ⟨List.not_mem_nil, ih _ n so.2.1 hc fun s' hs ht => ?_⟩
        simp only [upd_apply]
        split
        · rename_i e; subst e; rw [ht]; exact hc
        · rename_i e
          exact hu s' ((List.mem_cons.1 hs).resolve_left e) ht
      | cur s => exact ⟨List.not_mem_nil, ih _ (n _ fun hs ht => so.1 ▸ hu s hs ht) so.2.1 hc hu⟩
      | nxt s => exact ⟨List.not_mem_nil, ih _ (n _ fun ht => by rw [so.1, ht]; exact hc) so.2.1 hc hu⟩
      | getReg rr => exact ⟨List.not_mem_nil, ih _ (n _) so.2.1 hc hu⟩
      | setReg rr v => exact ⟨List.not_mem_nil, ih _ n so.2.1 hc hu⟩
      | memGet i => exact ⟨List.not_mem_nil, ih _ (n _) so.2.1 hc hu⟩
      | memSet i v => exact ⟨List.not_mem_nil, ih _ n so.2.1 hc hu⟩
      | err e => exact ⟨List.not_mem_nil, ih _ n so.2.1 hc hu⟩

theorem hush_bind {α β} {c : W} (p : Prog α) (f : α → Prog β) (u : List Slot)
    (Q : β → List Slot → Prop) : (p >>= f).Hush c u Q ↔ p.Hush c u fun a u => (f a).Hush c u Q := by
  show (p.bind f).Hush c u Q ↔ _
  induction p generalizing u with
  | pure a => exact Iff.rfl
  | op o k ih =>
    cases o with
    | ub => exact Iff.rfl
    | pub t w => exact and_congr Iff.rfl (and_congr Iff.rfl (ih () _))
    | upd s => exact ih () _
    | cur s => exact forall_congr' fun w => imp_congr Iff.rfl (ih w _)
    | nxt s => exact forall_congr' fun w => imp_congr Iff.rfl (ih w _)
    | getReg r => exact forall_congr' fun w => ih w _
    | setReg r v => exact ih () _
    | memGet i => exact forall_congr' fun w => ih w _
    | memSet i v => exact ih () _
    | err e => exact ih () _

section hush
variable (c : W) (u : List Slot)
theorem hush_pure {α} (a : α) (Q : α → List Slot → Prop) : (pure a : Prog α).Hush c u Q ↔ Q a u := Iff.rfl
theorem hush_upd (s : Slot) (Q) : (busUpdate s).Hush c u Q ↔ Q () (s :: u) := Iff.rfl
theorem hush_cur (s : Slot) (Q) : (busCur s).Hush c u Q ↔
    ∀ w : W, (s ∈ u → s.topic = .control → w = c) → Q w u := Iff.rfl
theorem hush_nxt (s : Slot) (Q) : (busNext s).Hush c u Q ↔
    ∀ w : W, (s.topic = .control → w = c) → Q w u := Iff.rfl
theorem hush_pub (t : Topic) (w : W) (Q) : (publish t w).Hush c u Q ↔
    t ≠ .data ∧ t ≠ .control ∧ Q () u := Iff.rfl
theorem hush_getReg (r : Reg) (Q) : (getReg r).Hush c u Q ↔ ∀ w : W, Q w u := Iff.rfl
theorem hush_setReg (r : Reg) (w : W) (Q) : (setReg r w).Hush c u Q ↔ Q () u := Iff.rfl
theorem hush_memGet (i : BitVec 16) (Q) : (memGet i).Hush c u Q ↔ ∀ w : CInt, Q w u := Iff.rfl
theorem hush_memSet (i : BitVec 16) (w : CInt) (Q) : (memSet i w).Hush c u Q ↔ Q () u := Iff.rfl
theorem hush_err (e : Err) (Q) : (throwError e).Hush c u Q ↔ Q () u := Iff.rfl
theorem hush_toInt (w : W) (Q : CInt → List Slot → Prop) (h : ∀ v, Q v u) : (toInt w).Hush c u Q := by
  unfold toInt
  cases wordToInt w with
  | none => trivial
  | some v => exact h v
theorem hush_cAdd (a b : CInt) (Q : CInt → List Slot → Prop) (h : ∀ v, Q v u) : (cAdd a b).Hush c u Q := by
  unfold cAdd; split <;> first | trivial | exact h _
theorem hush_cSub (a b : CInt) (Q : CInt → List Slot → Prop) (h : ∀ v, Q v u) : (cSub a b).Hush c u Q := by
  unfold cSub; split <;> first | trivial | exact h _
end hush

/-- Sequencing of one step. -/
theorem hush_upd' {α} {c : W} {u : List Slot} {s : Slot} {f : Unit → Prog α} {Q}
    (h : (f ()).Hush c (s :: u) Q) : (busUpdate s >>= f).Hush c u Q := (hush_bind _ _ _ _).2 h
theorem hush_cur' {α} {c : W} {u : List Slot} {s : Slot} {f : W → Prog α} {Q}
    (h : ∀ w, (f w).Hush c u Q) : (busCur s >>= f).Hush c u Q := (hush_bind _ _ _ _).2 fun w _ => h w
theorem hush_control' {α} {c : W} {u : List Slot} {s : Slot} {f : W → Prog α} {Q} (hs : s ∈ u)
    (ht : s.topic = .control) (h : (f c).Hush c u Q) : (busCur s >>= f).Hush c u Q :=
  (hush_bind _ _ _ _).2 fun w e => by rw [e hs ht]; exact h
theorem hush_nxt' {α} {c : W} {u : List Slot} {s : Slot} {f : W → Prog α} {Q}
    (h : ∀ w, (f w).Hush c u Q) : (busNext s >>= f).Hush c u Q := (hush_bind _ _ _ _).2 fun w _ => h w
theorem hush_pub' {α} {c : W} {u : List Slot} {t : Topic} {w : W} {f : Unit → Prog α} {Q}
    (h1 : t ≠ .data) (h2 : t ≠ .control) (h : (f ()).Hush c u Q) : (publish t w >>= f).Hush c u Q :=
  (hush_bind _ _ _ _).2 ⟨h1, h2, h⟩
theorem hush_pub1 {c : W} {u : List Slot} {t : Topic} {w : W} 
    (h1 : t ≠ .data) (h2 : t ≠ .control) : (publish t w).Hush c u fun _ _ => True :=
  ⟨h1, h2, trivial⟩
theorem hush_getReg' {α} {c : W} {u : List Slot} {r : Reg} {f : W → Prog α} {Q}
    (h : ∀ w, (f w).Hush c u Q) : (getReg r >>= f).Hush c u Q := (hush_bind _ _ _ _).2 h
theorem hush_memGet' {α} {c : W} {u : List Slot} {i : BitVec 16} {f : CInt → Prog α} {Q}
    (h : ∀ w, (f w).Hush c u Q) : (memGet i >>= f).Hush c u Q := (hush_bind _ _ _ _).2 h
theorem hush_setReg' {α} {c : W} {u : List Slot} {r : Reg} {w : W} {f : Unit → Prog α} {Q}
    (h : (f ()).Hush c u Q) : (setReg r w >>= f).Hush c u Q := (hush_bind _ _ _ _).2 h
theorem hush_toInt' {α} {c : W} {u : List Slot} {w : W} {f : CInt → Prog α} {Q}
    (h : ∀ v, (f v).Hush c u Q) : (toInt w >>= f).Hush c u Q :=
  (hush_bind _ _ _ _).2 (hush_toInt _ _ _ _ h)
theorem hush_alu' {α} {c : W} {u : List Slot} {s a b : CInt} {f : CInt × Bool → Prog α} {Q}
    (h : ∀ v, (f v).Hush c u Q) : (aluSwitch s a b >>= f).Hush c u Q := by
  refine (hush_bind _ _ _ _).2 ?_
  unfold aluSwitch
  repeat' first
    | exact h _ | split
    | exact (hush_bind _ _ _ _).2 (hush_cAdd _ _ _ _ _ fun v => h _)
    | exact (hush_bind _ _ _ _).2 (hush_cSub _ _ _ _ _ fun v => h _)
theorem hush_setMem' {α} {c : W} {u : List Slot} {i v : CInt} {f : Bool → Prog α} {Q}
    (h : ∀ b, (f b).Hush c u Q) : (setMemValue i v >>= f).Hush c u Q := by
  refine (hush_bind _ _ _ _).2 ?_
  unfold setMemValue
  split
  · exact h _
  · split
    · exact h _
    · exact h _
theorem hush_ite {α} {c : W} {u : List Slot} {d : Prop} [Decidable d] {p q : Prog α} {Q}
    (hp : p.Hush c u Q) (hq : q.Hush c u Q) : (if d then p else q).Hush c u Q := by
  split <;> assumption

macro "hush" : tactic => `(tactic| repeat' first
  | exact trivial
  | (with_reducible refine hush_upd' ?_)
  | ((with_reducible refine hush_control' ?_ ?_ ?_); (· decide); (· rfl))
  | (with_reducible refine hush_cur' fun _ => ?_)
  | (with_reducible refine hush_nxt' fun _ => ?_)
  | ((with_reducible refine hush_pub' ?_ ?_ ?_); (· decide); (· decide))
  | ((with_reducible refine hush_pub1 ?_ ?_) <;> decide)
  | (with_reducible refine hush_getReg' fun _ => ?_)
  | (with_reducible refine hush_memGet' fun _ => ?_)
  | (with_reducible refine hush_setReg' ?_)
  | (with_reducible refine hush_toInt' fun _ => ?_)
  | (with_reducible refine hush_alu' fun _ => ?_)
  | (with_reducible refine hush_setMem' fun _ => ?_))

theorem hush_mem {c : W} (h : c.getLsbD CB.membus = false) :
    runMem.Hush c [] fun _ _ => True := by
  unfold runMem
  hush
  simp only [h, Bool.false_eq_true, if_false]
  refine hush_ite ?_ ?_
  · split <;> trivial
  · hush
    refine hush_ite ?_ ?_ <;> trivial

theorem hush_alu {c : W} (h : c.getLsbD CB.alubus = false) :
    runAlu.Hush c [] fun _ _ => True := by
  unfold runAlu
  hush
  simp only [h, Bool.false_eq_true, if_false]
  refine hush_ite ?_ ?_
  · hush
  · refine (hush_bind _ _ _ _).2 ?_
    show Prog.Hush _ (publish _ _ >>= _) _ _
    hush

theorem hush_acumm {c : W} (h : c.getLsbD CB.acbus = false) :
    runAcumm.Hush c [] fun _ _ => True := by
  unfold runAcumm
  hush
  simp only [h, Bool.false_eq_true, if_false]
  refine hush_ite trivial (hush_ite ?_ ?_) <;> hush

theorem hush_greg {c : W} (h : c.getLsbD CB.regbus = false) :
    runGreg.Hush c [] fun _ _ => True := by
  unfold runGreg
  hush
  split
  · trivial
  · hush
    simp only [h, Bool.false_eq_true, if_false]
    refine hush_ite trivial (hush_ite ?_ ?_) <;> hush

theorem hush_flagsinta {c : W} (h : c.getLsbD CB.flbus = false) :
    runFlagsinta.Hush c [] fun _ _ => True := by
  unfold runFlagsinta
  hush
  simp only [h, Bool.false_eq_true, if_false]
  trivial

theorem hush_pc {c : W} (h1 : c.getLsbD CB.pchbus = false) (h2 : c.getLsbD CB.pclbus = false) :
    runPc.Hush c [] fun _ _ => True := by
  have load : ∀ u, (runPcLoad c).Hush c u fun _ _ => True := by
    intro u
    unfold runPcLoad
    hush
    refine hush_ite trivial (hush_ite ?_ ?_) <;> hush
  have mix : ∀ u, (runPcMix c).Hush c u fun _ _ => True := by
    intro u
    unfold runPcMix
    refine hush_ite ?_ ?_
    · hush
      refine hush_ite ?_ (load _)
      hush; exact load _
    · refine hush_ite ?_ (load _)
      hush; exact load _
  have low : ∀ u, (runPcLow c).Hush c u fun _ _ => True := by
    intro u
    unfold runPcLow
    hush
    simp only [h2, Bool.false_eq_true, if_false]
    refine hush_ite trivial (hush_ite ?_ (mix _))
    hush; exact mix _
  unfold runPc
  hush
  simp only [h1, Bool.false_eq_true, if_false]
  refine hush_ite trivial (hush_ite ?_ (low _))
  hush; exact low _

/-! ## The control word of a cycle -/

theorem published_op {α} (o : Op) (k : o.ret → Prog α) (h : H) : (Prog.op o k).published h =
    o.message ++ (match H.handle o h with
      | none => []
      | some r => (k r.1).published r.2) := by
  rw [Prog.published]
  cases H.handle o h <;> rfl

theorem published_nxt {α} {h : H} {t : T} (r : Rep h t) (s : Slot) (f : W → Prog α) :
    (busNext s >>= f).published h = (f (t.topic s.topic)).published h := by
  have e : (busNext s).published h = [] := by
    refine (published_op (α := W) (.nxt s) Prog.pure h).trans ?_
    cases H.handle (.nxt s) h <;> rfl
  rw [published_bind, r.nxt s, e]
  rfl

theorem rom_published {a : A} {cur : Slot → W} {h : H} (r : Rep h (lift a cur)) (hq : a.q.toNat < 45) :
    runRom.published h = [(.control, A.romOf a.q.toNat)] := by
  have h1 : ROM[a.q.toNat]? = some (ROM[a.q.toNat]'(by rw [rom_length]; exact hq)) :=
    List.getElem?_eq_getElem _
  have h2 : ¬ ((a.q.setWidth 32 : CInt).toInt < 0 ∨ (a.q.setWidth 32 : CInt).toInt > 45) := by
    rw [BitVec.toInt_eq_toNat_of_lt] <;> simp only [BitVec.toNat_setWidth] <;> omega
  have h3 : (a.q.setWidth 32 : CInt).toNat = a.q.toNat := by
    simp only [BitVec.toNat_setWidth]; omega
  have upds : ∀ h, (busUpdate .romQ5 >>= fun _ => busUpdate .romQ4 >>= fun _ => busUpdate .romQ3 >>=
      fun _ => busUpdate .romQ2 >>= fun _ => busUpdate .romQ1 >>= fun _ => busUpdate .romQ0).published h
      = [] := by
    intro h
    apply List.eq_nil_iff_forall_not_mem.2
    rintro ⟨t, w⟩
    apply never_published
    never
  unfold runRom
  rw [published_nxt r, published_nxt r, published_nxt r, published_nxt r, published_nxt r,
    published_nxt r]
  simp only [Slot.topic, top_q5, top_q4, top_q3, top_q2, top_q1, top_q0, sel_q]
  show (if _ then _ else _ : Prog Unit).published h = _
  rw [if_neg h2, h3, h1]
  simp only []
  rw [published_bind]
  have e : (publish .control (romWord (ROM[a.q.toNat]'(by rw [rom_length]; exact hq)))).published h =
      [(.control, A.romOf a.q.toNat)] := by
    unfold A.romOf
    rw [h1]
    refine (published_op (α := Unit) (.pub .control _) Prog.pure h).trans ?_
    generalize H.handle _ h = x
    cases x <;> rfl
  rw [e]
  split
  · rfl
  · rw [upds]; rfl

theorem never_async : runAsync.Never .control := by
  unfold runAsync
  refine never_bind _ _ (never_control .addsub (by decide)) fun _ => never_bind _ _
    (never_control .mxdir (by decide)) fun _ => never_bind _ _
    (never_control .mxreg (by decide)) fun _ => never_bind _ _
    (never_control .mem (by decide)) fun _ => never_bind _ _
    (never_control .alu (by decide)) fun _ => never_bind _ _
    (never_control .mem (by decide)) fun _ => never_control .alu (by decide)

theorem never_sync {p : Prog Unit} (h : p.Never .control) : (runSync p).Never .control :=
  never_bind _ _ h fun _ => never_async

theorem never_round : runAcummOrFlagsRound.Never .control :=
  never_bind _ _ (never_control .acumm (by decide)) fun _ => never_bind _ _
    (never_control .mxfldx (by decide)) fun _ => never_bind _ _
    (never_control .flags (by decide)) fun _ => never_control .flagsinta (by decide)

theorem never_cuSync : runCuSync.Never .control :=
  never_bind _ _ (never_sync (never_control .fffc (by decide))) fun _ => never_bind _ _
    (never_bind _ _ never_round fun _ => never_round) fun _ => never_bind _ _
    (never_sync (never_control .greg (by decide))) fun _ => never_bind _ _
    (never_sync (never_control .op2 (by decide))) fun _ => never_bind _ _
    (never_sync (never_control .hl (by decide))) fun _ => never_bind _ _
    (never_sync (never_control .sp (by decide))) fun _ => never_sync (never_control .pc (by decide))

theorem never_cuRi : runCuRi.Never .control := by
  unfold runCuRi
  repeat' first
    | with_reducible exact never_cuSync | exact ⟨by decide, fun _ => trivial⟩
    | exact fun _ => trivial | (refine never_bind _ _ ?_ (fun _ => ?_)) | refine never_ite ?_ ?_

/-- The messages of `run_cu(1)`: the control word of the microstate, before it nothing for the data
bus, after it no other control word. -/
theorem high_published {a : A} {cur : Slot → W} {h : H} (r : Rep h (lift a cur)) (hq : a.q.toNat < 45) :
    ∃ pre post, (runCu true).published h = pre ++ (.control, A.romOf a.q.toNat) :: post ∧
      (∀ w, (Topic.data, w) ∉ pre) ∧ (∀ w, (Topic.control, w) ∉ post) := by
  obtain ⟨c1, h1⟩ := impl_seqJnr a cur
  obtain ⟨k1, g1, r1, _⟩ := sim_some r h1
  obtain ⟨c2, h2⟩ := impl_mxregJnr a.seqJnr c1
  obtain ⟨k2, g2, r2, _⟩ := sim_some r1 h2
  obtain ⟨c3, h3⟩ := impl_seq a.seqJnr.mxregJnr c2
  obtain ⟨k3, g3, r3, _⟩ := sim_some r2 h3
  have e : runCu true = (runSeqJnr >>= fun _ => runMxregJnr >>= fun _ => runSeq >>= fun _ =>
    runRom >>= fun _ => runAsync >>= fun _ => runCuRi) := rfl
  rw [e, published_bind, g1]
  simp only []
  rw [published_bind, g2]
  simp only []
  rw [published_bind, g3]
  simp only []
  rw [published_bind, rom_published r3 hq]
  have rest : (runAsync >>= fun _ => runCuRi).Never .control :=
    never_bind _ _ never_async fun _ => never_cuRi
  refine ⟨runSeqJnr.published h ++ (runMxregJnr.published k1 ++ runSeq.published k2),
    (match H.run runRom k3 with
      | none => []
      | some r => (runAsync >>= fun _ => runCuRi).published r.2 : List Message), ?_, ?_, ?_⟩
  · have e : a.seqJnr.mxregJnr.seq.q = a.q := rfl
    simp only [List.append_assoc, List.cons_append, List.nil_append, e]
    cases H.run runRom k3 <;> rfl
  · intro w hw
    simp only [List.mem_append] at hw
    rcases hw with hw | hw | hw
    · exact never_published (never_data .seqJnr (by decide)) _ _ hw
    · exact never_published (never_data .mxregJnr (by decide)) _ _ hw
    · exact never_published (never_data .seq (by decide)) _ _ hw
  · intro w hw
    split at hw
    · exact absurd hw List.not_mem_nil
    · exact never_published rest _ _ hw

theorem record_ne {t : Topic} (g : Topic → W) (ms : List Message) (h : ∀ w, (t, w) ∉ ms) :
    record g ms t = g t := by
  induction ms generalizing g with
  | nil => rfl
  | cons m ms ih =>
    show record (upd g m.1 m.2) ms t = _
    rw [ih _ fun w hw => h w (List.mem_cons_of_mem _ hw), upd_ne]
    intro e
    exact h m.2 (by rw [e]; exact List.mem_cons_self)

/-- A component that drives the data bus does so under the control word of the cycle. -/
theorem inside_control {a : A} {cur : Slot → W} {h h1 : H} {c : Comp} (r : Rep h (lift a cur))
    (hq : a.q.toNat < 45) (i : Inside c.prog h1 (runCu true) h) (d : c.Drives h1) :
    ∃ t, Rep h1 t ∧ t.topic .control = A.romOf a.q.toNat := by
  obtain ⟨w, hw⟩ := d
  obtain ⟨pre', post', e', rr⟩ := inside_published i
  obtain ⟨pre, post, e, n1, n2⟩ := high_published r hq
  obtain ⟨t, rt, et⟩ := rr _ r
  refine ⟨t, rt, ?_⟩
  have hc : c ≠ .rom := by
    rintro rfl
    exact never_published (never_data .rom (by decide)) _ _ hw
  have hn : ∀ v, (Topic.control, v) ∉ c.prog.published h1 :=
    fun v => never_published (never_control c hc) _ v
  rw [e'] at e
  rcases List.append_eq_append_iff.1 e with ⟨l, e1, e2⟩ | ⟨l, e1, e2⟩
  · rcases List.append_eq_append_iff.1 e2 with ⟨m, e3, e4⟩ | ⟨m, e3, e4⟩
    · exact absurd (by rw [e1, e3]; simp [hw]) (n1 w)
    · cases m with
      | nil => exact absurd (by rw [e1, ← List.append_nil l, ← e3]; simp [hw]) (n1 w)
      | cons x m =>
        rw [List.cons_append] at e4
        injection e4 with e5 e6
        exact absurd (by rw [e3, ← e5]; simp) (hn (A.romOf a.q.toNat))
  · cases l with
    | nil =>
      cases hp : c.prog.published h1 with
      | nil => rw [hp] at hw; exact absurd hw List.not_mem_nil
      | cons x m =>
        rw [hp] at e2
        simp only [List.nil_append, List.cons_append] at e2
        injection e2 with e5 e6
        exact absurd (by rw [hp, ← e5]; simp) (hn (A.romOf a.q.toNat))
    | cons x m =>
      rw [List.cons_append] at e2
      injection e2 with e5 e6
      rw [et, e1, record_append, ← e5]
      show record (upd _ Topic.control _) m _ = _
      rw [record_ne]
      · simp
      · intro v hv
        exact n2 v (by rw [e6]; simp [hv])

/-- A component that drives the data bus is let onto it by its bit. -/
theorem drives_bit {c : Comp} {h : H} {t : T} (r : Rep h t) (d : c.Drives h) :
    ∃ k ∈ driveBits, driver k = some c ∧ (t.topic .control).getLsbD k = true := by
  obtain ⟨w, hw⟩ := d
  have key : ∀ k, (t.topic .control).getLsbD k ≠ true → (t.topic .control).getLsbD k = false :=
    fun k e => by simpa using e
  have hush : c.prog.Hush (t.topic .control) [] (fun _ _ => True) → False := fun n =>
    hush_published _ n r rfl (fun s hs => absurd hs List.not_mem_nil) w hw
  by_cases hd : ∃ k ∈ driveBits, driver k = some c
  · cases c
    case mem =>
      exact ⟨CB.membus, by decide, rfl, Classical.byContradiction fun e => hush (hush_mem (key _ e))⟩
    case alu =>
      exact ⟨CB.alubus, by decide, rfl, Classical.byContradiction fun e => hush (hush_alu (key _ e))⟩
    case acumm =>
      exact ⟨CB.acbus, by decide, rfl, Classical.byContradiction fun e => hush (hush_acumm (key _ e))⟩
    case greg =>
      exact ⟨CB.regbus, by decide, rfl, Classical.byContradiction fun e => hush (hush_greg (key _ e))⟩
    case flagsinta =>
      exact ⟨CB.flbus, by decide, rfl,
        Classical.byContradiction fun e => hush (hush_flagsinta (key _ e))⟩
    case pc =>
      by_cases e : (t.topic .control).getLsbD CB.pchbus = true
      · exact ⟨CB.pchbus, by decide, rfl, e⟩
      · exact ⟨CB.pclbus, by decide, rfl,
          Classical.byContradiction fun e' => hush (hush_pc (key _ e) (key _ e'))⟩
    all_goals exact absurd hd (by decide)
  · exact absurd hw (never_published (never_data c fun k hk e => hd ⟨k, hk, e⟩) _ _)

/-- The turns of a cycle under the control word of the microstate entered. -/
theorem turn_control {h h1 : H} {a : A} {c : Comp} (o : On h a) (u : Turn h c h1) (d : c.Drives h1) :
    ∃ k ∈ driveBits, driver k = some c ∧ (A.romOf a.dd.toNat).getLsbD k = true := by
  obtain ⟨cur, r⟩ := o.rep
  obtain ⟨t, rt, et⟩ : ∃ t, Rep h1 t ∧ t.topic .control = A.romOf a.dd.toNat := by
    cases u with
    | up e i =>
      have hq := o.clk e
      have := inside_control (On.clkSet r true) (by rw [hq]; exact o.ok.lt) i d
      rwa [hq] at this
    | down e i =>
      obtain ⟨w, hw⟩ := d
      obtain ⟨pre, post, e1, _⟩ := inside_published i
      have n : (Topic.data, w) ∉ (runCu false).published { h with clk := false } :=
        never_published (never_data .dxflipflop (by decide)) _ _
      exact absurd (by rw [e1]; simp [hw]) n
    | again e hr i =>
      obtain ⟨c1, h1⟩ := run_cuLow a cur
      obtain ⟨h1', h2, h3, h4⟩ := sim_some (On.clkSet r false) h1
      rw [hr] at h2
      cases h2
      exact inside_control (a := a.dxflipflop) (On.clkSet h3 true) o.ok.lt i d
  obtain ⟨k, hk, e1, e2⟩ := drives_bit rt d
  exact ⟨k, hk, e1, et ▸ e2⟩

/-- No microinstruction opens two outputs to the data bus. -/
theorem rom_one : ∀ s, s < 45 → ∀ k ∈ driveBits, ∀ k' ∈ driveBits, (A.romOf s).getLsbD k = true →
    (A.romOf s).getLsbD k' = true → k = k' := by
  decide +kernel

/-- A microinstruction that loads from the data bus, or writes to the memory, opens one. -/
theorem rom_fed : ∀ s, s < 45 → (∃ k ∈ loadBits, (A.romOf s).getLsbD k = true) ∨
      ((A.romOf s).getLsbD CB.flcar = true ∧ (A.romOf s).getLsbD CB.selfl = false) ∨
      (A.romOf s).getLsbD CB.le = false → ∃ k ∈ driveBits, (A.romOf s).getLsbD k = true := by
  decide +kernel

/-! ## Where the messages come from -/

/-- Every word that `p` puts on the data bus is put there by a component. -/
def Traced {α} (p : Prog α) : Prop := ∀ h w, (Topic.data, w) ∈ p.published h →
  ∃ c h1, Inside (Comp.prog c) h1 p h ∧ (Topic.data, w) ∈ c.prog.published h1

theorem bind_unit (p : Prog Unit) : (p >>= fun _ => .pure ()) = p := by
  show p.bind _ = p
  induction p with
  | pure a => rfl
  | op o k ih => simp only [Prog.bind, ih]

theorem inside_self (q : Prog Unit) (h : H) : Inside q h q h := by
  have := Inside.here (q := q) (h1 := h) fun _ => .pure ()
  rwa [bind_unit] at this

theorem traced_comp (c : Comp) : Traced c.prog := fun h _ hw => ⟨c, h, inside_self _ h, hw⟩

theorem traced_never {α} {p : Prog α} (n : p.Never .data) : Traced p :=
  fun h w hw => absurd hw (never_published n h w)

theorem traced_bind {α β} {p : Prog α} {f : α → Prog β} (hp : Traced p) (hf : ∀ a, Traced (f a)) :
    Traced (p >>= f) := by
  intro h w hw
  rw [published_bind] at hw
  rcases List.mem_append.1 hw with hw | hw
  · obtain ⟨c, h1, i, e⟩ := hp h w hw
    exact ⟨c, h1, i.left f, e⟩
  · cases hr : H.run p h with
    | none => rw [hr] at hw; exact absurd hw List.not_mem_nil
    | some r =>
      rw [hr] at hw
      obtain ⟨c, h1, i, e⟩ := hf r.1 r.2 w hw
      exact ⟨c, h1, i.right p hr, e⟩

theorem traced_ite {α} {d : Prop} [Decidable d] {p q : Prog α} (hp : Traced p) (hq : Traced q) :
    Traced (if d then p else q) := by split <;> assumption

theorem traced_async : Traced runAsync :=
  traced_bind (traced_comp .addsub) fun _ => traced_bind (traced_comp .mxdir) fun _ =>
    traced_bind (traced_comp .mxreg) fun _ => traced_bind (traced_comp .mem) fun _ =>
    traced_bind (traced_comp .alu) fun _ => traced_bind (traced_comp .mem) fun _ => traced_comp .alu

theorem traced_sync (c : Comp) : Traced (runSync c.prog) :=
  traced_bind (traced_comp c) fun _ => traced_async

theorem traced_round : Traced runAcummOrFlagsRound :=
  traced_bind (traced_comp .acumm) fun _ => traced_bind (traced_comp .mxfldx) fun _ =>
    traced_bind (traced_comp .flags) fun _ => traced_comp .flagsinta

theorem traced_cuSync : Traced runCuSync :=
  traced_bind (traced_sync .fffc) fun _ => traced_bind (traced_bind traced_round fun _ =>
    traced_round) fun _ => traced_bind (traced_sync .greg) fun _ => traced_bind (traced_sync .op2)
    fun _ => traced_bind (traced_sync .hl) fun _ => traced_bind (traced_sync .sp) fun _ =>
    traced_sync .pc

theorem traced_cuRi : Traced runCuRi := by
  unfold runCuRi
  repeat' first
    | with_reducible exact traced_cuSync
    | exact traced_never ⟨by decide, fun _ => trivial⟩
    | exact traced_never fun _ => trivial
    | (refine traced_bind ?_ (fun _ => ?_)) | refine traced_ite ?_ ?_

theorem traced_cu (b : Bool) : Traced (runCu b) := by
  cases b with
  | false => exact traced_comp .dxflipflop
  | true =>
    exact traced_bind (traced_comp .seqJnr) fun _ => traced_bind (traced_comp .mxregJnr) fun _ =>
      traced_bind (traced_comp .seq) fun _ => traced_bind (traced_comp .rom) fun _ =>
      traced_bind traced_async fun _ => traced_cuRi

theorem run_clk {α} (p : Prog α) {h h' : H} {v : α} (e : H.run p h = some (v, h')) : h'.clk = h.clk := by
  induction p generalizing h with
  | pure a => cases e; rfl
  | op o k ih =>
    have e : (H.handle o h).bind (fun x => H.run (k x.1) x.2) = some (v, h') := e
    cases ho : H.handle o h with
    | none => rw [ho] at e; cases e
    | some x =>
      rw [ho] at e
      have e : H.run (k x.1) x.2 = some (v, h') := e
      rw [ih _ e]
      cases o with
      | ub => cases ho
      | getReg r => cases ho; rfl
      | setReg r w => cases ho; rfl
      | err er => cases ho; rfl
      | upd s =>
        simp only [H.handle, Option.map_eq_some_iff] at ho
        obtain ⟨p, _, rfl⟩ := ho
        rfl
      | pub t w =>
        simp only [H.handle, Option.map_eq_some_iff] at ho
        obtain ⟨p, _, rfl⟩ := ho
        rfl
      | cur s =>
        simp only [H.handle, Option.map_eq_some_iff] at ho
        obtain ⟨p, _, rfl⟩ := ho
        rfl
      | nxt s =>
        simp only [H.handle, Option.map_eq_some_iff] at ho
        obtain ⟨p, _, rfl⟩ := ho
        rfl
      | memGet j =>
        simp only [H.handle] at ho
        split at ho
        · cases ho; rfl
        · cases ho
      | memSet j v =>
        simp only [H.handle] at ho
        split at ho
        · cases ho; rfl
        · cases ho

/-- **C97.** Every word that a clock cycle publishes on the data bus is published by one of the
components in its turn. -/
theorem C97_source {h : H} {w : W} {u : Bool}
    (m : (Topic.data, w) ∈ (Call.runClockCycle u).published h) :
    ∃ c h1, Turn h c h1 ∧ (Topic.data, w) ∈ c.prog.published h1 := by
  have m : (Topic.data, w) ∈ clockPublished 2 h := m
  cases hc : h.clk with
  | false =>
    simp only [clockPublished, hc, Bool.not_false, if_true] at m
    have m : (Topic.data, w) ∈ (runCu true).published { h with clk := true } := by
      rcases List.mem_append.1 m with m | m
      · exact m
      · split at m <;> exact absurd m List.not_mem_nil
    obtain ⟨c, h1, i, e⟩ := traced_cu true _ _ m
    exact ⟨c, h1, .up hc i, e⟩
  | true =>
    simp only [clockPublished, hc, Bool.not_true, Bool.false_eq_true, if_false] at m
    rcases List.mem_append.1 m with m | m
    · obtain ⟨c, h1, i, e⟩ := traced_cu false _ _ m
      exact ⟨c, h1, .down hc i, e⟩
    · split at m
      · exact absurd m List.not_mem_nil
      · rename_i x h2 hr
        have hk : h2.clk = false := by
          have f := run_clk (runCu false) hr
          exact f
        simp only [hk, Bool.not_false, if_true] at m
        have m : (Topic.data, w) ∈ (runCu true).published { h2 with clk := true } := by
          rcases List.mem_append.1 m with m | m
          · exact m
          · split at m <;> exact absurd m List.not_mem_nil
        obtain ⟨c, h1, i, e⟩ := traced_cu true _ _ m
        exact ⟨c, h1, .again hc hr i, e⟩

/-! ## The open output is used -/

/-- The messages of component code on the topic machine. -/
def Prog.publishedT {α} : Prog α → T → List Message
  | .pure _, _ => []
  | .op o k, t => o.message ++
    match T.handle o t with
    | none => []
    | some r => (k r.1).publishedT r.2

theorem published_lift {α} (p : Prog α) {h : H} {t : T} (r : Rep h t) :
    p.published h = p.publishedT t := by
  induction p generalizing h t with
  | pure a => rfl
  | op o k ih =>
    have so := sim_op o r
    simp only [Prog.published, Prog.publishedT]
    cases hh : H.handle o h with
    | none =>
      cases ht : T.handle o t with
      | none => rfl
      | some y => rw [hh, ht] at so; exact so.elim
    | some x =>
      cases ht : T.handle o t with
      | none => rw [hh, ht] at so; exact so.elim
      | some y =>
        rw [hh, ht] at so
        obtain ⟨e1, e2, _⟩ := so
        simp only []
        rw [e1, ih _ e2]

/-- Run from `t`, `p` puts a word on the data bus. -/
def Speaks {α} (p : Prog α) (t : T) : Prop := ∃ w, (Topic.data, w) ∈ p.publishedT t

section speaks
variable {α : Type} (t : T)

theorem sp_op (o : Op) (k : o.ret → Prog α) (x : o.ret) (t' : T) (e : T.handle o t = some (x, t'))
    (hm : o.message = []) : Speaks (.op o k) t ↔ Speaks (k x) t' := by
  unfold Speaks
  simp only [Prog.publishedT, e, hm, List.nil_append]

theorem sp_upd (s : Slot) (f : Unit → Prog α) :
    Speaks (busUpdate s >>= f) t ↔ Speaks (f ()) (t.setCur s (t.topic s.topic)) :=
  sp_op t (.upd s) f () _ rfl rfl
theorem sp_cur (s : Slot) (f : W → Prog α) : Speaks (busCur s >>= f) t ↔ Speaks (f (t.cur s)) t :=
  sp_op t (.cur s) f _ _ rfl rfl
theorem sp_nxt (s : Slot) (f : W → Prog α) :
    Speaks (busNext s >>= f) t ↔ Speaks (f (t.topic s.topic)) t :=
  sp_op t (.nxt s) f _ _ rfl rfl
theorem sp_getReg (r : Reg) (f : W → Prog α) : Speaks (getReg r >>= f) t ↔ Speaks (f (t.regs r)) t :=
  sp_op t (.getReg r) f _ _ rfl rfl
theorem sp_setReg (r : Reg) (w : W) (f : Unit → Prog α) :
    Speaks (setReg r w >>= f) t ↔ Speaks (f ()) (t.setReg r w) :=
  sp_op t (.setReg r w) f () _ rfl rfl
theorem sp_memGet (i : BitVec 16) (f : CInt → Prog α) :
    Speaks (memGet i >>= f) t ↔ Speaks (f (t.mem i)) t :=
  sp_op t (.memGet i) f _ _ rfl rfl
theorem sp_pure {β} (v : β) (f : β → Prog α) : Speaks (Prog.pure v >>= f) t ↔ Speaks (f v) t := Iff.rfl
theorem sp_pure' {β} (v : β) (f : β → Prog α) : Speaks ((pure v : Prog β) >>= f) t ↔ Speaks (f v) t := Iff.rfl
theorem sp_data (w : W) (f : Unit → Prog α) : Speaks (publish .data w >>= f) t ↔ True := by
  refine ⟨fun _ => trivial, fun _ => ⟨w, ?_⟩⟩
  show (Topic.data, w) ∈ (Prog.op (.pub .data w) fun x => (Prog.pure x : Prog Unit).bind f).publishedT t
  simp only [Prog.publishedT, Op.message]
  exact List.mem_append_left _ (List.mem_singleton.2 rfl)
theorem sp_data1 (w : W) : Speaks (publish .data w) t ↔ True := by
  rw [← bind_unit (publish .data w)]
  exact sp_data t w _
theorem sp_pub (tp : Topic) (w : W) (f : Unit → Prog α) (h : Speaks (f ()) (t.setTopic tp w)) :
    Speaks (publish tp w >>= f) t := by
  obtain ⟨v, hv⟩ := h
  refine ⟨v, ?_⟩
  show (Topic.data, v) ∈ (Prog.op (.pub tp w) fun x => (Prog.pure x : Prog Unit).bind f).publishedT t
  simp only [Prog.publishedT, T.handle]
  exact List.mem_append_right _ hv
end speaks

macro "speak" "[" ls:Lean.Parser.Tactic.simpLemma,* "]" : tactic => `(tactic|
  simp only [sp_upd, sp_cur, sp_nxt, sp_getReg, sp_setReg, sp_memGet, sp_pure, sp_pure', sp_data,
    sp_data1, lift_setCur, lift_cur, lift_mem, lift_data, lift_control, upd_same, upd_apply,
    reduceCtorEq, Slot.topic, toInt_8, toInt_16, toInt_2, toInt_bool, toInt_sel2, toInt_sel3,
    usedBits_8, and_false, false_and, and_true, true_and, not_true, not_false_iff, if_true, if_false,
    reduceIte, Bool.false_eq_true, ite_self, top_data, top_dir1, top_dir2, top_acummOut, top_op2Out,
    top_selreg, top_flagsOut, top_control, $ls,*])

theorem speaks_mem (a : A) (cur : Slot → W) (h1 : a.control.getLsbD CB.membus = true)
    (h2 : a.control.getLsbD CB.le = true) : Speaks runMem (lift a cur) := by
  unfold runMem
  speak [h1, h2, getValueByOffset_16]

theorem speaks_alu (a : A) (cur : Slot → W) (h1 : a.control.getLsbD CB.alubus = true) :
    Speaks runAlu (lift a cur) := by
  obtain ⟨r, k, e1, e2, e3⟩ := aluSwitch_typed (a.control.getLsbD CB.selalu2)
    (a.control.getLsbD CB.selalu1) (a.control.getLsbD CB.selalu0) a.acOut a.op2Out
  have c := clear_8 r
  unfold runAlu
  speak [e1]
  refine sp_pub _ _ _ _ ?_
  by_cases ho : usedBits r > 8
  · simp only [ho, decide_true, if_true] at c ⊢
    rw [c, sp_pure]
    refine sp_pub _ _ _ _ ?_
    speak [h1]
  · simp only [ho, decide_false, if_false, Bool.false_eq_true]
    speak []
    refine sp_pub _ _ _ _ ?_
    speak [h1]

theorem speaks_acumm (a : A) (cur : Slot → W) (h1 : a.control.getLsbD CB.acbus = true) :
    Speaks runAcumm (lift a cur) := by
  unfold runAcumm
  cases h2 : a.control.getLsbD CB.accar <;> speak [h1, h2]

theorem speaks_greg (a : A) (cur : Slot → W) (h1 : a.control.getLsbD CB.regbus = true) :
    Speaks runGreg (lift a cur) := by
  have h : ∀ x : BitVec 2, (getGregister (x.setWidth 32)).isSome = true := by decide
  obtain ⟨g, hg⟩ := Option.isSome_iff_exists.1 (h a.selreg)
  unfold runGreg
  cases h2 : a.control.getLsbD CB.regcar <;> speak [h1, h2, hg]

theorem speaks_flagsinta (a : A) (cur : Slot → W) (h1 : a.control.getLsbD CB.flbus = true) :
    Speaks runFlagsinta (lift a cur) := by
  unfold runFlagsinta
  speak [h1]

theorem speaks_pch (a : A) (cur : Slot → W) (h1 : a.control.getLsbD CB.pchbus = true)
    (h2 : a.control.getLsbD CB.pchcar = false) : Speaks runPc (lift a cur) := by
  unfold runPc
  speak [h1, h2]

theorem speaks_pcl (a : A) (cur : Slot → W) (h1 : a.control.getLsbD CB.pclbus = true)
    (h2 : a.control.getLsbD CB.pclcar = false) (h3 : a.control.getLsbD CB.pchcar = false) :
    Speaks runPc (lift a cur) := by
  unfold runPc runPcLow
  cases h4 : a.control.getLsbD CB.pchbus <;> speak [h1, h2, h3, h4]

/-- Run from a typed state with the control word of `a`, `p` comes to a turn of `c` under the same
control word. -/
def Comes (c : Comp) (p : Prog Unit) (a : A) : Prop := ∀ h cur, Rep h (lift a cur) →
  ∃ h1 a1 cur1, Inside c.prog h1 p h ∧ Rep h1 (lift a1 cur1) ∧ a1.control = a.control

theorem comes_self (c : Comp) (a : A) : Comes c c.prog a := fun h cur r =>
  ⟨h, a, cur, inside_self _ h, r, rfl⟩

theorem comes_left {c : Comp} {p : Prog Unit} {a : A} (h : Comes c p a) (f : Unit → Prog Unit) :
    Comes c (p >>= f) a := fun k cur r => by
  obtain ⟨h1, a1, cur1, i, r1, e⟩ := h k cur r
  exact ⟨h1, a1, cur1, i.left f, r1, e⟩

theorem comes_right {c : Comp} {p q : Prog Unit} {f : A → A} {a : A} (hp : Impl p f)
    (hc : (f a).control = a.control) (h : Comes c q (f a)) : Comes c (p >>= fun _ => q) a :=
  fun k cur r => by
  obtain ⟨c1, e⟩ := hp a cur
  obtain ⟨k1, g, r1, _⟩ := sim_some r e
  obtain ⟨h1, a1, cur1, i, r2, e2⟩ := h k1 c1 r1
  exact ⟨h1, a1, cur1, i.right p g, r2, e2.trans hc⟩

theorem async_control (a : A) : a.async.control = a.control := by
  cases a
  simp only [A.async, A.addsub_mk, A.mxdir_mk, A.mxreg_mk, A.memStep_mk, A.alu_mk]

theorem round_control (a : A) : a.acumm.mxfldx.flags.flagsinta.control = a.control := by
  cases a
  simp only [A.acumm_mk, A.mxfldx_mk, A.flags_mk, A.flagsinta_mk]

theorem greg_control (a : A) : a.gregStep.control = a.control := by
  cases a
  simp only [A.gregStep_mk]

theorem sp_control (a : A) : a.spStep.control = a.control := by
  cases a
  simp only [A.spStep_mk]

theorem comes_async (c : Comp) (a : A) (h : c = .mem ∨ c = .alu) : Comes c runAsync a := by
  rcases h with rfl | rfl
  · exact comes_right impl_addsub rfl (comes_right impl_mxdir rfl (comes_right impl_mxreg rfl
      (comes_left (comes_self .mem _) _)))
  · refine comes_right impl_addsub rfl (comes_right impl_mxdir rfl (comes_right impl_mxreg rfl
      (comes_right impl_mem ?_ (comes_left (comes_self .alu _) _))))
    generalize a.addsub.mxdir.mxreg = b
    cases b
    simp only [A.memStep_mk]

theorem impl_round : Impl runAcummOrFlagsRound fun a => a.acumm.mxfldx.flags.flagsinta :=
  impl_acumm.seq (impl_mxfldx.seq (impl_flags.seq impl_flagsinta))

theorem comes_cuSync (c : Comp) (a : A)
    (h : c = .acumm ∨ c = .flagsinta ∨ c = .greg ∨ c = .pc) : Comes c runCuSync a := by
  have s1 : ∀ a : A, (a.fffc.async).control = a.control := fun a => async_control _
  rcases h with rfl | rfl | rfl | rfl
  · exact comes_right impl_fffc.sync (s1 a) (comes_left (comes_left (comes_left
      (comes_self .acumm _) _) _) _)
  · exact comes_right impl_fffc.sync (s1 a) (comes_left (comes_left (comes_right impl_acumm rfl
      (comes_right impl_mxfldx rfl (comes_right impl_flags rfl (comes_self .flagsinta _)))) _) _)
  · exact comes_right impl_fffc.sync (s1 a) (comes_right impl_acummOrFlags
      ((round_control _).trans (round_control _)) (comes_left (comes_left (comes_self .greg _) _) _))
  · exact comes_right impl_fffc.sync (s1 a) (comes_right impl_acummOrFlags
      ((round_control _).trans (round_control _)) (comes_right impl_greg.sync
      ((async_control _).trans (greg_control _)) (comes_right impl_op2.sync (async_control _)
      (comes_right impl_hl.sync (async_control _) (comes_right impl_sp.sync
      ((async_control _).trans (sp_control _)) (comes_left (comes_self .pc _) _))))))

theorem comes_cuRi (c : Comp) (a : A) (hc : Comes c runCuSync a.riStep) : Comes c runCuRi a := by
  intro h cur r
  obtain ⟨k1, g1, r1, _⟩ := sim_some r (run_upd _ .cuData)
  obtain ⟨k2, g2, r2, _⟩ := sim_some r1 (run_upd _ .cuFlags)
  obtain ⟨k3, g3, r3, _⟩ := sim_some r2 (run_upd _ .cuControl)
  obtain ⟨k4, g4, r4, _⟩ := sim_some r3 (run_cur _ .cuControl)
  obtain ⟨k5, g5, r5, _⟩ := sim_some r4 (run_cur _ .cuData)
  simp only [lift_setCur, lift_cur, upd_apply, Slot.topic, top_control, top_data, top_flagsOut,
    reduceCtorEq, if_true, if_false] at g1 g2 g3 g4 g5 r1 r2 r3 r4 r5
  have n : ¬ (a.control.getLsbD CB.ricar = true ∧ usedBits (a.data.setWidth 32) > 8) := by
    exact fun h => usedBits_8 _ h.2
  cases hb : a.control.getLsbD CB.ricar with
  | false =>
    have er : a.riStep = { a with riOut := a.ri } := by
      simp only [A.riStep, A.cb, hb, Bool.false_eq_true, if_false]
    obtain ⟨k6, g6, r6, _⟩ := sim_some r5 (run_getReg _ .ri)
    obtain ⟨k7, g7, r7, _⟩ := sim_some r6 (run_pub _ .riOut (a.ri.setWidth 32))
    rw [lift_riOut, ← er] at r7
    rw [reg_ri] at g6
    obtain ⟨h1, a1, cur1, i, r8, e8⟩ := hc k7 _ r7
    refine ⟨h1, a1, cur1, ?_, r8, e8⟩
    unfold runCuRi
    refine Inside.right _ g1 (Inside.right _ g2 (Inside.right _ g3 (Inside.right _ g4
      (Inside.right _ g5 ?_))))
    rw [if_neg n]
    simp only [hb, Bool.false_eq_true, if_false]
    exact Inside.right _ g6 (Inside.right _ g7 i)
  | true =>
    have er : a.riStep = { a with ri := a.data, riOut := a.data } := by
      simp only [A.riStep, A.cb, hb, if_true]
    obtain ⟨k5', g5', r5', _⟩ := sim_some r5 (run_setReg _ .ri (a.data.setWidth 32))
    rw [lift_set_ri] at r5'
    obtain ⟨k6, g6, r6, _⟩ := sim_some r5' (run_getReg _ .ri)
    obtain ⟨k7, g7, r7, _⟩ := sim_some r6 (run_pub _ .riOut (a.data.setWidth 32))
    rw [lift_riOut] at r7
    rw [reg_ri] at g6
    simp only [] at r7
    rw [← er] at r7
    obtain ⟨h1, a1, cur1, i, r8, e8⟩ := hc k7 _ r7
    refine ⟨h1, a1, cur1, ?_, r8, e8⟩
    unfold runCuRi
    refine Inside.right _ g1 (Inside.right _ g2 (Inside.right _ g3 (Inside.right _ g4
      (Inside.right _ g5 ?_))))
    rw [if_neg n]
    simp only [hb, if_true]
    exact Inside.right _ g5' (Inside.right _ g6 (Inside.right _ g7 i))

theorem comes_rest (c : Comp) (a : A) (h : c = .mem ∨ c = .alu ∨ c = .acumm ∨ c = .flagsinta ∨
    c = .greg ∨ c = .pc) : Comes c (runAsync >>= fun _ => runCuRi) a := by
  have late : c = .acumm ∨ c = .flagsinta ∨ c = .greg ∨ c = .pc → _ := fun hc =>
    comes_right (c := c) impl_async (async_control a) (comes_cuRi c _ (comes_cuSync c _ hc))
  rcases h with h | h | h
  · exact comes_left (comes_async c a (.inl h)) _
  · exact comes_left (comes_async c a (.inr h)) _
  · exact late h

/-- In `run_cu(1)` the open component has a turn in which it drives the bus. -/
theorem high_speaks {a : A} {cur : Slot → W} {h : H} (r : Rep h (lift a cur)) (hq : a.q.toNat < 45)
    {k : Nat} (hk : k ∈ driveBits) (hb : (A.romOf a.q.toNat).getLsbD k = true) :
    ∃ c h1, driver k = some c ∧ Inside (Comp.prog c) h1 (runCu true) h ∧ c.Drives h1 := by
  obtain ⟨c1, h1⟩ := impl_seqJnr a cur
  obtain ⟨k1, g1, r1, _⟩ := sim_some r h1
  obtain ⟨c2, h2⟩ := impl_mxregJnr a.seqJnr c1
  obtain ⟨k2, g2, r2, _⟩ := sim_some r1 h2
  obtain ⟨c3, h3⟩ := impl_seq a.seqJnr.mxregJnr c2
  obtain ⟨k3, g3, r3, _⟩ := sim_some r2 h3
  obtain ⟨c4, h4⟩ := run_rom a.seqJnr.mxregJnr.seq c3 hq
  obtain ⟨k4, g4, r4, _⟩ := sim_some r3 h4
  have side : ∀ s, s < 45 →
      ((A.romOf s).getLsbD CB.membus = true → (A.romOf s).getLsbD CB.le = true) ∧
      ((A.romOf s).getLsbD CB.pchbus = true → (A.romOf s).getLsbD CB.pchcar = false) ∧
      ((A.romOf s).getLsbD CB.pclbus = true → (A.romOf s).getLsbD CB.pclcar = false ∧
        (A.romOf s).getLsbD CB.pchcar = false) := by
    decide +kernel
  obtain ⟨s1, s2, s3⟩ := side _ hq
  have hc : a.seqJnr.mxregJnr.seq.rom.control = A.romOf a.q.toNat := rfl
  have go : ∀ c : Comp, (c = .mem ∨ c = .alu ∨ c = .acumm ∨ c = .flagsinta ∨ c = .greg ∨ c = .pc) →
      (∀ a1 cur1, a1.control = A.romOf a.q.toNat → Speaks c.prog (lift a1 cur1)) →
      ∃ h1, Inside c.prog h1 (runCu true) h ∧ c.Drives h1 := by
    intro c hm hs
    obtain ⟨h1, a1, cur1, i, r5, e5⟩ := comes_rest c _ hm k4 c4 r4
    refine ⟨h1, Inside.right _ g1 (Inside.right _ g2 (Inside.right _ g3 (Inside.right _ g4 i))), ?_⟩
    obtain ⟨w, hw⟩ := hs a1 cur1 (e5.trans hc)
    exact ⟨w, by rw [published_lift _ r5]; exact hw⟩
  simp only [driveBits, List.mem_cons, List.not_mem_nil, or_false] at hk
  rcases hk with rfl | rfl | rfl | rfl | rfl | rfl | rfl
  · obtain ⟨h1, i, d⟩ := go .mem (by decide) fun a1 cur1 e => speaks_mem a1 cur1 (e ▸ hb) (e ▸ s1 hb)
    exact ⟨_, h1, rfl, i, d⟩
  · obtain ⟨h1, i, d⟩ := go .alu (by decide) fun a1 cur1 e => speaks_alu a1 cur1 (e ▸ hb)
    exact ⟨_, h1, rfl, i, d⟩
  · obtain ⟨h1, i, d⟩ := go .acumm (by decide) fun a1 cur1 e => speaks_acumm a1 cur1 (e ▸ hb)
    exact ⟨_, h1, rfl, i, d⟩
  · obtain ⟨h1, i, d⟩ := go .greg (by decide) fun a1 cur1 e => speaks_greg a1 cur1 (e ▸ hb)
    exact ⟨_, h1, rfl, i, d⟩
  · obtain ⟨h1, i, d⟩ := go .flagsinta (by decide) fun a1 cur1 e => speaks_flagsinta a1 cur1 (e ▸ hb)
    exact ⟨_, h1, rfl, i, d⟩
  · obtain ⟨h1, i, d⟩ := go .pc (by decide) fun a1 cur1 e => speaks_pch a1 cur1 (e ▸ hb) (e ▸ s2 hb)
    exact ⟨_, h1, rfl, i, d⟩
  · obtain ⟨h1, i, d⟩ := go .pc (by decide) fun a1 cur1 e =>
      speaks_pcl a1 cur1 (e ▸ hb) (e ▸ (s3 hb).1) (e ▸ (s3 hb).2)
    exact ⟨_, h1, rfl, i, d⟩

theorem turn_speaks {h : H} {a : A} (o : On h a) {k : Nat} (hk : k ∈ driveBits)
    (hb : (A.romOf a.dd.toNat).getLsbD k = true) :
    ∃ c h1, driver k = some c ∧ Turn h c h1 ∧ c.Drives h1 := by
  obtain ⟨cur, r⟩ := o.rep
  cases hc : h.clk with
  | false =>
    have hq := o.clk hc
    obtain ⟨c, h1, e, i, d⟩ := high_speaks (On.clkSet r true) (by rw [hq]; exact o.ok.lt) hk
      (by rw [hq]; exact hb)
    exact ⟨c, h1, e, .up hc i, d⟩
  | true =>
    obtain ⟨c1, h1⟩ := run_cuLow a cur
    obtain ⟨h1', h2, h3, h4⟩ := sim_some (On.clkSet r false) h1
    obtain ⟨c, h1, e, i, d⟩ := high_speaks (On.clkSet h3 true) o.ok.lt hk hb
    exact ⟨c, h1, e, .again hc h2 i, d⟩

/-! ## C97 -/

theorem cycle_bits {p : Phase} {h h' : H} {v : CInt} {u : Bool} (r : Reach p h)
    (hc : (Call.runClockCycle u).Allowed p) (e : exec (.runClockCycle u) h = some (v, h')) :
    ∃ a, On h a ∧ On h' a.cycle ∧ a.cycle.view = a.view.rtl a.dd.toNat ∧
      ∀ k, exec (.getControlBit k) h' =
        some ((if (A.romOf a.dd.toNat).getLsbD k then 1 else 0), h') := by
  obtain ⟨a, o⟩ := r.on hc.1
  obtain ⟨h2, e2, o2, _⟩ := o.cycle u fun hu => by rw [r.inv.ui]; exact hc.2 hu
  rw [e] at e2
  cases e2
  obtain ⟨s1, _, _, _, s2, _⟩ := A.cycle_spec a o.settled o.ok.lt
  exact ⟨a, o, o2, s1, fun k => by rw [o2.getControlBit k, s2]⟩

theorem bit_one {b : Bool} {h h' : H} (e : some ((if b = true then (1 : CInt) else 0), h') =
    some (1, h)) : b = true := by
  cases b
  · simp at e
  · rfl

theorem bit_zero {b : Bool} {h h' : H} (e : some ((if b = true then (1 : CInt) else 0), h') =
    some (0, h)) : b = false := by
  cases b
  · rfl
  · simp at e

/-- **C97.** In no clock cycle of any history do two components drive the data bus. A component may
have several turns in a cycle; it is then the same one that drives the bus in each of them. -/
theorem C97_one {p : Phase} {h h1 h2 : H} {c c' : Comp} (r : Reach p h) (hp : p.on = true)
    (u : Turn h c h1) (d : c.Drives h1) (u' : Turn h c' h2) (d' : c'.Drives h2) : c = c' := by
  obtain ⟨a, o⟩ := r.on hp
  obtain ⟨k, hk, e, b⟩ := turn_control o u d
  obtain ⟨k', hk', e', b'⟩ := turn_control o u' d'
  have := rom_one _ o.ok.lt k hk k' hk' b b'
  subst this
  rw [e] at e'
  injection e'

/-- **C97.** The component that drives the data bus is the one behind the output bit that the getters
show at the end of the cycle, and they show that bit alone. -/
theorem C97_bit {p : Phase} {h h' h1 : H} {v : CInt} {u : Bool} {c : Comp} (r : Reach p h)
    (hc : (Call.runClockCycle u).Allowed p) (e : exec (.runClockCycle u) h = some (v, h'))
    (t : Turn h c h1) (d : c.Drives h1) :
    ∃ k ∈ driveBits, driver k = some c ∧ ∀ k' ∈ driveBits,
      exec (.getControlBit k') h' = some ((if k' = k then 1 else 0), h') := by
  obtain ⟨a, o, _, _, g⟩ := cycle_bits r hc e
  obtain ⟨k, hk, e1, b⟩ := turn_control o t d
  refine ⟨k, hk, e1, fun k' hk' => ?_⟩
  rw [g k']
  by_cases hb : (A.romOf a.dd.toNat).getLsbD k' = true
  · rw [if_pos hb, if_pos (rom_one _ o.ok.lt k' hk' k hk hb b)]
  · rw [if_neg hb, if_neg (fun e : k' = k => hb (e ▸ b))]

/-- **C97.** The other way round: a bit shown at the end of the cycle was obeyed in it. -/
theorem C97_open {p : Phase} {h h' : H} {v : CInt} {u : Bool} {k : Nat} (r : Reach p h)
    (hc : (Call.runClockCycle u).Allowed p) (e : exec (.runClockCycle u) h = some (v, h'))
    (hk : k ∈ driveBits) (b : exec (.getControlBit k) h' = some (1, h')) :
    ∃ c h1, driver k = some c ∧ Turn h c h1 ∧ c.Drives h1 := by
  obtain ⟨a, o, _, _, g⟩ := cycle_bits r hc e
  rw [g k] at b
  exact turn_speaks o hk (bit_one b)

/-- **C97.** Nothing is loaded from a bus that nobody drives: in a cycle whose control word loads a
register or the flags from the data bus, or writes to the memory, a component drives it. -/
theorem C97_fed {p : Phase} {h h' : H} {v : CInt} {u : Bool} (r : Reach p h)
    (hc : (Call.runClockCycle u).Allowed p) (e : exec (.runClockCycle u) h = some (v, h'))
    (l : (∃ k ∈ loadBits, exec (.getControlBit k) h' = some (1, h')) ∨
      (exec (.getControlBit CB.flcar) h' = some (1, h') ∧
        exec (.getControlBit CB.selfl) h' = some (0, h')) ∨
      exec (.getControlBit CB.le) h' = some (0, h')) :
    ∃ c h1, Turn h c h1 ∧ c.Drives h1 := by
  obtain ⟨a, o, _, _, g⟩ := cycle_bits r hc e
  simp only [g] at l
  obtain ⟨k, hk, b⟩ := rom_fed a.dd.toNat o.ok.lt (by
    rcases l with ⟨k, hk, b⟩ | ⟨b1, b2⟩ | b
    · exact .inl ⟨k, hk, bit_one b⟩
    · exact .inr (.inl ⟨bit_one b1, bit_zero b2⟩)
    · exact .inr (.inr (bit_zero b)))
  obtain ⟨c, h1, _, t, d⟩ := turn_speaks o hk b
  exact ⟨c, h1, t, d⟩

/-- The microstates in which nobody drives the data bus. -/
theorem rom_still : ∀ s, s < 45 → (∀ k ∈ driveBits, (A.romOf s).getLsbD k ≠ true) →
    s ∈ [1, 7, 20, 25, 26, 30, 31, 35, 38, 40, 41, 42, 43] := by
  decide +kernel

/-- **C97.** A cycle in which nobody drives the data bus leaves the memory and every register alone
except the program counter, the stack pointer and the flags. -/
theorem C97_still {p : Phase} {h h' : H} {v : CInt} {u : Bool} (r : Reach p h)
    (hc : (Call.runClockCycle u).Allowed p) (e : exec (.runClockCycle u) h = some (v, h'))
    (n : ∀ c h1, Turn h c h1 → ¬ c.Drives h1) :
    (∀ ty ∉ [WType.pc, .pch, .pcl, .sp, .fc, .fz], ∃ x,
      exec (.getRegisterValue ty) h = some (x, h) ∧ exec (.getRegisterValue ty) h' = some (x, h')) ∧
    ∀ i : BitVec 16, ∃ x, exec (.getMemoryValue (i.setWidth 32)) h = some (x, h) ∧
      exec (.getMemoryValue (i.setWidth 32)) h' = some (x, h') := by
  obtain ⟨a, o, o', s, _⟩ := cycle_bits r hc e
  have m := rom_still _ o.ok.lt fun k hk b => by
    obtain ⟨c, h1, _, t, d⟩ := turn_speaks o hk b
    exact n c h1 t d
  have key : (∀ ty ∉ [WType.pc, .pch, .pcl, .sp, .fc, .fz], a.cycle.view.reg ty = a.view.reg ty) ∧
      a.cycle.view.mem = a.view.mem := by
    rw [s]
    generalize a.dd.toNat = k at m
    generalize a.view = v
    simp only [List.mem_cons, List.not_mem_nil, or_false] at m
    rcases m with h | h | h | h | h | h | h | h | h | h | h | h | h <;> subst h <;>
      refine ⟨fun ty ht => ?_, ?_⟩ <;>
      first
      | rfl
      | (simp only [V.rtl, V.decSp, V.incSp]; cases ty <;> first | rfl | exact absurd ht (by decide))
      | (simp only [V.rtl, V.decSp, V.incSp]; split <;> rfl)
      | (simp only [V.rtl, V.decSp, V.incSp]; split <;>
          cases ty <;> first | rfl | exact absurd ht (by decide))
  refine ⟨fun ty ht => ⟨a.view.reg ty, o.getReg ty, ?_⟩, fun i => ⟨_, o.getMemory i, ?_⟩⟩
  · rw [o'.getReg ty, key.1 ty ht]
  · rw [o'.getMemory i]
    have : a.cycle.mem = a.mem := key.2
    rw [this]

/-- Two cycles from the fetch: in the first the memory alone drives the data bus, as the getters show
after it, in the second nobody drives it. -/
example : ∃ p h h1 h2 h3 v v', Reach p h ∧ (Call.runClockCycle true).Allowed p ∧
    exec (.runClockCycle true) h = some (v, h1) ∧ Turn h .mem h2 ∧ Comp.mem.Drives h2 ∧
    exec (.getControlBit CB.membus) h1 = some (1, h1) ∧
    exec (.getControlBit CB.ricar) h1 = some (1, h1) ∧
    Reach p h1 ∧ exec (.runClockCycle true) h1 = some (v', h3) ∧
    ∀ c h4, Turn h1 c h4 → ¬ c.Drives h4 := by
  obtain ⟨h, p, r, on, ui, b, _⟩ :=
    ready_all ⟨1, 2, 3, 4, 5, 6, 7, true, false, fun _ => 0x72, []⟩ rfl
  obtain ⟨a, o⟩ := r.on on
  have d : a.dd = 0 := o.at.boundary.1 b
  have hc : (Call.runClockCycle true).Allowed p := ⟨on, fun _ => ui⟩
  obtain ⟨h1, e, o1, _⟩ := o.cycle true fun _ => by rw [r.inv.ui]; exact ui
  have r1 : Reach p h1 := r.step hc e
  obtain ⟨h3, e1, _⟩ := o1.cycle true fun _ => by rw [r1.inv.ui]; exact ui
  obtain ⟨_, _, _, s1, s2, _⟩ := A.cycle_spec a o.settled o.ok.lt
  have d1 : a.cycle.dd = 1 := by rw [s1, d, next_zero]
  obtain ⟨c, h2, ec, t, w⟩ := turn_speaks (k := CB.membus) o (by decide) (by rw [d]; decide +kernel)
  cases ec
  refine ⟨p, h, h1, h2, h3, _, _, r, hc, e, t, w, ?_, ?_, r1, e1, fun c h4 t w => ?_⟩
  · rw [o1.getControlBit, s2, d]; rfl
  · rw [o1.getControlBit, s2, d]; rfl
  · obtain ⟨k, hk, _, hb⟩ := turn_control o1 t w
    rw [d1] at hb
    exact absurd hb ((by decide +kernel : ∀ k ∈ driveBits, (A.romOf 1).getLsbD k ≠ true) k hk)

end Mpp
