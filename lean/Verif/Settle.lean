import Verif.Schedule
/-!
# Running components until nothing changes

In the loops of a clock cycle the signals arrive: what the components come to does not depend on how
often and in which order they are run, once they were run often enough. Used for C99.
-/
namespace Mpp

/-- What the control words of the ROM have in common: memory and ALU do not both drive the data bus, and
while the flags drive it, neither are they loaded nor does the accumulator drive it. PC is loaded from one
place at a time. -/
def Tidy (c : W) : Prop :=
  ¬ (c.getLsbD 21 = true ∧ c.getLsbD 19 = true ∧ c.getLsbD 16 = true) ∧
  (c.getLsbD 18 = true → c.getLsbD 7 = false ∧ c.getLsbD 17 = false) ∧
  (c.getLsbD 12 = true → c.getLsbD 3 = false ∧ c.getLsbD 4 = false)

instance (c : W) : Decidable (Tidy c) := inferInstanceAs (Decidable (_ ∧ _))

theorem tidy_rom (k : Nat) (h : k < 45) : Tidy (A.romOf k) := by
  have e : ∀ k : Fin 45, Tidy (A.romOf k) := by decide +kernel
  exact e ⟨k, h⟩

namespace A

theorem control_kept {a b : A} (h : a.kept = b.kept) : a.control = b.control := by
  simp only [kept, Prod.mk.injEq] at h
  exact h.2.2.1

macro "open_a" x:ident c:ident : tactic => `(tactic|
  obtain ⟨data, dir1, dir2, pcOut, spOut, hlOut, fffcOut, acOut, op2Out, aluFc, aluFz, selreg, mx7,
      mx0, fcOut, fzOut, riOut, joiner, q, dd, jnr1, jnr2, $c:ident, ac, rb, rc, rd, re, rh, rl, op2,
      pch, pcl, ri, pc, sp, fc, fz, mem, log⟩ := $x:ident)

/-! ## Memory and ALU -/

theorem alu_alu (a : A) : a.alu.alu = a.alu := by
  open_a a control
  simp only [alu_mk, A.mk.injEq, and_true]
  split <;> rfl

theorem mem_mem (a : A) : a.memStep.memStep = a.memStep := by
  open_a a control
  simp only [memStep_mk, A.mk.injEq, and_true, true_and]
  cases control.getLsbD 21 <;> cases control.getLsbD 19 <;> simp [upd_upd]

theorem mem_keeps_alu (a : A) (t : Tidy a.control) (h : a.alu = a) : a.memStep.alu = a.memStep := by
  open_a a control
  simp only [alu_mk, memStep_mk, A.mk.injEq, and_true, true_and] at *
  obtain ⟨t, -⟩ := t
  obtain ⟨h, ha, hb⟩ := h
  refine ⟨?_, ha, hb⟩
  cases h1 : control.getLsbD 21 <;> cases h2 : control.getLsbD 19 <;> cases h3 : control.getLsbD 16 <;>
    simp_all

theorem code_fast_mem (a : A) : stepAll Fast.step [.mem, .alu, .mem, .alu] a.memStep =
    stepAll Fast.step [.mem, .alu, .mem, .alu] a := by
  simp only [stepAll, Fast.step, mem_mem]

theorem code_fast_alu (a : A) (t : Tidy a.control) : stepAll Fast.step [.mem, .alu, .mem, .alu] a.alu =
    stepAll Fast.step [.mem, .alu, .mem, .alu] a := by
  open_a a control
  obtain ⟨t, -⟩ := t
  simp only [stepAll, Fast.step, alu_mk, memStep_mk, A.mk.injEq, and_true, true_and] at *
  cases h1 : control.getLsbD 21 <;> cases h2 : control.getLsbD 19 <;> cases h3 : control.getLsbD 16 <;>
    simp_all [upd_upd]

theorem control_fast (x : Fast) (a : A) : (x.step a).control = a.control := by
  open_a a control
  cases x <;> simp only [Fast.step, alu_mk, memStep_mk]

theorem fast_same (l : List Fast) (h : [Fast.alu, .mem].Sublist l) (a : A) (t : Tidy a.control) :
    stepAll Fast.step l a = stepAll Fast.step [.mem, .alu, .mem, .alu] a := by
  have s0 : Stays Fast.step (fun a => Tidy a.control) := fun x a p => by
    show Tidy (x.step a).control
    rw [control_fast]; exact p
  have s1 : Stays Fast.step (fun a => Tidy a.control ∧ a.alu = a) := by
    intro x a p
    refine ⟨s0 x a p.1, ?_⟩
    cases x with
    | mem => exact mem_keeps_alu a p.1 p.2
    | alu => exact alu_alu a
  have s2 : Stays Fast.step (fun a => (Tidy a.control ∧ a.alu = a) ∧ a.memStep = a) := by
    intro x a p
    refine ⟨s1 x a p.1, ?_⟩
    cases x with
    | mem => exact mem_mem a
    | alu => show a.alu.memStep = a.alu; rw [p.1.2]; exact p.2
  have f := (Leads.cons (x := Fast.alu) s0 (fun a p => ⟨s0 .alu a p, alu_alu a⟩)
    (Leads.cons (x := Fast.mem) s1 (fun a p => ⟨s1 .mem a p, mem_mem a⟩) (Leads.nil s2))) l h a t
  refine stepAll_same s0 t (fun x a p => ?_) (fun x => ?_)
  · cases x with
    | mem => exact code_fast_mem a
    | alu => exact code_fast_alu a p
  · cases x with
    | mem => exact f.2
    | alu => exact f.1.2

/-! ## Accumulator and flags -/

theorem control_slow (x : Slow) (a : A) : (x.step a).control = a.control := by
  open_a a control
  cases x <;> simp only [Slow.step, acumm_mk, mxfldx_mk, flags_mk, flagsinta_mk]

/-- The flags are on their bus. -/
def FlagsOut (a : A) : Prop := a.fcOut = a.fc ∧ a.fzOut = a.fz

theorem flagsOut_slow (x : Slow) (a : A) (h : a.FlagsOut) : (x.step a).FlagsOut := by
  open_a a control
  cases x <;> simp only [Slow.step, acumm_mk, mxfldx_mk, flags_mk, flagsinta_mk, FlagsOut] at * <;> trivial

theorem code_slow (x : Slow) (a : A) (t : Tidy a.control) :
    stepAll Slow.step Plan.code.slow (x.step a) = stepAll Slow.step Plan.code.slow a := by
  open_a a control
  obtain ⟨-, t, -⟩ := t
  simp only at t
  cases x <;>
  simp only [Plan.code, stepAll, Slow.step, acumm_mk, mxfldx_mk, flags_mk, flagsinta_mk, A.mk.injEq, and_true,
    true_and] <;>
  cases h7 : control.getLsbD 7 <;> cases h10 : control.getLsbD 10 <;> cases h17 : control.getLsbD 17 <;>
    cases h18 : control.getLsbD 18 <;> cases h8 : control.getLsbD 8 <;>
    simp_all

theorem acumm_acumm (a : A) : a.acumm.acumm = a.acumm := by
  open_a a control
  simp only [acumm_mk, A.mk.injEq, and_true, true_and]
  cases control.getLsbD 10 <;> cases control.getLsbD 17 <;> simp

theorem mxfldx_mxfldx (a : A) : a.mxfldx.mxfldx = a.mxfldx := by
  open_a a control
  simp only [mxfldx_mk]

theorem flags_flags (a : A) : a.flags.flags = a.flags := by
  open_a a control
  simp only [flags_mk, A.mk.injEq, and_true, true_and]
  cases control.getLsbD 7 <;> simp

theorem flagsinta_flagsinta (a : A) : a.flagsinta.flagsinta = a.flagsinta := by
  open_a a control
  simp only [flagsinta_mk, A.mk.injEq, and_true]
  cases control.getLsbD 18 <;> simp

theorem mxfldx_keeps_acumm (a : A) (h : a.acumm = a) : a.mxfldx.acumm = a.mxfldx := by
  open_a a control
  simp only [acumm_mk, mxfldx_mk, A.mk.injEq, and_true, true_and] at *
  exact h

theorem flags_keeps_acumm (a : A) (h : a.acumm = a) : a.flags.acumm = a.flags := by
  open_a a control
  simp only [acumm_mk, flags_mk, A.mk.injEq, and_true, true_and] at *
  exact h

theorem flags_keeps_mxfldx (a : A) (h : a.mxfldx = a) : a.flags.mxfldx = a.flags := by
  open_a a control
  simp only [mxfldx_mk, flags_mk, A.mk.injEq, and_true, true_and] at *
  exact h

theorem flagsinta_off (a : A) (h : a.control.getLsbD 18 = false) : a.flagsinta = a := by
  open_a a control
  simp only [flagsinta_mk, A.mk.injEq, and_true, h]
  rfl

theorem flags_off (a : A) (h : a.control.getLsbD 7 = false) (f : a.FlagsOut) : a.flags = a := by
  open_a a control
  obtain ⟨f1, f2⟩ := f
  simp only at f1 f2
  simp only [flags_mk, A.mk.injEq, and_true, true_and, h, f1, f2]
  simp

theorem acumm_keeps_flagsinta (a : A) (h17 : a.control.getLsbD 17 = false) (h : a.flagsinta = a) :
    a.acumm.flagsinta = a.acumm := by
  open_a a control
  simp only at h17
  simp only [acumm_mk, flagsinta_mk, A.mk.injEq, and_true, h17, Bool.false_eq_true, if_false] at *
  exact h

theorem mxfldx_keeps_flagsinta (a : A) (h : a.flagsinta = a) : a.mxfldx.flagsinta = a.mxfldx := by
  open_a a control
  simp only [mxfldx_mk, flagsinta_mk, A.mk.injEq, and_true] at *
  exact h

theorem acumm_keeps_mxfldx (a : A) (h17 : a.control.getLsbD 17 = false) (h : a.mxfldx = a) :
    a.acumm.mxfldx = a.acumm := by
  open_a a control
  simp only at h17
  simp only [acumm_mk, mxfldx_mk, A.mk.injEq, and_true, true_and, h17, Bool.false_eq_true, if_false] at *
  exact h

theorem slow_same (l : List Slow) (h1 : [Slow.acumm, .mxfldx, .flags].Sublist l)
    (h2 : [Slow.flagsinta, .acumm].Sublist l) (h3 : [Slow.flagsinta, .mxfldx].Sublist l) (a : A)
    (t : Tidy a.control) (f : a.FlagsOut) :
    stepAll Slow.step l a = stepAll Slow.step Plan.code.slow a := by
  have s : Stays Slow.step (fun a => Tidy a.control) := fun x a p => by
    show Tidy (x.step a).control
    rw [control_slow]; exact p
  refine stepAll_same s t (fun x a p => code_slow x a p) ?_
  cases h18 : a.control.getLsbD 18 with
  | false =>
    have s0 : Stays Slow.step (fun a => a.control.getLsbD 18 = false) := fun x a p => by
      show (x.step a).control.getLsbD 18 = false
      rw [control_slow]; exact p
    have s1 : Stays Slow.step (fun a => a.control.getLsbD 18 = false ∧ a.acumm = a) := by
      intro x a p
      refine ⟨s0 x a p.1, ?_⟩
      cases x with
      | acumm => exact acumm_acumm a
      | mxfldx => exact mxfldx_keeps_acumm a p.2
      | flags => exact flags_keeps_acumm a p.2
      | flagsinta => simp only [Slow.step, flagsinta_off a p.1, p.2]
    have s2 : Stays Slow.step (fun a => (a.control.getLsbD 18 = false ∧ a.acumm = a) ∧ a.mxfldx = a) := by
      intro x a p
      refine ⟨s1 x a p.1, ?_⟩
      cases x with
      | acumm => simp only [Slow.step, p.1.2, p.2]
      | mxfldx => exact mxfldx_mxfldx a
      | flags => exact flags_keeps_mxfldx a p.2
      | flagsinta => simp only [Slow.step, flagsinta_off a p.1.1, p.2]
    have s3 : Stays Slow.step (fun a => ((a.control.getLsbD 18 = false ∧ a.acumm = a) ∧ a.mxfldx = a) ∧
        a.flags = a) := by
      intro x a p
      refine ⟨s2 x a p.1, ?_⟩
      cases x with
      | acumm => simp only [Slow.step, p.1.1.2, p.2]
      | mxfldx => simp only [Slow.step, p.1.2, p.2]
      | flags => exact flags_flags a
      | flagsinta => simp only [Slow.step, flagsinta_off a p.1.1.1, p.2]
    have g := (Leads.cons (x := Slow.acumm) s0 (fun a p => ⟨s0 .acumm a p, acumm_acumm a⟩)
      (Leads.cons (x := Slow.mxfldx) s1 (fun a p => ⟨s1 .mxfldx a p, mxfldx_mxfldx a⟩)
        (Leads.cons (x := Slow.flags) s2 (fun a p => ⟨s2 .flags a p, flags_flags a⟩) (Leads.nil s3)))) l h1 a h18
    intro x
    cases x with
    | acumm => exact g.1.1.2
    | mxfldx => exact g.1.2
    | flags => exact g.2
    | flagsinta => exact flagsinta_off _ g.1.1.1
  | true =>
    obtain ⟨h7, h17⟩ := t.2.1 h18
    let P : A → Prop := fun a => (a.control.getLsbD 7 = false ∧ a.control.getLsbD 17 = false) ∧ a.FlagsOut
    have s0 : Stays Slow.step P := fun x a p => by
      refine ⟨?_, flagsOut_slow x a p.2⟩
      rw [control_slow]; exact p.1
    have s1 : Stays Slow.step (fun a => P a ∧ a.flagsinta = a) := by
      intro x a p
      refine ⟨s0 x a p.1, ?_⟩
      cases x with
      | acumm => exact acumm_keeps_flagsinta a p.1.1.2 p.2
      | mxfldx => exact mxfldx_keeps_flagsinta a p.2
      | flags => simp only [Slow.step, flags_off a p.1.1.1 p.1.2, p.2]
      | flagsinta => exact flagsinta_flagsinta a
    have s2 : Stays Slow.step (fun a => (P a ∧ a.flagsinta = a) ∧ a.acumm = a) := by
      intro x a p
      refine ⟨s1 x a p.1, ?_⟩
      cases x with
      | acumm => exact acumm_acumm a
      | mxfldx => exact mxfldx_keeps_acumm a p.2
      | flags => exact flags_keeps_acumm a p.2
      | flagsinta => simp only [Slow.step, p.1.2, p.2]
    have s3 : Stays Slow.step (fun a => (P a ∧ a.flagsinta = a) ∧ a.mxfldx = a) := by
      intro x a p
      refine ⟨s1 x a p.1, ?_⟩
      cases x with
      | acumm => exact acumm_keeps_mxfldx a p.1.1.1.2 p.2
      | mxfldx => exact mxfldx_mxfldx a
      | flags => exact flags_keeps_mxfldx a p.2
      | flagsinta => simp only [Slow.step, p.1.2, p.2]
    have q : P a := ⟨⟨h7, h17⟩, f⟩
    have g1 := (Leads.cons (x := Slow.flagsinta) s0 (fun a p => ⟨s0 .flagsinta a p, flagsinta_flagsinta a⟩)
      (Leads.cons (x := Slow.acumm) s1 (fun a p => ⟨s1 .acumm a p, acumm_acumm a⟩) (Leads.nil s2))) l h2 a q
    have g2 := (Leads.cons (x := Slow.flagsinta) s0 (fun a p => ⟨s0 .flagsinta a p, flagsinta_flagsinta a⟩)
      (Leads.cons (x := Slow.mxfldx) s1 (fun a p => ⟨s1 .mxfldx a p, mxfldx_mxfldx a⟩) (Leads.nil s3))) l h3 a q
    intro x
    cases x with
    | acumm => exact g1.2
    | mxfldx => exact g2.2
    | flags => exact flags_off _ g1.1.1.1.1 g1.1.1.2
    | flagsinta => exact g1.1.2

/-! ## Everything but the output of the adder -/

/-- The same state, with nothing on the output of the adder. -/
def z (a : A) : A := { a with dir1 := 0 }

theorem async_of_z (a : A) : a.async = a.z.async := by
  open_a a control
  simp only [z, async, addsub_mk, mxdir_mk, mxreg_mk, memStep_mk, alu_mk]

theorem async_z {a b : A} (h : a.z = b.z) : a.async = b.async := by
  rw [async_of_z a, h, ← async_of_z]

theorem async_async_z (a : A) (t : Tidy a.control) : a.async.async.z = a.async.z := by
  open_a a control
  obtain ⟨t, -⟩ := t
  simp only [z, async, addsub_mk, mxdir_mk, mxreg_mk, memStep_mk, alu_mk, A.mk.injEq, and_true, true_and] at *
  cases h1 : control.getLsbD 21 <;> cases h2 : control.getLsbD 19 <;> cases h3 : control.getLsbD 16 <;>
    simp_all [upd_upd]

/-! ## Memory and ALU once more -/

theorem alu_keeps_mem (a : A) (t : Tidy a.control) (w : a.control.getLsbD 21 = true ∨ a.control.getLsbD 16 = false)
    (h : a.memStep = a) : a.alu.memStep = a.alu := by
  open_a a control
  obtain ⟨t, -⟩ := t
  simp only [alu_mk, memStep_mk, A.mk.injEq, and_true, true_and] at *
  cases h1 : control.getLsbD 21 <;> cases h2 : control.getLsbD 19 <;> cases h3 : control.getLsbD 16 <;>
    simp_all

/-- Unless the ALU feeds the memory, once each is enough, in any order. -/
theorem fast_any (l : List Fast) (hm : Fast.mem ∈ l) (ha : Fast.alu ∈ l) (a : A) (t : Tidy a.control)
    (w : a.control.getLsbD 21 = true ∨ a.control.getLsbD 16 = false) :
    stepAll Fast.step l a = stepAll Fast.step [.mem, .alu, .mem, .alu] a := by
  let P : A → Prop := fun a => Tidy a.control ∧ (a.control.getLsbD 21 = true ∨ a.control.getLsbD 16 = false)
  have s0 : Stays Fast.step P := fun x a p => by
    show Tidy (x.step a).control ∧ _
    rw [control_fast]; exact p
  have s1 : Stays Fast.step (fun a => P a ∧ a.alu = a) := by
    intro x a p
    refine ⟨s0 x a p.1, ?_⟩
    cases x with
    | mem => exact mem_keeps_alu a p.1.1 p.2
    | alu => exact alu_alu a
  have s2 : Stays Fast.step (fun a => P a ∧ a.memStep = a) := by
    intro x a p
    refine ⟨s0 x a p.1, ?_⟩
    cases x with
    | mem => exact mem_mem a
    | alu => exact alu_keeps_mem a p.1.1 p.1.2 p.2
  have f1 := (Leads.cons (x := Fast.alu) s0 (fun a p => ⟨s0 .alu a p, alu_alu a⟩) (Leads.nil s1)) l
    (List.singleton_sublist.mpr ha) a ⟨t, w⟩
  have f2 := (Leads.cons (x := Fast.mem) s0 (fun a p => ⟨s0 .mem a p, mem_mem a⟩) (Leads.nil s2)) l
    (List.singleton_sublist.mpr hm) a ⟨t, w⟩
  refine stepAll_same s0 ⟨t, w⟩ (fun x a p => ?_) (fun x => ?_)
  · cases x with
    | mem => exact code_fast_mem a
    | alu => exact code_fast_alu a p.1
  · cases x with
    | mem => exact f2.2
    | alu => exact f1.2

theorem asyncAs_code (a : A) : a.asyncAs [.mem, .alu, .mem, .alu] = a.async := rfl

theorem asyncAs_any (l : List Fast) (hm : Fast.mem ∈ l) (ha : Fast.alu ∈ l) (a : A) (t : Tidy a.control)
    (w : a.control.getLsbD 21 = true ∨ a.control.getLsbD 16 = false) : a.asyncAs l = a.async := by
  have e : a.addsub.mxdir.mxreg.control = a.control := rfl
  rw [← asyncAs_code]
  exact fast_any l hm ha _ (e ▸ t) (e ▸ w)

/-! ## The last components -/

/-- The last components, each with `run_asyncronus_components` behind it. -/
def lateRun : List Late → A → A
  | [], a => a
  | c :: l, a => lateRun l (c.step a).async

/-- Has the control word something to do for the component. -/
def _root_.Mpp.Late.on (c : W) : Late → Bool
  | .greg => c.getLsbD 11 || c.getLsbD 20
  | .op2 => c.getLsbD 9
  | .hl => c.getLsbD 6 || c.getLsbD 5
  | .sp => c.getLsbD 2
  | .pc => c.getLsbD 12 || c.getLsbD 3 || c.getLsbD 4 || c.getLsbD 14 || c.getLsbD 15

/-- The last components show their registers. -/
def Outs (a : A) : Prop := a.op2Out = a.op2 ∧ a.hlOut = a.rh ++ a.rl ∧ a.spOut = a.sp ∧ a.pcOut = a.pc

theorem idle_late (x : Late) (a : A) (o : a.Outs) (h : x.on a.control = false) : x.step a = a := by
  open_a a control
  obtain ⟨o1, o2, o3, o4⟩ := o
  simp only at o1 o2 o3 o4
  subst o1 o2 o3 o4
  cases x <;> simp only [Late.on, Bool.or_eq_false_iff] at h <;>
    simp only [Late.step, gregStep_mk, op2Step_mk, hl_mk, spStep_mk, pcStep_mk, h, Bool.false_eq_true, if_false]

theorem control_late (x : Late) (a : A) : (x.step a).control = a.control := by
  cases x
  · exact control_kept (kept_gregStep a)
  · exact control_kept (kept_op2Step a)
  · exact control_kept (kept_hl a)
  · exact control_kept (kept_spStep a)
  · exact control_kept (kept_pcStep a)

theorem control_async (a : A) : a.async.control = a.control := control_kept (kept_async a)

theorem outs_async (a : A) (o : a.Outs) : a.async.Outs := by
  simp only [Outs] at *
  frame_tac a
  exact o

theorem outs_late (x : Late) (a : A) (t : Tidy a.control) (o : a.Outs) : (x.step a).Outs := by
  open_a a control
  obtain ⟨-, -, t⟩ := t
  simp only [Outs] at *
  obtain ⟨o1, o2, o3, o4⟩ := o
  subst o1 o2 o3 o4
  cases x with
  | pc =>
    simp only [Late.step, pcStep_mk, true_and]
    split
    · rename_i h
      simp only [t h, Bool.false_eq_true, if_false]
    · rfl
  | _ => simp only [Late.step, gregStep_mk, op2Step_mk, hl_mk, spStep_mk, and_self]

theorem late_none (l : List Late) (c : W) (t : Tidy c) (h : ∀ y ∈ l, y.on c = false) (a : A) (hc : a.control = c)
    (o : a.Outs) (st : a.async.z = a.z) : (a.lateRun l).z = a.z := by
  induction l generalizing a with
  | nil => rfl
  | cons y l ih =>
    have e : y.step a = a := idle_late y a o (by rw [hc]; exact h y (by simp))
    simp only [lateRun, e]
    rw [ih (fun y hy => h y (by simp [hy])) a.async (by rw [control_async, hc]) (outs_async a o)
      (async_async_z a (by rw [hc]; exact t)), st]

theorem late_one (x : Late) (l : List Late) (hx : x ∈ l) (nd : l.Nodup) (c : W) (t : Tidy c)
    (h : ∀ y ∈ l, y ≠ x → y.on c = false) (a : A) (hc : a.control = c) (o : a.Outs) (st : a.async = a) :
    (a.lateRun l).z = (x.step a).async.z := by
  induction l with
  | nil => cases hx
  | cons y l ih =>
    rw [List.nodup_cons] at nd
    by_cases e : y = x
    · subst e
      have hn : ∀ w ∈ l, w.on c = false := fun w hw => h w (by simp [hw]) (fun e => nd.1 (e ▸ hw))
      have hc' : (y.step a).control = c := by rw [control_late, hc]
      exact late_none l c t hn _ (by rw [control_async, hc'])
        (outs_async _ (outs_late y a (by rw [hc]; exact t) o)) (async_async_z _ (by rw [hc']; exact t))
    · have e1 : y.step a = a := idle_late y a o (by rw [hc]; exact h y (by simp) e)
      simp only [lateRun, e1, st]
      refine ih ?_ nd.2 (fun w hw => h w (by simp [hw]))
      rcases List.mem_cons.mp hx with e2 | e2
      · exact absurd e2.symm e
      · exact e2

theorem late_two (x y : Late) (hxy : x ≠ y) (l : List Late) (hs : [x, y].Sublist l) (nd : l.Nodup) (c : W)
    (t : Tidy c) (h : ∀ w ∈ l, w ≠ x → w ≠ y → w.on c = false) (a : A) (hc : a.control = c) (o : a.Outs)
    (st : a.async = a) (st2 : (x.step a).async.async = (x.step a).async) :
    (a.lateRun l).z = (y.step (x.step a).async).async.z := by
  induction l with
  | nil => cases hs
  | cons w l ih =>
    rw [List.nodup_cons] at nd
    by_cases e : w = x
    · subst e
      have hy : y ∈ l := by
        cases hs with
        | cons _ h2 => exact absurd (h2.subset (by simp)) nd.1
        | cons_cons _ h2 => exact h2.subset (by simp)
      have hc' : (w.step a).control = c := by rw [control_late, hc]
      exact late_one y l hy nd.2 c t (fun v hv e => h v (by simp [hv]) (fun e2 => nd.1 (e2 ▸ hv)) e) _
        (by rw [control_async, hc']) (outs_async _ (outs_late w a (by rw [hc]; exact t) o)) st2
    · have hs' : [x, y].Sublist l := by
        cases hs with
        | cons _ h2 => exact h2
        | cons_cons _ h2 => exact absurd rfl e
      have e2 : w ≠ y := fun e2 => nd.1 (e2 ▸ hs'.subset (by simp))
      have e1 : w.step a = a := idle_late w a o (by rw [hc]; exact h w (by simp) e e2)
      simp only [lateRun, e1, st]
      exact ih hs' nd.2 (fun v hv => h v (by simp [hv]))

theorem late_idle (l l' : List Late) (hl : l.length = l'.length) (c : W) (h : ∀ y : Late, y.on c = false)
    (a : A) (hc : a.control = c) (o : a.Outs) : a.lateRun l = a.lateRun l' := by
  induction l generalizing l' a with
  | nil => cases l' with
    | nil => rfl
    | cons _ _ => cases hl
  | cons y l ih => cases l' with
    | nil => cases hl
    | cons y' l' =>
      simp only [lateRun, idle_late y a o (by rw [hc]; exact h y), idle_late y' a o (by rw [hc]; exact h y')]
      exact ih l' (by simpa using hl) _ (by rw [control_async, hc]) (outs_async a o)

/-- An order in which the last components may be run. -/
structure _root_.Mpp.LateOk (l : List Late) : Prop where
  perm : l.Perm [.greg, .op2, .hl, .sp, .pc]
  op2 : [Late.greg, .op2, .pc].Sublist l
  hl : [Late.greg, .hl, .pc].Sublist l

theorem _root_.Mpp.LateOk.code : LateOk [.greg, .op2, .hl, .sp, .pc] := ⟨.refl _, by decide, by decide⟩

theorem _root_.Mpp.LateOk.nodup {l : List Late} (h : LateOk l) : l.Nodup := h.perm.nodup_iff.mpr (by decide)

theorem _root_.Mpp.LateOk.mem {l : List Late} (h : LateOk l) (x : Late) : x ∈ l :=
  h.perm.mem_iff.mpr (by cases x <;> decide)

/-- The state of a cycle in which the last components begin. -/
def begun (a : A) : A := a.async.riStep.fffc.async.acummOrFlags

macro "still_simp" : tactic => `(tactic|
  simp only [begun, async, acummOrFlags, V.at, acumm_mk, flags_mk,
    flagsinta_mk, mxfldx_mk, gregStep_mk, op2Step_mk, hl_mk, spStep_mk, pcStep_mk, fffc_mk,
    addsub_mk, mxdir_mk, mxreg_mk, memStep_mk, alu_mk, riStep_mk, BitVec.reduceGetLsb, if_true,
    if_false, Bool.false_eq_true, aluRes, aluCarry, Bool.or_false, Bool.or_true, Bool.true_or,
    Bool.false_or, upd_upd, inc_lt, dec_lt, wid_lt, inc_narrow, dec_narrow, wid_narrow, sel3, upd_same, Late.step])

theorem control_begun (v : V) (s : A) (c : W) : (v.at s c).begun.control = c := by
  have e : (v.at s c).begun.kept = (v.at s c).kept := by
    simp only [begun, kept_async, kept_riStep, kept_fffc, kept_acummOrFlags]
  rw [control_kept e]
  rfl

theorem outs_begun (v : V) (s : A) (c : W) : (v.at s c).begun.Outs := by
  have h1 : (v.at s c).Outs := ⟨rfl, rfl, rfl, rfl⟩
  have h2 : (v.at s c).async.riStep.fffc.async.Outs := outs_async _ (outs_async _ h1)
  have h3 : ∀ a : A, a.Outs → a.acummOrFlags.Outs := by
    intro a o
    simp only [Outs] at *
    frame_tac a
    exact o
  exact h3 _ h2

theorem word_none (c : W) (h : ∀ y : Late, y.on c = false) (v : V) (s : A) (l : List Late) (ok : LateOk l) :
    ((v.at s c).begun.lateRun l).z = ((v.at s c).begun.lateRun [.greg, .op2, .hl, .sp, .pc]).z := by
  rw [late_idle l [.greg, .op2, .hl, .sp, .pc] ok.perm.length_eq c h _ (control_begun v s c) (outs_begun v s c)]

theorem word_one (c : W) (t : Tidy c) (x : Late) (h : ∀ y : Late, y ≠ x → y.on c = false) (v : V) (s : A)
    (st : (v.at s c).begun.async = (v.at s c).begun) (l : List Late) (ok : LateOk l) :
    ((v.at s c).begun.lateRun l).z = ((v.at s c).begun.lateRun [.greg, .op2, .hl, .sp, .pc]).z := by
  rw [late_one x l (ok.mem x) ok.nodup c t (fun y _ => h y) _ (control_begun v s c) (outs_begun v s c) st,
    late_one x _ (LateOk.code.mem x) LateOk.code.nodup c t (fun y _ => h y) _ (control_begun v s c)
      (outs_begun v s c) st]

theorem word_two (c : W) (t : Tidy c) (x y : Late) (hxy : x ≠ y) (h : ∀ w : Late, w ≠ x → w ≠ y → w.on c = false)
    (v : V) (s : A) (st : (v.at s c).begun.async = (v.at s c).begun)
    (st2 : (x.step (v.at s c).begun).async.async = (x.step (v.at s c).begun).async)
    (hs : ∀ {l : List Late}, LateOk l → [x, y].Sublist l) (l : List Late) (ok : LateOk l) :
    ((v.at s c).begun.lateRun l).z = ((v.at s c).begun.lateRun [.greg, .op2, .hl, .sp, .pc]).z := by
  rw [late_two x y hxy l (hs ok) ok.nodup c t (fun w _ => h w) _ (control_begun v s c) (outs_begun v s c) st st2,
    late_two x y hxy _ (hs LateOk.code) LateOk.code.nodup c t (fun w _ => h w) _ (control_begun v s c)
      (outs_begun v s c) st st2]

/-- For every microstate but S30, which is never reached, the order does not matter. -/
theorem late_word (k : Nat) (hk : k < 45) (h30 : k ≠ 30) (v : V) (s : A) (l : List Late) (ok : LateOk l) :
    ((v.at s (romOf k)).begun.lateRun l).z =
      ((v.at s (romOf k)).begun.lateRun [.greg, .op2, .hl, .sp, .pc]).z := by
  match k, hk, h30 with
  | 0, _, _ => rw [rom0]; exact word_one _ (by decide) .pc (by intro y; cases y <;> decide) v s (by still_simp) l ok
  | 1, _, _ => rw [rom1]; exact word_none _ (by intro y; cases y <;> decide) v s l ok
  | 2, _, _ =>
    rw [rom2]
    exact word_two _ (by decide) .greg .op2 (by decide) (by intro y; cases y <;> decide) v s
      (by still_simp) (by still_simp) (fun h => .trans (by decide) h.op2) l ok
  | 3, _, _ => rw [rom3]; exact word_one _ (by decide) .greg (by intro y; cases y <;> decide) v s (by still_simp) l ok
  | 4, _, _ => rw [rom4]; exact word_none _ (by intro y; cases y <;> decide) v s l ok
  | 5, _, _ => rw [rom5]; exact word_none _ (by intro y; cases y <;> decide) v s l ok
  | 6, _, _ => rw [rom6]; exact word_none _ (by intro y; cases y <;> decide) v s l ok
  | 7, _, _ => rw [rom7]; exact word_none _ (by intro y; cases y <;> decide) v s l ok
  | 8, _, _ => rw [rom8]; exact word_one _ (by decide) .greg (by intro y; cases y <;> decide) v s (by still_simp) l ok
  | 9, _, _ => rw [rom9]; exact word_none _ (by intro y; cases y <;> decide) v s l ok
  | 10, _, _ => rw [rom10]; exact word_none _ (by intro y; cases y <;> decide) v s l ok
  | 11, _, _ => rw [rom11]; exact word_none _ (by intro y; cases y <;> decide) v s l ok
  | 12, _, _ => rw [rom12]; exact word_one _ (by decide) .op2 (by intro y; cases y <;> decide) v s (by still_simp) l ok
  | 13, _, _ => rw [rom13]; exact word_none _ (by intro y; cases y <;> decide) v s l ok
  | 14, _, _ => rw [rom14]; exact word_none _ (by intro y; cases y <;> decide) v s l ok
  | 15, _, _ =>
    rw [rom15]
    exact word_two _ (by decide) .op2 .pc (by decide) (by intro y; cases y <;> decide) v s
      (by still_simp) (by still_simp) (fun h => .trans (by decide) h.op2) l ok
  | 16, _, _ =>
    rw [rom16]
    exact word_two _ (by decide) .hl .pc (by decide) (by intro y; cases y <;> decide) v s
      (by still_simp) (by still_simp) (fun h => .trans (by decide) h.hl) l ok
  | 17, _, _ =>
    rw [rom17]
    exact word_two _ (by decide) .hl .pc (by decide) (by intro y; cases y <;> decide) v s
      (by still_simp) (by still_simp) (fun h => .trans (by decide) h.hl) l ok
  | 18, _, _ => rw [rom18]; exact word_one _ (by decide) .op2 (by intro y; cases y <;> decide) v s (by still_simp) l ok
  | 19, _, _ => rw [rom19]; exact word_none _ (by intro y; cases y <;> decide) v s l ok
  | 20, _, _ => rw [rom20]; exact word_one _ (by decide) .pc (by intro y; cases y <;> decide) v s (by still_simp) l ok
  | 21, _, _ =>
    rw [rom21]
    exact word_two _ (by decide) .greg .hl (by decide) (by intro y; cases y <;> decide) v s
      (by still_simp) (by still_simp) (fun h => .trans (by decide) h.hl) l ok
  | 22, _, _ =>
    rw [rom22]
    exact word_two _ (by decide) .greg .hl (by decide) (by intro y; cases y <;> decide) v s
      (by still_simp) (by still_simp) (fun h => .trans (by decide) h.hl) l ok
  | 23, _, _ => rw [rom23]; exact word_none _ (by intro y; cases y <;> decide) v s l ok
  | 24, _, _ => rw [rom24]; exact word_none _ (by intro y; cases y <;> decide) v s l ok
  | 25, _, _ => rw [rom25]; exact word_none _ (by intro y; cases y <;> decide) v s l ok
  | 26, _, _ => rw [rom26]; exact word_one _ (by decide) .sp (by intro y; cases y <;> decide) v s (by still_simp) l ok
  | 27, _, _ => rw [rom27]; exact word_none _ (by intro y; cases y <;> decide) v s l ok
  | 28, _, _ => rw [rom28]; exact word_one _ (by decide) .pc (by intro y; cases y <;> decide) v s (by still_simp) l ok
  | 29, _, _ => rw [rom29]; exact word_one _ (by decide) .pc (by intro y; cases y <;> decide) v s (by still_simp) l ok
  | 30, _, h => exact absurd rfl h
  | 31, _, _ => rw [rom31]; exact word_one _ (by decide) .sp (by intro y; cases y <;> decide) v s (by still_simp) l ok
  | 32, _, _ => rw [rom32]; exact word_one _ (by decide) .pc (by intro y; cases y <;> decide) v s (by still_simp) l ok
  | 33, _, _ => rw [rom33]; exact word_one _ (by decide) .pc (by intro y; cases y <;> decide) v s (by still_simp) l ok
  | 34, _, _ => rw [rom34]; exact word_none _ (by intro y; cases y <;> decide) v s l ok
  | 35, _, _ => rw [rom35]; exact word_none _ (by intro y; cases y <;> decide) v s l ok
  | 36, _, _ => rw [rom36]; exact word_none _ (by intro y; cases y <;> decide) v s l ok
  | 37, _, _ => rw [rom37]; exact word_none _ (by intro y; cases y <;> decide) v s l ok
  | 38, _, _ => rw [rom38]; exact word_one _ (by decide) .sp (by intro y; cases y <;> decide) v s (by still_simp) l ok
  | 39, _, _ => rw [rom39]; exact word_one _ (by decide) .greg (by intro y; cases y <;> decide) v s (by still_simp) l ok
  | 40, _, _ => rw [rom40]; exact word_one _ (by decide) .sp (by intro y; cases y <;> decide) v s (by still_simp) l ok
  | 41, _, _ => rw [rom41]; exact word_one _ (by decide) .sp (by intro y; cases y <;> decide) v s (by still_simp) l ok
  | 42, _, _ => rw [rom42]; exact word_one _ (by decide) .sp (by intro y; cases y <;> decide) v s (by still_simp) l ok
  | 43, _, _ => rw [rom43]; exact word_one _ (by decide) .sp (by intro y; cases y <;> decide) v s (by still_simp) l ok
  | 44, _, _ => rw [rom44]; exact word_one _ (by decide) .greg (by intro y; cases y <;> decide) v s (by still_simp) l ok
  | k + 45, h, _ => omega

/-! ## The whole cycle -/

/-- What is needed of a plan: memory and ALU are run each time, in any order; the accumulator before the
inputs of the flags and these before the flags, and the output of the flags before the accumulator and
before their inputs; the general registers before 2OP and H, L, and these before PC. -/
structure _root_.Mpp.Plan.Enough (pl : Plan) : Prop where
  mem : ∀ n, n < 7 → Fast.mem ∈ pl.fast n
  alu : ∀ n, n < 7 → Fast.alu ∈ pl.fast n
  slow1 : [Slow.acumm, .mxfldx, .flags].Sublist pl.slow
  slow2 : [Slow.flagsinta, .acumm].Sublist pl.slow
  slow3 : [Slow.flagsinta, .mxfldx].Sublist pl.slow
  late : LateOk pl.late

theorem flagsOut_begun (v : V) (s : A) (c : W) : (v.at s c).async.riStep.fffc.async.FlagsOut := by
  have h : ∀ a : A, a.FlagsOut → a.async.FlagsOut := by
    intro a o
    simp only [FlagsOut] at *
    frame_tac a
    exact o
  exact h _ (h (v.at s c) ⟨rfl, rfl⟩)

theorem lateAs_run (f : Nat → List Fast) (c : W)
    (hf : ∀ n, n < 7 → ∀ a : A, a.control = c → a.asyncAs (f n) = a.async) (l : List Late) (n : Nat)
    (hn : n + l.length ≤ 7) (a : A) (hc : a.control = c) : a.lateAs f n l = a.lateRun l := by
  induction l generalizing n a with
  | nil => rfl
  | cons x l ih =>
    simp only [List.length_cons] at hn
    have hx : (x.step a).control = c := by rw [control_late, hc]
    simp only [lateAs, lateRun]
    rw [hf n (by omega) _ hx]
    exact ih (n + 1) (by omega) _ (by rw [control_async, hx])

/-- All microstates but S19, in which the ALU feeds the memory. -/
theorem ucycle_begun (pl : Plan) (ok : pl.Enough) (v : V) (s : A) (c : W) (t : Tidy c)
    (w : c.getLsbD 21 = true ∨ c.getLsbD 16 = false) :
    (v.at s c).ucycleAs pl = (v.at s c).begun.lateRun pl.late := by
  have hf : ∀ n, n < 7 → ∀ a : A, a.control = c → a.asyncAs (pl.fast n) = a.async := fun n hn a hc =>
    asyncAs_any _ (ok.mem n hn) (ok.alu n hn) a (by rw [hc]; exact t) (by rw [hc]; exact w)
  have c0 : (v.at s c).control = c := rfl
  have c1 : (v.at s c).async.riStep.fffc.control = c := control_async (v.at s c)
  have c2 : (v.at s c).async.riStep.fffc.async.control = c := by rw [control_async, c1]
  simp only [ucycleAs, cuSyncAs]
  rw [hf 0 (by decide) _ c0, hf 1 (by decide) _ c1,
    slow_same _ ok.slow1 ok.slow2 ok.slow3 _ (by rw [c2]; exact t) (flagsOut_begun v s c)]
  exact lateAs_run pl.fast c hf pl.late 2 (by rw [ok.late.perm.length_eq]; decide) _ (control_begun v s c)

/-! ## S19: the ALU feeds the memory -/

/-- The same state, without the cell that H and L point to. -/
def e (a : A) : A := { a with mem := upd a.mem a.hlOut 0 }

theorem fast_fed (l : List Fast) (hm : Fast.mem ∈ l) (a : A) (t : Tidy a.control) (h : a.alu = a) :
    stepAll Fast.step l a = a.memStep := by
  have s1 : Stays Fast.step (fun a => Tidy a.control ∧ a.alu = a) := by
    intro x a p
    refine ⟨by rw [control_fast]; exact p.1, ?_⟩
    cases x with
    | mem => exact mem_keeps_alu a p.1 p.2
    | alu => exact alu_alu a
  have key : ∀ l, ∀ b : A, Tidy b.control → b.alu = b → b.memStep = b → stepAll Fast.step l b = b := by
    intro l b _ h1 h2
    exact stepAll_fixed (fun x => by cases x with | mem => exact h2 | alu => exact h1)
  induction l generalizing a with
  | nil => cases hm
  | cons x l ih =>
    cases x with
    | mem =>
      have p := s1 .mem a ⟨t, h⟩
      exact key l a.memStep p.1 p.2 (mem_mem a)
    | alu =>
      show stepAll Fast.step l a.alu = a.memStep
      rw [h]
      refine ih ?_ a t h
      rcases List.mem_cons.mp hm with h1 | h1
      · cases h1
      · exact h1

theorem alu_fixed (l : List Fast) (ha : Fast.alu ∈ l) (a : A) (t : Tidy a.control) :
    (stepAll Fast.step l a).alu = stepAll Fast.step l a := by
  have s0 : Stays Fast.step (fun a => Tidy a.control) := fun x a p => by
    show Tidy (x.step a).control
    rw [control_fast]; exact p
  have s1 : Stays Fast.step (fun a => Tidy a.control ∧ a.alu = a) := by
    intro x a p
    refine ⟨s0 x a p.1, ?_⟩
    cases x with
    | mem => exact mem_keeps_alu a p.1 p.2
    | alu => exact alu_alu a
  exact ((Leads.cons (x := Fast.alu) s0 (fun a p => ⟨s0 .alu a p, alu_alu a⟩) (Leads.nil s1)) l
    (List.singleton_sublist.mpr ha) a t).2

theorem e_alu (a : A) : a.alu.e = a.e.alu := rfl

theorem e_mem (a : A) (h21 : a.control.getLsbD 21 = false) (hd : a.dir2 = a.hlOut) : a.memStep.e = a.e := by
  open_a a control
  simp only at h21 hd
  subst hd
  simp only [e, memStep_mk, h21, Bool.false_eq_true, if_false, upd_upd]

theorem mem_e (a : A) (h21 : a.control.getLsbD 21 = false) (hd : a.dir2 = a.hlOut) : a.e.memStep = a.memStep := by
  open_a a control
  simp only at h21 hd
  subst hd
  simp only [e, memStep_mk, h21, Bool.false_eq_true, if_false, upd_upd]

theorem fast_e (l : List Fast) (ha : Fast.alu ∈ l) (a : A) (h21 : a.control.getLsbD 21 = false)
    (hd : a.dir2 = a.hlOut) : (stepAll Fast.step l a).e = a.e.alu := by
  have key : ∀ (l : List Fast) (a : A), a.control.getLsbD 21 = false → a.dir2 = a.hlOut →
      (stepAll Fast.step l a).e = if Fast.alu ∈ l then a.e.alu else a.e := by
    intro l
    induction l with
    | nil => intro a _ _; rfl
    | cons x l ih =>
      intro a h21 hd
      cases x with
      | mem =>
        show (stepAll Fast.step l a.memStep).e = _
        rw [ih a.memStep (by rw [show a.memStep.control = a.control from control_fast .mem a]; exact h21)
          (by open_a a control; simp only [memStep_mk]; exact hd), e_mem a h21 hd]
        simp
      | alu =>
        show (stepAll Fast.step l a.alu).e = _
        rw [ih a.alu h21 hd, e_alu]
        simp only [alu_alu, ite_self, List.mem_cons, true_or, if_true]
  rw [key l a h21 hd, if_pos ha]

theorem alu_inner (a : A) (h : a.alu = a) : a.addsub.mxdir.mxreg.alu = a.addsub.mxdir.mxreg := by
  open_a a control
  simp only [alu_mk, addsub_mk, mxdir_mk, mxreg_mk, A.mk.injEq, and_true, true_and] at *
  exact h

theorem alu_ri (a : A) (h : a.alu = a) : a.riStep.fffc.alu = a.riStep.fffc := by
  open_a a control
  simp only [alu_mk, riStep_mk, fffc_mk, A.mk.injEq, and_true, true_and] at *
  exact h

theorem dir2_inner (a : A) (h25 : a.control.getLsbD 25 = true) (h24 : a.control.getLsbD 24 = false) :
    a.addsub.mxdir.mxreg.dir2 = a.addsub.mxdir.mxreg.hlOut := by
  open_a a control
  simp only at h24 h25
  simp only [addsub_mk, mxdir_mk, mxreg_mk, h24, h25, if_true, Bool.false_eq_true, if_false]

theorem asyncAs_fed (l : List Fast) (hm : Fast.mem ∈ l) (a : A) (t : Tidy a.control) (h : a.alu = a) :
    a.asyncAs l = a.async := by
  have t' : Tidy a.addsub.mxdir.mxreg.control := t
  rw [← asyncAs_code]
  simp only [asyncAs]
  rw [fast_fed l hm _ t' (alu_inner a h), fast_fed _ (by simp) _ t' (alu_inner a h)]

theorem lateAs_still (f : Nat → List Fast) (hf : ∀ n, n < 7 → Fast.mem ∈ f n) (l : List Late) (n : Nat)
    (hn : n + l.length ≤ 7) (a : A) (t : Tidy a.control) (o : a.Outs) (hi : ∀ x : Late, x.on a.control = false)
    (h : a.alu = a) (st : a.async = a) : a.lateAs f n l = a := by
  induction l generalizing n with
  | nil => rfl
  | cons x l ih =>
    simp only [List.length_cons] at hn
    simp only [lateAs, idle_late x a o (hi x)]
    rw [asyncAs_fed _ (hf n (by omega)) a t h, st]
    exact ih (n + 1) (by omega)

theorem lateRun_still (l : List Late) (a : A) (o : a.Outs) (hi : ∀ x : Late, x.on a.control = false)
    (st : a.async = a) : a.lateRun l = a := by
  induction l with
  | nil => rfl
  | cons x l ih => simp only [lateRun, idle_late x a o (hi x), st, ih]

theorem ucycle_19 (pl : Plan) (ok : pl.Enough) (v : V) (s : A) :
    (v.at s (romOf 19)).ucycleAs pl = (v.at s (romOf 19)).begun.lateRun pl.late := by
  have t : Tidy (romOf 19) := tidy_rom 19 (by decide)
  have b21 : (romOf 19).getLsbD 21 = false := by rw [rom19]; decide
  have b25 : (romOf 19).getLsbD 25 = true := by rw [rom19]; decide
  have b24 : (romOf 19).getLsbD 24 = false := by rw [rom19]; decide
  have hi : ∀ x : Late, x.on (romOf 19) = false := by rw [rom19]; intro x; cases x <;> decide
  have st : (v.at s (romOf 19)).begun.async = (v.at s (romOf 19)).begun := by rw [rom19]; still_simp
  have sa : (v.at s (romOf 19)).begun.alu = (v.at s (romOf 19)).begun := by rw [rom19]; still_simp
  have cb := control_begun v s (romOf 19)
  have ob := outs_begun v s (romOf 19)
  have fb := flagsOut_begun v s (romOf 19)
  have hb : (v.at s (romOf 19)).begun =
    stepAll Slow.step Plan.code.slow (v.at s (romOf 19)).async.riStep.fffc.async := rfl
  generalize hx : v.at s (romOf 19) = x at *
  have hc : x.control = romOf 19 := by rw [← hx]; rfl
  have t0 : Tidy x.addsub.mxdir.mxreg.control := by show Tidy x.control; rw [hc]; exact t
  have d0 := dir2_inner x (by rw [hc]; exact b25) (by rw [hc]; exact b24)
  have l0 : x.addsub.mxdir.mxreg.control.getLsbD 21 = false := by
    show x.control.getLsbD 21 = false
    rw [hc]; exact b21
  have a0 : (x.asyncAs (pl.fast 0)).alu = x.asyncAs (pl.fast 0) := alu_fixed _ (ok.alu 0 (by decide)) _ t0
  have a1 : x.async.alu = x.async := alu_fixed [.mem, .alu, .mem, .alu] (by simp) _ t0
  have e0 : (x.asyncAs (pl.fast 0)).e = x.async.e := by
    rw [← asyncAs_code]
    simp only [asyncAs]
    rw [fast_e _ (ok.alu 0 (by decide)) _ l0 d0, fast_e _ (by simp) _ l0 d0]
  have hc1 : x.async.riStep.fffc.control = romOf 19 := (control_async x).trans hc
  have hc0 : (x.asyncAs (pl.fast 0)).riStep.fffc.control = romOf 19 := by
    have : (x.asyncAs (pl.fast 0)).e.control = x.async.e.control := by rw [e0]
    exact this.trans hc1
  have key : (x.asyncAs (pl.fast 0)).riStep.fffc.asyncAs (pl.fast 1) = x.async.riStep.fffc.async := by
    have w0 := asyncAs_code (x.asyncAs (pl.fast 0)).riStep.fffc
    have w1 := asyncAs_code x.async.riStep.fffc
    rw [asyncAs_fed _ (ok.mem 1 (by decide)) _ (by rw [hc0]; exact t) (alu_ri _ a0), ← w0, ← w1]
    show stepAll Fast.step [.mem, .alu, .mem, .alu] (x.asyncAs (pl.fast 0)).riStep.fffc.addsub.mxdir.mxreg =
      stepAll Fast.step [.mem, .alu, .mem, .alu] x.async.riStep.fffc.addsub.mxdir.mxreg
    have u0 : Tidy (x.asyncAs (pl.fast 0)).riStep.fffc.addsub.mxdir.mxreg.control := by
      show Tidy (x.asyncAs (pl.fast 0)).riStep.fffc.control
      rw [hc0]; exact t
    have u1 : Tidy x.async.riStep.fffc.addsub.mxdir.mxreg.control := by
      show Tidy x.async.riStep.fffc.control
      rw [hc1]; exact t
    have hm : Fast.mem ∈ [Fast.mem, .alu, .mem, .alu] := by simp
    have f0 := dir2_inner (x.asyncAs (pl.fast 0)).riStep.fffc (by rw [hc0]; exact b25) (by rw [hc0]; exact b24)
    have f1 := dir2_inner x.async.riStep.fffc (by rw [hc1]; exact b25) (by rw [hc1]; exact b24)
    have g0 : (x.asyncAs (pl.fast 0)).riStep.fffc.addsub.mxdir.mxreg.control.getLsbD 21 = false := by
      show (x.asyncAs (pl.fast 0)).riStep.fffc.control.getLsbD 21 = false
      rw [hc0]; exact b21
    have g1 : x.async.riStep.fffc.addsub.mxdir.mxreg.control.getLsbD 21 = false := by
      show x.async.riStep.fffc.control.getLsbD 21 = false
      rw [hc1]; exact b21
    have ee : ∀ y : A, y.riStep.fffc.addsub.mxdir.mxreg.e = y.e.riStep.fffc.addsub.mxdir.mxreg := by
      intro y
      open_a y control
      simp only [e, riStep_mk, fffc_mk, addsub_mk, mxdir_mk, mxreg_mk]
    rw [fast_fed _ hm _ u0 (alu_inner _ (alu_ri _ a0)), fast_fed _ hm _ u1 (alu_inner _ (alu_ri _ a1)),
      ← mem_e _ g0 f0, ← mem_e _ g1 f1, ee, ee, e0]
  have c2 : x.async.riStep.fffc.async.control = romOf 19 := by rw [control_async, hc1]
  simp only [ucycleAs, cuSyncAs]
  rw [key, slow_same _ ok.slow1 ok.slow2 ok.slow3 _ (by rw [c2]; exact t) fb,
    lateRun_still _ _ ob (by rw [cb]; exact hi) st]
  exact lateAs_still pl.fast ok.mem pl.late 2 (by rw [ok.late.perm.length_eq]; decide) _
    (by show Tidy x.begun.control; rw [cb]; exact t) ob (by show ∀ y : Late, y.on x.begun.control = false; rw [cb]; exact hi) sa st

/-! ## Each microstate, whatever the plan -/

theorem feeds_rom (k : Nat) (hk : k < 45) (h : k ≠ 19) :
    (romOf k).getLsbD 21 = true ∨ (romOf k).getLsbD 16 = false := by
  have := (by decide +kernel : ∀ k : Fin 45, k.val ≠ 19 →
    (romOf k).getLsbD 21 = true ∨ (romOf k).getLsbD 16 = false) ⟨k, hk⟩ h
  exact this

theorem Enough_code : Plan.code.Enough :=
  ⟨fun _ _ => by simp [Plan.code], fun _ _ => by simp [Plan.code], by decide, by decide, by decide, LateOk.code⟩

theorem ucycle_late (pl : Plan) (ok : pl.Enough) (k : Nat) (hk : k < 45) (v : V) (s : A) :
    (v.at s (romOf k)).ucycleAs pl = (v.at s (romOf k)).begun.lateRun pl.late := by
  by_cases h : k = 19
  · subst h; exact ucycle_19 pl ok v s
  · exact ucycle_begun pl ok v s _ (tidy_rom k hk) (feeds_rom k hk h)

theorem ucycle_plans (pl pl' : Plan) (ok : pl.Enough) (ok' : pl'.Enough) (k : Nat) (hk : k < 45) (h30 : k ≠ 30)
    (v : V) (s : A) : ((v.at s (romOf k)).ucycleAs pl).z = ((v.at s (romOf k)).ucycleAs pl').z := by
  rw [ucycle_late pl ok k hk, ucycle_late pl' ok' k hk, late_word k hk h30 v s _ ok.late,
    late_word k hk h30 v s _ ok'.late]

theorem cycleAs_code (a : A) : a.cycleAs .code = a.cycle := rfl

theorem cycle_plans (pl pl' : Plan) (ok : pl.Enough) (ok' : pl'.Enough) (a : A) (hs : a.Settled)
    (hd : a.dd ∉ badStates) : (a.cycleAs pl).z = (a.cycleAs pl').z := by
  have hq : a.dd.toNat < 45 := by
    have := (by decide +kernel : ∀ d : BitVec 6, d ∉ badStates → d.toNat < 45) a.dd hd
    exact this
  have h30 : a.dd.toNat ≠ 30 := by
    have := (by decide +kernel : ∀ d : BitVec 6, d ∉ badStates → d.toNat ≠ 30) a.dd hd
    exact this
  obtain ⟨h1, h2, h3, h4, h5, h6, h7, h8⟩ := hs
  have e : a.dxflipflop.seqJnr.mxregJnr.seq.rom =
      a.view.at a.dxflipflop.seqJnr.mxregJnr.seq (romOf a.dd.toNat) := by
    open_a a control
    dsimp only at h1 h2 h3 h4 h5 h6 h7 h8
    subst h1 h2 h3 h4 h5 h6 h7 h8
    rfl
  simp only [cycleAs, cuHighAs]
  rw [e]
  exact ucycle_plans pl pl' ok ok' _ hq h30 _ _

theorem asyncAs_of_z (l : List Fast) (a : A) : a.asyncAs l = a.z.asyncAs l := by
  simp only [asyncAs]
  congr 1

theorem cycleAs_of_z (pl : Plan) (a : A) : a.cycleAs pl = a.z.cycleAs pl := by
  have e : a.z.dxflipflop.seqJnr.mxregJnr.seq.rom = a.dxflipflop.seqJnr.mxregJnr.seq.rom.z := by
    open_a a control
    simp only [z, rom, seq, mxregJnr, seqJnr, dxflipflop]
  simp only [cycleAs, cuHighAs, ucycleAs]
  rw [e, ← asyncAs_of_z]

end A

/-! ## Histories -/

/-- The same machine, whatever is on the adder bus. -/
def Abs.z : Abs → Abs
  | .off l => .off l
  | .on a => .on a.z

theorem A.value_z (c : Call) (a : A) : a.z.value c = a.value c := by cases c <;> rfl

theorem A.cycle_of_z (a : A) : a.cycle = a.z.cycle := A.cycleAs_of_z .code a

theorem A.call_z (c : Call) (a : A) : (a.z.call c).z = (a.call c).z := by
  cases c with
  | runClockCycle u => simp only [A.call]; rw [← A.cycle_of_z]
  | _ => rfl

theorem Abs.value_z (c : Call) (s : Abs) : s.z.value c = s.value c := by
  cases s with
  | off l => rfl
  | on a =>
    have := A.value_z c a
    cases c <;> first | rfl | exact this

theorem Abs.call_z (c : Call) (s : Abs) : (s.z.call c).z = (s.call c).z := by
  cases s with
  | off l => rfl
  | on a =>
    have := congrArg Abs.on (A.call_z c a)
    cases c <;> first | rfl | exact this

theorem On.of_z {h : H} {a b : A} (o : On h a) {h' : H} (e : b.z = a.z) (w : ∃ n, h'.watch = many (n + 1))
    (k : h'.clk = true) (r : ∃ cur, Rep h' (lift b cur)) : On h' b := by
  have c : ∀ P : A → Prop, (∀ x, P x ↔ P x.z) → P a → P b := fun P hz p => (hz b).mpr (e ▸ (hz a).mp p)
  exact ⟨r, w, fun e => (by rw [k] at e; cases e), c A.Settled (fun _ => Iff.rfl) o.settled,
    c (fun x => OkState x.dd x.ri) (fun _ => Iff.rfl) o.ok, c (fun x => x.q ∉ badStates) (fun _ => Iff.rfl) o.okq⟩

theorem Desc.callAs {p : Phase} {h : H} {s : Abs} (d : Desc p h s) (pl : Plan) (ok : pl.Enough) (c : Call)
    (hc : c.Allowed p) :
    ∃ h' s', execAs pl c h = some (s.value c, h') ∧ Desc (c.after p) h' s' ∧ s'.z = (s.call c).z := by
  cases c with
  | runClockCycle u =>
    have hp : s.isOn = true := d.phase.symm.trans hc.1
    cases s with
    | off l => cases hp
    | on a =>
      have o : On h a := d.is
      obtain ⟨h', cur', e, r, sm, ck⟩ := o.cycleAs pl u (fun e => d.inv.ui.trans (hc.2 e))
      have ez : (a.cycleAs pl).z = a.cycle.z := A.cycle_plans pl .code ok A.Enough_code a o.settled o.ok.1
      obtain ⟨h1, _, o1, _⟩ := o.cycle u (fun e => d.inv.ui.trans (hc.2 e))
      have o' : On h' (a.cycleAs pl) :=
        o1.of_z ez (by rw [sm.2.2]; exact o.watch) ck ⟨cur', r⟩
      exact ⟨h', .on (a.cycleAs pl), e, ⟨inv_same d.inv hc.1 sm _ o', o', d.phase⟩, congrArg Abs.on ez⟩
  | _ =>
    obtain ⟨h', e, d'⟩ := d.call _ hc
    exact ⟨h', _, e, d', rfl⟩

theorem Desc.callsAs {p p' : Phase} {h : H} {s t : Abs} (d : Desc p h s) (hz : s.z = t.z)
    (cs : List (Plan × Call)) (ok : ∀ x ∈ cs, x.1.Enough) (hl : Legal p (cs.map (·.2)) p') :
    ∃ h' s', execAllAs cs h = some ((t.calls (cs.map (·.2))).1, h') ∧ Desc p' h' s' ∧
      s'.z = (t.calls (cs.map (·.2))).2.z := by
  induction cs generalizing p h s t with
  | nil => cases hl; exact ⟨h, s, rfl, d, hz⟩
  | cons c cs ih =>
    obtain ⟨pl, c⟩ := c
    obtain ⟨h1, s1, e1, d1, z1⟩ := d.callAs pl (ok _ List.mem_cons_self) c hl.1
    have z2 : s1.z = (t.call c).z := by rw [z1, ← Abs.call_z, hz, Abs.call_z]
    obtain ⟨h2, s2, e2, d2, z3⟩ := ih d1 z2 (fun x hx => ok x (List.mem_cons_of_mem _ hx)) hl.2
    refine ⟨h2, s2, ?_, d2, z3⟩
    have v : s.value c = t.value c := by rw [← Abs.value_z, hz, Abs.value_z]
    simp only [execAllAs, e1, Option.bind_some, e2, Option.map_some, Abs.calls, List.map_cons, v]

end Mpp
