import Verif.Settle
import Verif.Props.Basics
import Verif.Props.Instructions
/-!
# The components are run often enough, and their order does not matter where it should not (C99)

The two factors in `constants.h:50-51` are given as "factorial(2)"; nothing in the code says why two
rounds are enough, or what depends on the order in `run_cu`.
-/
namespace Mpp

/-- **C99.** Carried out with the numbers and orders of the code, every call is the call. -/
theorem C99_code (c : Call) (h : H) : execAs .code c h = exec c h := execAs_code c h

/-- The numbers and orders of the code are among those of `C99_history`. -/
theorem C99_enough : Plan.code.Enough := A.Enough_code

example : Plan.code.fast 3 = [.mem, .alu, .mem, .alu] ∧ Plan.code.slow.length = 8 ∧ Plan.code.late.length = 5 :=
  ⟨rfl, rfl, rfl⟩

theorem onBus_same {h h' : H} {t t' : T} (r : Rep h t) (r' : Rep h' t') (tp : Topic)
    (e : t.topic tp = t'.topic tp) (w : W) : OnBus h tp w → OnBus h' tp w := by
  intro o s hs
  obtain ⟨b, h1, h2⟩ := o s hs
  obtain ⟨b', h3, h4⟩ := r.onBus tp s hs
  rw [h1] at h3
  cases h3
  obtain ⟨b'', h5, h6⟩ := r'.onBus tp s hs
  exact ⟨b'', h5, by rw [h6, ← e, ← h4, h2]⟩

theorem shown_z {h1 h2 : H} {a b : A} (o1 : On h1 a) (o2 : On h2 b) (z2 : a.z = b.z) :
    h1.log = h2.log ∧ h1.regs = h2.regs ∧ h1.mem = h2.mem ∧
      ∀ tp, tp ≠ .dir1 → ∀ w, OnBus h1 tp w ↔ OnBus h2 tp w := by
  obtain ⟨c1, r1⟩ := o1.rep
  obtain ⟨c2, r2⟩ := o2.rep
  have t : ∀ tp, tp ≠ .dir1 → (lift a c1).topic tp = (lift b c2).topic tp := by
    intro tp hn
    have k : ∀ x : A, ∀ c, (lift x c).topic tp = (lift x.z c1).topic tp := by
      intro x c
      cases tp <;> first | rfl | exact absurd rfl hn
    rw [k a, k b, z2]
  refine ⟨o1.log.trans ((congrArg A.log z2).trans o2.log.symm), ?_, ?_,
    fun tp hn w => ⟨onBus_same r1 r2 tp (t tp hn) w, onBus_same r2 r1 tp (t tp hn).symm w⟩⟩
  · rw [r1.regs, r2.regs]
    have : (lift a.z c1).regs = (lift b.z c1).regs := by rw [z2]
    exact this
  · rw [r1.mem, r2.mem]
    have : (lift a.z c1).mem = (lift b.z c1).mem := by rw [z2]
    exact congrArg MemPtr.live this

/-- **C99.** Take any history of calls that the code allows. In each of its clock cycles run memory and
ALU as often as you like, in any order, but each at least once; run the accumulator, the inputs of the
flags, the flags and the output of the flags in any way that contains accumulator, inputs, flags in this
order, the output of the flags before an accumulator and the output of the flags before the inputs; and run
the last five components in any order with the general registers before 2OP and before H, L and these
before PC. All calls return what they do as the code is; registers, memory and reported errors are the
same at the end, and so is the value on every bus, except that of the adder, which no call shows. -/
theorem C99_history (ph : Phase) (h : H) (hr : Reach ph h) (cs : List (Plan × Call)) (ph' : Phase)
    (ok : ∀ x ∈ cs, x.1.Enough) (hl : Legal ph (cs.map (·.2)) ph') :
    ∃ vs h1 h2, execAllAs cs h = some (vs, h1) ∧ execAll (cs.map (·.2)) h = some (vs, h2) ∧
      h1.log = h2.log ∧
      (ph'.on = true → h1.regs = h2.regs ∧ h1.mem = h2.mem ∧
        ∀ tp, tp ≠ .dir1 → ∀ w, OnBus h1 tp w ↔ OnBus h2 tp w) := by
  obtain ⟨s, d⟩ := hr.desc
  obtain ⟨h1, s1, e1, d1, z1⟩ := d.callsAs rfl cs ok hl
  obtain ⟨h2, e2, d2⟩ := d.calls (cs.map (·.2)) hl
  generalize s.calls (cs.map (·.2)) = q at *
  obtain ⟨vs, s2⟩ := q
  cases s1 with
  | off l =>
    cases s2 with
    | on b => cases z1
    | off l' =>
      cases z1
      refine ⟨vs, h1, h2, e1, e2, d1.is.2.trans d2.is.2.symm, fun hp => ?_⟩
      have : ph'.on = false := d1.phase
      rw [hp] at this
      cases this
  | on a =>
    cases s2 with
    | off l => cases z1
    | on b =>
      have z2 : a.z = b.z := by injection z1
      obtain ⟨k1, k2⟩ := shown_z (show On h1 a from d1.is) (show On h2 b from d2.is) z2
      exact ⟨vs, h1, h2, e1, e2, k1, fun _ => k2⟩

/-- **C99.** One round of memory and ALU is enough, in whatever order, and so is every greater number, and
the numbers and orders may change from one time to the next. Of the accumulator and the flags two rounds
or more in the order of the code are enough, and three rounds or more in any orders. -/
theorem C99_rounds (f : Nat → List (List Fast)) (hf : ∀ n, n < 7 → f n ≠ [] ∧ ∀ r ∈ f n, r.Perm [.mem, .alu])
    (s : List (List Slow))
    (hs : (2 ≤ s.length ∧ ∀ r ∈ s, r = [.acumm, .mxfldx, .flags, .flagsinta]) ∨
      (3 ≤ s.length ∧ ∀ r ∈ s, r.Perm [.acumm, .mxfldx, .flags, .flagsinta]))
    (l : List Late) (hl : l.Perm [.greg, .op2, .hl, .sp, .pc]) (h1 : [Late.greg, .op2, .pc].Sublist l)
    (h2 : [Late.greg, .hl, .pc].Sublist l) : Plan.Enough ⟨fun n => (f n).flatten, s.flatten, l⟩ := by
  have hm : ∀ x : Fast, ∀ n, n < 7 → x ∈ (f n).flatten := by
    intro x n hn
    obtain ⟨hne, hp⟩ := hf n hn
    cases e : f n with
    | nil => exact absurd e hne
    | cons r rs =>
      rw [List.flatten_cons]
      refine List.mem_append_left _ ((hp r (by rw [e]; exact List.mem_cons_self)).mem_iff.mpr ?_)
      cases x <;> simp
  have key : ([Slow.acumm, .mxfldx, .flags].Sublist s.flatten ∧ [Slow.flagsinta, .acumm].Sublist s.flatten) ∧
      [Slow.flagsinta, .mxfldx].Sublist s.flatten := by
    rcases hs with ⟨hn, he⟩ | ⟨hn, he⟩
    · match s, hn, he with
      | r1 :: r2 :: rs, _, he =>
        rw [he r1 (by simp), he r2 (by simp), List.flatten_cons, List.flatten_cons, ← List.append_assoc]
        exact ⟨⟨.trans (by decide) (List.sublist_append_left _ _), .trans (by decide) (List.sublist_append_left _ _)⟩,
          .trans (by decide) (List.sublist_append_left _ _)⟩
    · match s, hn, he with
      | r1 :: r2 :: r3 :: rs, _, he =>
        have m : ∀ x r, r ∈ r1 :: r2 :: r3 :: rs → [x].Sublist r := fun x r hr =>
          List.singleton_sublist.mpr ((he r hr).mem_iff.mpr (by cases x <;> simp))
        have pick : ∀ x y z : Slow, [x, y, z].Sublist (r1 :: r2 :: r3 :: rs).flatten := by
          intro x y z
          have := (m x r1 (by simp)).append ((m y r2 (by simp)).append ((m z r3 (by simp)).append
            (List.nil_sublist rs.flatten)))
          simpa [List.flatten_cons] using this
        exact ⟨⟨pick _ _ _, (List.Sublist.cons_cons _ (.cons_cons _ (List.nil_sublist [Slow.acumm]))).trans
          (pick .flagsinta .acumm .acumm)⟩,
          (List.Sublist.cons_cons _ (.cons_cons _ (List.nil_sublist [Slow.acumm]))).trans (pick .flagsinta .mxfldx .acumm)⟩
  exact ⟨hm _, hm _, key.1.1, key.1.2, key.2, ⟨hl, h1, h2⟩⟩

/-- Three rounds in three orders, memory and ALU the other way round and PC last. -/
def Plan.other : Plan :=
  ⟨fun n => (if n = 0 then [[Fast.alu, .mem]] else [[.alu, .mem], [.mem, .alu]]).flatten,
    [[Slow.flagsinta, .flags, .mxfldx, .acumm], [.flags, .acumm, .mxfldx, .flagsinta],
      [.mxfldx, .flagsinta, .acumm, .flags]].flatten,
    [.greg, .sp, .hl, .op2, .pc]⟩

/-- A machine's life with other numbers and orders in every other cycle. -/
example : Plan.other.Enough ∧ Plan.other ≠ .code ∧
    Legal Phase.start ([(Plan.code, Call.setUpdateUi true), (.code, .init (fun i => i)),
      (.other, .runClockCycle true), (.code, .runClockCycle false), (.other, .getRegisterValue .acum),
      (.other, .runClockCycle false), (.code, .shutdown)].map (·.2)) ⟨false, true, 1, 0⟩ := by
  refine ⟨?_, fun e => absurd (congrArg Plan.late e) (by decide), ?_⟩
  · refine C99_rounds (fun n => if n = 0 then [[.alu, .mem]] else [[.alu, .mem], [.mem, .alu]])
      (fun n _ => ?_) _ (.inr ⟨by decide, by decide⟩) _ (by decide) (by decide) (by decide)
    by_cases h : n = 0
    · simp only [h, if_true]; exact ⟨by decide, by decide⟩
    · simp only [h, if_false]; exact ⟨by decide, by decide⟩
  · simp only [List.map, Legal, Call.Allowed, Call.after, Phase.start]
    decide

/-! ## What is needed -/

/-- The accumulator and the flags in one round instead of two (`constants.h:51` with 1 in place of 2). -/
def Plan.once : Plan := { Plan.code with slow := [.acumm, .mxfldx, .flags, .flagsinta] }

/-- PC before the others. -/
def Plan.early : Plan := { Plan.code with late := [.pc, .greg, .op2, .hl, .sp] }

namespace A

/-- Replace a ucycleAs by its steps. -/
macro "plan_simp" : tactic => `(tactic|
  simp only [ucycleAs, cuSyncAs, lateAs, asyncAs, stepAll, Plan.once, Plan.early, Plan.code, Fast.step, Slow.step, Late.step,
    ucycle, async, cuSync, acummOrFlags, V.at, view_mk, settled_mk, acumm_mk, flags_mk,
    flagsinta_mk, mxfldx_mk, gregStep_mk, op2Step_mk, hl_mk, spStep_mk, pcStep_mk, fffc_mk,
    addsub_mk, mxdir_mk, mxreg_mk, memStep_mk, alu_mk, riStep_mk, BitVec.reduceGetLsb, if_true,
    if_false, Bool.false_eq_true, aluRes, aluCarry, Bool.or_false, Bool.or_true, Bool.true_or,
    Bool.false_or, upd_upd, inc_lt, dec_lt, wid_lt, inc_narrow, dec_narrow, wid_narrow, sel3])

theorem once23 (v : V) (s : A) : ((v.at s 0x240400#32).ucycleAs .once).ac = s.data := by plan_simp
theorem early15 (v : V) (s : A) : ((v.at s 0xa81200#32).ucycleAs .early).op2 = v.mem v.incPc.pc := by
  plan_simp
  simp only [V.incPc, V.setPc]
  split <;> simp_all
theorem fetch_data (v : V) (s : A) : (v.at s 0xa83000#32).ucycle.data = v.mem v.incPc.pc := by
  plan_simp
  simp only [V.incPc, V.setPc]
  split <;> simp_all
theorem decode_data (v : V) (s : A) : (v.at s 0x200000#32).ucycle.data = s.data := by plan_simp

theorem cycleAs_at (pl : Plan) (a : A) (hs : a.Settled) :
    ∃ s : A, s.data = a.data ∧ a.cycleAs pl = (a.view.at s (romOf a.dd.toNat)).ucycleAs pl := by
  refine ⟨a.dxflipflop.seqJnr.mxregJnr.seq, rfl, ?_⟩
  obtain ⟨h1, h2, h3, h4, h5, h6, h7, h8⟩ := hs
  have e : a.dxflipflop.seqJnr.mxregJnr.seq.rom =
      a.view.at a.dxflipflop.seqJnr.mxregJnr.seq (romOf a.dd.toNat) := by
    open_a a control
    dsimp only at h1 h2 h3 h4 h5 h6 h7 h8
    subst h1 h2 h3 h4 h5 h6 h7 h8
    rfl
  simp only [cycleAs, cuHighAs]
  rw [e]

/-- The two cycles that fetch and decode. -/
theorem two (a : A) (hs : a.Settled) (hd : a.dd = 0) (q : BitVec 6)
    (hq : ∀ fc fz, nextOf 1 (a.view.mem a.view.pc) fc fz = q) :
    a.cycle.dd = 1 ∧ a.cycle.Settled ∧ a.cycle.cycle.dd = q ∧ a.cycle.cycle.Settled ∧
      a.cycle.cycle.view = a.view.rtl 0 ∧ a.cycle.cycle.data = a.view.mem a.view.incPc.pc := by
  obtain ⟨v1, s1, _, n1, _⟩ := cycle_spec a hs (by rw [hd]; decide)
  have d1 : a.cycle.dd = 1 := by
    rw [n1, hd]
    exact (by decide +kernel : ∀ ri fc fz, nextOf 0 ri fc fz = 1) _ _ _
  obtain ⟨v2, s2, _, n2, _⟩ := cycle_spec a.cycle s1 (by rw [d1]; decide)
  have v1' : a.cycle.view = a.view.rtl 0 := by rw [v1, hd]; rfl
  have r1 : a.cycle.ri = a.view.mem a.view.pc := by
    have : a.cycle.view.ri = (a.view.rtl 0).ri := by rw [v1']
    refine this.trans ?_
    simp only [V.rtl, V.incPc]
    split <;> rfl
  obtain ⟨t1, _, e1⟩ := cycleAs_at .code a hs
  obtain ⟨t2, g2, e2⟩ := cycleAs_at .code a.cycle s1
  refine ⟨d1, s1, ?_, s2, ?_, ?_⟩
  · rw [n2, d1, r1]; exact hq _ _
  · rw [v2, d1]; exact v1'
  · have f2 : a.cycle.cycle.data = a.cycle.data := by
      rw [← cycleAs_code a.cycle, e2, d1]
      show ((a.cycle.view.at t2 (romOf 1)).ucycle).data = _
      rw [rom1, decode_data, g2]
    rw [f2, ← cycleAs_code a, e1, hd]
    show ((a.view.at t1 (romOf 0)).ucycle).data = _
    rw [rom0, fetch_data]
end A

/-- A machine about to run an instruction, two cycles by the code and one by the plan. -/
theorem third (pl : Plan) (u : Bool) (h : H) (p : P) (hr : Ready h p) :
    ∃ a : A, a.view.prog = p ∧ a.dd = 0 ∧ a.Settled ∧
      ∃ h' cur, execAllAs [(.code, .runClockCycle u), (.code, .runClockCycle u), (pl, .runClockCycle u)] h =
        some ([0, 0, 0], h') ∧ Rep h' (lift (a.cycle.cycle.cycleAs pl) cur) ∧ ∃ n, h'.watch = many (n + 1) := by
  have hu := hr.ui
  obtain ⟨ph, r, on, ui, b, s⟩ := hr
  obtain ⟨a, o⟩ := r.on on
  refine ⟨a, o.at.shows.unique s, (o.at.boundary).1 b, o.settled, ?_⟩
  obtain ⟨h1, e1, o1, m1, _⟩ := o.cycle u (fun _ => hu)
  obtain ⟨h2, e2, o2, m2, _⟩ := o1.cycle u (fun _ => m1.2.1.trans hu)
  obtain ⟨h3, cur, e3, r3, m3, _⟩ := o2.cycleAs pl u (fun _ => m2.2.1.trans (m1.2.1.trans hu))
  refine ⟨h3, cur, ?_, r3, by rw [m3.2.2]; exact o2.watch⟩
  simp only [execAllAs, execAs_code, e1, e2, e3, Option.bind_some, Option.map_some]

theorem reg_shown {h : H} {a : A} {cur} (r : Rep h (lift a cur)) (w : ∃ n, h.watch = many (n + 1)) (t : WType) :
    RegIs h t (a.view.reg t) := by
  simp only [RegIs, exec, getRegister_all h w t, hrun_bind, hrun_getReg, Option.bind_some, r.regs]
  cases t <;>
    simp only [WType.theReg, reg_ac, reg_fc, reg_fz, reg_b, reg_c, reg_d, reg_e, reg_h, reg_l,
      reg_op2, reg_pch, reg_pcl, reg_pc, reg_sp, reg_ri, toInt_8, toInt_16, toInt_bool, hrun_ppure,
      V.reg, A.view]
  all_goals (rw [boolWord_int]; rfl)

theorem pc_ahead (v : V) : v.incPc.pc = v.prog.ahead 1 := by
  have := congrArg P.pc (next_past v.prog)
  refine Eq.trans ?_ this
  have h' : v.prog.pc = v.pc := rfl
  by_cases h : v.pc = 0xFFFF
  · rw [V.incPc, P.next, if_pos h, if_pos (h'.trans h)]; rfl
  · rw [V.incPc, P.next, if_neg h, if_neg (by rw [h']; exact h)]; rfl

/-- **C99.** With one round of the accumulator and the flags instead of two, if only in the last of its
cycles, LFA loads the byte after it instead of the flags: the flags arrive on the bus after the accumulator
has taken what is there. -/
theorem C99_once_wrong (u : Bool) (h : H) (p : P) (hr : Ready h p) (hd : decode (p.mem p.pc) = some .lfa) :
    ∃ h', execAllAs [(.code, .runClockCycle u), (.code, .runClockCycle u), (.once, .runClockCycle u)] h =
        some ([0, 0, 0], h') ∧ RegIs h' .acum ((p.mem (p.ahead 1)).setWidth 32) := by
  obtain ⟨a, rfl, d0, s0, h', cur, e, r, w⟩ := third .once u h p hr
  have hx : a.view.mem a.view.pc = 0x81 :=
    (by decide +kernel : ∀ x : BitVec 8, decode x = some .lfa → x = 0x81) _ hd
  obtain ⟨_, _, d2, s2, v2, g2⟩ := A.two a s0 d0 23 (by rw [hx]; decide +kernel)
  refine ⟨h', e, ?_⟩
  have := reg_shown r w .acum
  obtain ⟨t, g, et⟩ := A.cycleAs_at .once a.cycle.cycle s2
  have ac : (a.cycle.cycle.cycleAs .once).ac = a.view.mem (a.view.prog.ahead 1) := by
    rw [et, d2]
    show ((a.cycle.cycle.view.at t (A.romOf 23)).ucycleAs .once).ac = _
    rw [A.rom23, A.once23, g, g2, pc_ahead]
  have e2 : (a.cycle.cycle.cycleAs .once).view.reg .acum = (a.view.mem (a.view.prog.ahead 1)).setWidth 32 := by
    rw [← ac]; rfl
  rw [e2] at this
  exact this

/-- LFA with both flags clear and FF behind it: AC would be FF. -/
example : ∃ h p, Ready h p ∧ decode (p.mem p.pc) = some .lfa ∧ p.fc = false ∧ p.fz = false ∧
    p.mem (p.ahead 1) = 0xFF := by
  let p : P := ⟨0x55, 0xFF, 3, 4, 5, 7, 6, false, false, fun i => if i = 7 then 0x81 else 0xFF, []⟩
  obtain ⟨h, hr⟩ := ready_all p rfl
  exact ⟨h, p, hr, by decide +kernel, rfl, rfl, by decide +kernel⟩

/-- **C99.** With PC before the other registers, if only in this one cycle, the operand of MOV is not the
byte after the opcode, but the one after that. -/
theorem C99_order_wrong (u : Bool) (h : H) (p : P) (hr : Ready h p) (hd : decode (p.mem p.pc) = some (.mov .imm .ac)) :
    ∃ h', execAllAs [(.code, .runClockCycle u), (.code, .runClockCycle u), (.early, .runClockCycle u)] h =
        some ([0, 0, 0], h') ∧ RegIs h' .op2 ((p.mem (p.ahead 2)).setWidth 32) := by
  obtain ⟨a, rfl, d0, s0, h', cur, e, r, w⟩ := third .early u h p hr
  have hx : ∀ fc fz, A.nextOf 1 (a.view.mem a.view.pc) fc fz = 15 :=
    (by decide +kernel : ∀ x : BitVec 8, decode x = some (.mov .imm .ac) → ∀ fc fz, A.nextOf 1 x fc fz = 15) _ hd
  obtain ⟨_, _, d2, s2, v2, g2⟩ := A.two a s0 d0 15 hx
  refine ⟨h', e, ?_⟩
  have := reg_shown r w .op2
  obtain ⟨t, g, et⟩ := A.cycleAs_at .early a.cycle.cycle s2
  have m0 : (a.view.rtl 0).mem = a.view.mem := by simp only [V.rtl, V.incPc]; split <;> rfl
  have p0 : (a.view.rtl 0).incPc.pc = a.view.prog.ahead 2 := by
    rw [pc_ahead]
    have q : (a.view.rtl 0).prog = a.view.prog.past 1 := by
      rw [← next_past]
      generalize a.view = v
      have h' : v.prog.pc = v.pc := rfl
      by_cases h : v.pc = 0xFFFF
      · rw [V.rtl, V.incPc, P.next, if_pos h, if_pos (h'.trans h)]; rfl
      · rw [V.rtl, V.incPc, P.next, if_neg h, if_neg (by rw [h']; exact h)]; rfl
    rw [q]
    exact congrArg P.pc (past_past a.view.prog 1 1)
  have op2 : (a.cycle.cycle.cycleAs .early).op2 = a.view.mem (a.view.prog.ahead 2) := by
    rw [et, d2]
    show ((a.cycle.cycle.view.at t (A.romOf 15)).ucycleAs .early).op2 = _
    rw [A.rom15, A.early15, v2, m0, p0]
  have e2 : (a.cycle.cycle.cycleAs .early).view.reg .op2 = (a.view.mem (a.view.prog.ahead 2)).setWidth 32 := by
    rw [← op2]; rfl
  rw [e2] at this
  exact this

/-- `MOV 12,AC` with 34 behind it. -/
example : ∃ h p, Ready h p ∧ decode (p.mem p.pc) = some (.mov .imm .ac) ∧ p.mem (p.ahead 1) = 0x12 ∧
    p.mem (p.ahead 2) = 0x34 := by
  let p : P := ⟨0x55, 0xFF, 3, 4, 5, 7, 6, false, false, fun i => if i = 7 then 0x64 else if i = 8 then 0x12 else 0x34, []⟩
  obtain ⟨h, hr⟩ := ready_all p rfl
  exact ⟨h, p, hr, by decide +kernel, by decide +kernel, by decide +kernel⟩

/-- Neither of them is among the plans of `C99_history`. -/
theorem C99_short : ¬ Plan.once.Enough ∧ ¬ Plan.early.Enough :=
  ⟨fun e => absurd e.slow2 (by decide), fun e => absurd e.late.op2 (by decide)⟩

end Mpp
