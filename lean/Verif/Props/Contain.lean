import Verif.Contain
import Verif.BadFetch
/-!
# C44: values outside their range are contained
-/
namespace Mpp

/-! ## A machine whose memory holds arbitrary `int` values -/

/-- `h` is a running machine in typed state `a`, except that its memory is `m`. -/
structure Dirty (h : H) (a : A) (m : BitVec 16 → CInt) : Prop where
  rep : ∃ cur, Rep h ((lift a cur).withMem m)
  watch : ∃ n, h.watch = many (n + 1)
  clk : h.clk = false → a.q = a.dd
  settled : a.Settled

theorem On.dirty {h : H} {a : A} (o : On h a) : Dirty h a fun i => (a.mem i).setWidth 32 :=
  ⟨o.rep, o.watch, o.clk, o.settled⟩

theorem rep_reg {h : H} {t : T} (r : Rep h t) (w : ∃ n, h.watch = many (n + 1)) {a : A}
    {cur : Slot → W} (e : t.regs = (lift a cur).regs) (x : WType) : RegIs h x (a.view.reg x) := by
  unfold RegIs
  simp only [exec, getRegister_all h w x, hrun_bind, hrun_getReg, Option.bind_some, r.regs, e]
  cases x <;>
    simp only [WType.theReg, reg_ac, reg_fc, reg_fz, reg_b, reg_c, reg_d, reg_e, reg_h, reg_l,
      reg_op2, reg_pch, reg_pcl, reg_pc, reg_sp, reg_ri, toInt_8, toInt_16, toInt_bool, hrun_ppure] <;>
    first | rfl | (simp only [boolWord_int]; rfl)

theorem rep_next {h : H} {t : T} (r : Rep h t) {a : A} {cur : Slot → W}
    (e : ∀ tp ∈ [Topic.d5, .d4, .d3, .d2, .d1, .d0], t.topic tp = (lift a cur).topic tp) :
    NextState h (a.dd.setWidth 32) := by
  unfold NextState
  simp only [exec, getProcessedState, hrun_bind, r.nxt, Option.bind_some, Slot.topic,
    e .d5 (by decide), e .d4 (by decide), e .d3 (by decide), e .d2 (by decide), e .d1 (by decide),
    e .d0 (by decide), top_d5, top_d4, top_d3, top_d2, top_d1, top_d0, sel_q, hrun_ppure]

theorem rep_cell {h : H} {t : T} (r : Rep h t) (i : BitVec 16) :
    exec (.getMemoryValue (i.setWidth 32)) h = some (t.mem i, h) := by
  simp only [exec, getValueByOffset_16, H.run, memGet, Prog.run, H.handle, r.mem,
    Option.bind_some]

theorem Dirty.getReg {h : H} {a : A} {m} (o : Dirty h a m) (t : WType) :
    RegIs h t (a.view.reg t) := by
  obtain ⟨cur, r⟩ := o.rep
  exact rep_reg (cur := cur) r o.watch rfl t

theorem Dirty.getNextState {h : H} {a : A} {m} (o : Dirty h a m) :
    NextState h (a.dd.setWidth 32) := by
  obtain ⟨cur, r⟩ := o.rep
  exact rep_next r (cur := cur) fun _ _ => rfl

theorem Dirty.getMemory {h : H} {a : A} {m} (o : Dirty h a m) (i : BitVec 16) :
    exec (.getMemoryValue (i.setWidth 32)) h = some (m i, h) := by
  obtain ⟨cur, r⟩ := o.rep
  exact rep_cell r i

theorem Dirty.setMemory {h : H} {a : A} {m} (o : Dirty h a m) (hu : h.ui = true) (i : BitVec 16)
    (w : CInt) : ∃ h', exec (.setMemoryValue (i.setWidth 32) w) h = some (0, h') ∧
      Dirty h' a (upd m i w) ∧ h'.ui = true ∧ h'.log = h.log := by
  obtain ⟨cur, r⟩ := o.rep
  have h1 : T.run (memSet i w) ((lift a cur).withMem m) =
      some ((), (lift a cur).withMem (upd m i w)) := rfl
  obtain ⟨h', h2, h3, h4⟩ := sim_some r h1
  refine ⟨h', ?_, ⟨⟨cur, h3⟩, h4.watch ▸ o.watch, fun e => o.clk (h4.clk ▸ e), o.settled⟩,
    h4.ui.trans hu, h3.log.trans r.log.symm⟩
  have h5 : h.handle (.memSet i w) = some ((), h') := by
    rw [← h2]
    simp only [H.run, memSet, Prog.run]
    cases h.handle (.memSet i w) <;> rfl
  simp only [exec, getValueByOffset_16, h5]
  show (h'.callUi.map fun h => ((0 : CInt), h)) = _
  simp only [H.callUi, h4.ui, hu, if_true, Option.map_some]

/-- The calls that store the pairs of address and value `ws`. -/
def storeAll (ws : List (BitVec 16 × CInt)) : List Call :=
  ws.map fun x => .setMemoryValue (x.1.setWidth 32) x.2

theorem Dirty.storeAll {a : A} (ws : List (BitVec 16 × CInt)) {h : H} {m} (o : Dirty h a m)
    (hu : h.ui = true) : ∃ vs h' m', execAll (storeAll ws) h = some (vs, h') ∧
      Dirty h' a m' ∧ h'.ui = true ∧ h'.log = h.log := by
  induction ws generalizing h m with
  | nil => exact ⟨_, h, m, rfl, o, hu, rfl⟩
  | cons x ws ih =>
    obtain ⟨h1, e1, o1, u1, l1⟩ := o.setMemory hu x.1 x.2
    obtain ⟨vs, h', m', e2, o2, u2, l2⟩ := ih o1 u1
    refine ⟨0 :: vs, h', m', ?_, o2, u2, l2.trans l1⟩
    show execAll (_ :: Mpp.storeAll ws) h = _
    simp only [execAll, e1, Option.bind_some, e2, Option.map_some]

theorem usedBits_bad {v : CInt} (hv : ¬ IsByte v) : usedBits v > 8 := by
  rcases Nat.lt_or_ge 8 (usedBits v) with h | h
  · exact h
  · exfalso
    apply hv
    have := (usedBits_le v 8).1 h
    unfold IsByte
    rw [BitVec.toInt_eq_toNat_of_lt (by omega)]
    omega

theorem Dirty.fetch {h : H} {a : A} {m} (o : Dirty h a m) (u : Bool) (hu : h.ui = true)
    (hd : a.dd = 0) (bad : ¬ IsByte (m a.pc)) :
    ∃ h', exec (.runClockCycle u) h = some (0, h') ∧ (∀ t, RegIs h' t (a.view.reg t)) ∧
      (∀ i : BitVec 16, exec (.getMemoryValue (i.setWidth 32)) h' = some (m i, h')) ∧
      h'.log = .riOverflow :: h.log ∧ NextState h' 1 := by
  obtain ⟨cur, r⟩ := o.rep
  have hp : a.pcOut = a.pc := o.settled.2.2.2.2.1
  have badb : usedBits (m a.pcOut) > 8 := by rw [hp]; exact usedBits_bad bad
  have clkSet : ∀ {h : H} {t : T} (b : Bool), Rep h t → Rep { h with clk := b } t :=
    fun b r => r.congr rfl rfl rfl rfl rfl rfl
  have key : ∀ {h1 : H} {c : Slot → W}, Rep h1 ((lift a.dxflipflop c).withMem m) →
      ∃ h' t', H.run (runCu true) h1 = some ((), h') ∧ Rep h' t' ∧ Frame h1 h' ∧
        t'.regs = (lift a cur).regs ∧ t'.mem = m ∧ t'.log = .riOverflow :: a.log ∧
        (∀ tp ∈ [Topic.d5, .d4, .d3, .d2, .d1, .d0],
          t'.topic tp = (lift a.dxflipflop.seqJnr.seq c).topic tp) := by
    intro h1 c rr
    obtain ⟨t', e1, e2, e3, e4, e5⟩ := run_badFetch a.dxflipflop c m hd badb
    obtain ⟨h', g1, g2, g3⟩ := sim_some rr e1
    exact ⟨h', t', g1, g2, g3, e2, e3, e4, e5⟩
  have fin : ∃ h' t', clockLoop 2 h = some h' ∧ Rep h' t' ∧ (∃ n, h'.watch = many (n + 1)) ∧
      h'.ui = true ∧ t'.regs = (lift a cur).regs ∧ t'.mem = m ∧ t'.log = .riOverflow :: a.log ∧
        (∃ c, ∀ tp ∈ [Topic.d5, .d4, .d3, .d2, .d1, .d0],
          t'.topic tp = (lift a.dxflipflop.seqJnr.seq c).topic tp) := by
    cases hc : h.clk with
    | false =>
      have e : a.dxflipflop = a := A.dxflipflop_id a (o.clk hc)
      obtain ⟨h', t', e1, e2, e3, e4, e5, e6, e7⟩ := key (clkSet true (by rw [e]; exact r))
      exact ⟨h', t', clockLoop_high 1 hc e1, e2, e3.watch ▸ o.watch, e3.ui.trans hu, e4, e5,
        e6, _, e7⟩
    | true =>
      obtain ⟨c1, h1⟩ := run_cuLow a cur
      obtain ⟨h1', h2, h3, h4⟩ := sim_some (clkSet false r) (run_noMem _ nm_dxflipflop h1 m)
      obtain ⟨h', t', e1, e2, e3, e4, e5, e6, e7⟩ := key (clkSet true h3)
      refine ⟨h', t', ?_, e2, ?_, ?_, e4, e5, e6, _, e7⟩
      · rw [clockLoop_low 1 hc h2, clockLoop_high 0 h4.clk e1]
      · exact (e3.watch.trans h4.watch) ▸ o.watch
      · exact (e3.ui.trans h4.ui).trans hu
  obtain ⟨h', t', e1, e2, e3, e4, e5, e6, e7, c, e8⟩ := fin
  have hdd : a.dxflipflop.seqJnr.seq.dd = 1 := by
    show A.seqNext a.dd a.dxflipflop.seqJnr.joiner = 1
    rw [hd, A.seqNext_jnr]
    exact next_zero _ _ _
  refine ⟨h', ?_, fun t => rep_reg e2 e3 e5 t, fun i => ?_, ?_, ?_⟩
  · simp only [exec, e1, Option.bind_some]
    cases u with
    | false => rfl
    | true => simp only [if_true, H.callUi, e4, Option.map_some]
  · rw [rep_cell e2, e6]
  · rw [e2.log, e7, r.log]; rfl
  · have := rep_next e2 e8
    rw [hdd] at this
    exact this

/-! ## C44 -/

/-- **C44, the registers.** After any calls at all, with any arguments, in any order: AC, B..E, RI,
PCH and PCL never show a value above 255, and SP never one above 65535. -/
theorem C44_contained {cs : List Call} {vs : List CInt} {h h' : H} {v : CInt} {t : WType}
    (e : execAll cs H.start = some (vs, h)) (g : exec (.getRegisterValue t) h = some (v, h')) :
    (t ∈ [.acum, .b, .c, .d, .e, .ri, .pch, .pcl] → 0 ≤ v.toInt ∧ v.toInt ≤ 255) ∧
    (t = .sp → 0 ≤ v.toInt ∧ v.toInt ≤ 65535) := by
  have i := Fitting.start.calls cs e
  have key : ∀ n, t.theReg.limit = some n → n ≤ 65536 → 0 ≤ v.toInt ∧ v.toInt < n := by
    intro n hn hle
    simp only [exec] at g
    split at g
    · cases g
    · rename_i r hr
      obtain rfl := getRegister_reg hr
      simp only [hrun_bind, hrun_getReg, Option.bind_some] at g
      unfold toInt at g
      have := i t.theReg n hn
      have hv : v = h.regs t.theReg := by
        cases hw : wordToInt (h.regs t.theReg) with
        | none => rw [hw] at g; cases g
        | some w =>
          rw [hw] at g
          cases g
          unfold wordToInt at hw
          split at hw <;> cases hw
          rfl
      rw [hv, BitVec.toInt_eq_toNat_of_lt (by omega)]
      omega
  constructor
  · intro ht
    have : t.theReg.limit = some 256 := by
      simp only [List.mem_cons, List.not_mem_nil, or_false] at ht
      rcases ht with rfl | rfl | rfl | rfl | rfl | rfl | rfl | rfl <;> rfl
    have := key _ this (by decide)
    omega
  · rintro rfl
    have := key _ rfl (by decide)
    omega

/-- **C44, the fetch.** The host stores any `int` values in any cells of a machine that is between
two instructions. If the cell at PC then holds a value outside 0..255, the next clock cycle changes
no register (in particular not the instruction register) and no cell, reports exactly one error, the
overflow of the instruction register, and goes on to microstate 1. -/
theorem C44_fetch {p : Phase} {h : H} (r : Reach p h) (hp : p.on = true) (hu : p.ui = true)
    (b : Boundary h) (ws : List (BitVec 16 × CInt)) :
    ∃ vs h1, execAll (storeAll ws) h = some (vs, h1) ∧ ∃ n : BitVec 16,
      RegIs h1 .pc (n.setWidth 32) ∧
      ∀ v, exec (.getMemoryValue (n.setWidth 32)) h1 = some (v, h1) → ¬ IsByte v → ∀ u,
        ∃ h2, exec (.runClockCycle u) h1 = some (0, h2) ∧
          (∀ t x, RegIs h1 t x → RegIs h2 t x) ∧
          (∀ (i : BitVec 16) x, exec (.getMemoryValue (i.setWidth 32)) h1 = some (x, h1) →
            exec (.getMemoryValue (i.setWidth 32)) h2 = some (x, h2)) ∧
          h2.log = .riOverflow :: h1.log ∧ NextState h2 1 := by
  obtain ⟨a, o⟩ := r.on hp
  have ui : h.ui = true := r.inv.ui.trans hu
  have hd : a.dd = 0 := widen6_inj (some_inj (o.getNextState.symm.trans b))
  obtain ⟨vs, h1, m, e, d, u1, _⟩ := o.dirty.storeAll ws ui
  refine ⟨vs, h1, e, a.pc, d.getReg .pc, ?_⟩
  intro v hv bad u
  have hm := some_inj (hv.symm.trans (d.getMemory a.pc))
  obtain ⟨h2, g1, g2, g3, g4, g5⟩ := d.fetch u u1 hd (by rw [← hm]; exact bad)
  refine ⟨h2, g1, fun t x hx => ?_, fun i x hx => ?_, g4, g5⟩
  · rw [some_inj (hx.symm.trans (d.getReg t))]; exact g2 t
  · rw [some_inj (hx.symm.trans (d.getMemory i))]; exact g3 i

/-- The hypotheses of both theorems are met: after `init`, store -5 and 300 in the cells 0 and 1, and
run a cycle; afterwards the instruction register still shows 0. -/
example : ∃ p h, Reach p h ∧ p.on = true ∧ p.ui = true ∧ Boundary h ∧
    ∃ vs h1 h2, execAll (storeAll [(0, -5), (1, 300)]) h = some (vs, h1) ∧
      exec (.getMemoryValue 0) h1 = some (-5, h1) ∧ ¬ IsByte (-5) ∧
      exec (.runClockCycle true) h1 = some (0, h2) ∧ RegIs h2 .ri 0 := by
  have r0 : Reach Phase.start H.start := ⟨[], [], rfl, rfl⟩
  have r1 : Reach ⟨false, true, 0, 0⟩ { H.start with ui := true } :=
    r0.step (c := .setUpdateUi true) (v := 0) trivial rfl
  obtain ⟨h, e, o, _⟩ := (r1.inv.off rfl).init (fun i => i) (by rw [r1.inv.count]; decide)
  have r := r1.step (c := .init fun i => i) (by decide : (0 : Nat) < 27183337) e
  have b : Boundary h := o.getNextState
  have ui : h.ui = true := r.inv.ui
  obtain ⟨h1, e1, o1, u1, _⟩ := o.dirty.setMemory ui 0 (-5)
  obtain ⟨h2, e2, o2, u2, _⟩ := o1.setMemory u1 1 300
  have x : execAll (storeAll [(0, -5), (1, 300)]) h = some ([0, 0], h2) := by
    simp only [storeAll, List.map, execAll, e1, e2, Option.bind_some, Option.map_some]
  have c := o2.getMemory 0
  obtain ⟨vs, h1', x', n, f1, f2⟩ := C44_fetch r rfl rfl b [(0, -5), (1, 300)]
  rw [x] at x'
  cases x'
  have hn : n = 0 := widen16_inj (some_inj (f1.symm.trans (o2.getReg .pc)))
  subst hn
  obtain ⟨h3, g1, g2, _⟩ := f2 _ c (by decide) true
  exact ⟨_, h, r, rfl, rfl, b, _, h2, h3, x, c, by decide, g1, g2 _ _ (o2.getReg .ri)⟩

end Mpp
