import Verif.Undefined
import Verif.Props.Cpu
/-!
# Properties C20, C31, C32, C33: what happens at every clock cycle
-/
namespace Mpp

/-! ## C20 -/

/-- The clock cycle from `h` to `h'` is a write microstate of a store instruction, which stores `x`
at `a`. -/
inductive StoreOf (h h' : H) : BitVec 16 → BitVec 8 → Prop
  /-- STA, STAX and the undefined opcodes 0x91..0x9F: AC to the cell addressed by H:L, in S19 -/
  | sta {op hi lo x : BitVec 8} (ri : RegIs h .ri (op.setWidth 32))
      (is : decode op = some .sta ∨ decode op = some .stax ∨ decode op = none ∧ op &&& 0xF0 = 0x90)
      (state : exec .getState h' = some (19, h')) (high : RegIs h .h (hi.setWidth 32))
      (low : RegIs h .l (lo.setWidth 32)) (val : RegIs h .acum (x.setWidth 32)) :
      StoreOf h h' (hi ++ lo) x
  /-- PUSH: AC to the top of the stack, in S36 -/
  | push {op x : BitVec 8} {a : BitVec 16} (ri : RegIs h .ri (op.setWidth 32))
      (is : decode op = some .push) (state : exec .getState h' = some (36, h'))
      (sp : RegIs h .sp (a.setWidth 32)) (val : RegIs h .acum (x.setWidth 32)) : StoreOf h h' a x
  /-- CALL: the high byte of the return address, in S28 -/
  | callHigh {op x : BitVec 8} {a : BitVec 16} (ri : RegIs h .ri (op.setWidth 32))
      (is : decode op = some .call) (state : exec .getState h' = some (28, h'))
      (sp : RegIs h .sp (a.setWidth 32)) (val : RegIs h .pch (x.setWidth 32)) : StoreOf h h' a x
  /-- CALL: the low byte of the return address, in S29 -/
  | callLow {op x : BitVec 8} {a : BitVec 16} (ri : RegIs h .ri (op.setWidth 32))
      (is : decode op = some .call) (state : exec .getState h' = some (29, h'))
      (sp : RegIs h .sp (a.setWidth 32)) (val : RegIs h .pcl (x.setWidth 32)) : StoreOf h h' a x

theorem rtl_mem (v : V) (k : Nat) (hk : k ∉ [19, 27, 28, 29, 36]) : (v.rtl k).mem = v.mem := by
  unfold V.rtl
  split <;> first
    | rfl
    | exact absurd (by decide) hk
    | (unfold V.incPc V.setPc; split <;> rfl)
    | (unfold V.incSp; split <;> rfl)
    | (unfold V.decSp; split <;> rfl)

theorem store_rows : ∀ r ∈ tt, r.2 = 19 →
    r.1.take 6 = [some false, some false, some true, some true, some false, some false] := by
  decide +kernel

theorem state12 (s : BitVec 6) (h : fits [some false, some false, some true, some true, some false, some false]
    [s.getLsbD 5, s.getLsbD 4, s.getLsbD 3, s.getLsbD 2, s.getLsbD 1, s.getLsbD 0] = true) :
    s = 12 := by
  revert s; decide +kernel

/-- S19 comes after S12 only. -/
theorem next_19 (s : BitVec 6) (ri : BitVec 8) (fc fz : Bool) (h : A.nextOf s ri fc fz = 19) :
    s = 12 := by
  rw [nextOf_eq] at h
  rcases ttNext_mem (seqIn s ri fc fz) with e | ⟨r, hr, hf, e⟩
  · rw [e] at h; exact absurd h (by decide)
  · rw [e] at h
    have ht := fits_take _ _ 6 hf
    rw [store_rows r hr h] at ht
    exact state12 s ht

/-- Before S19, 2OP holds AC. -/
theorem Reach.before19 {p : Phase} {h : H} (r : Reach p h) (hp : p.on = true) {m : M} (t : At h m) :
    m.s = 19 → m.v.op2 = m.v.ac :=
  r.mtheorem (fun m => m.s = 19 → m.v.op2 = m.v.ac) (fun _ _ e => absurd e (by decide : ¬ (0 : BitVec 6) = 19))
    (fun m c _ i => by
      cases c with
      | runClockCycle _ =>
        intro e
        have : m.s = 12 := next_19 _ _ _ _ e
        show (m.v.rtl m.s.toNat).op2 = (m.v.rtl m.s.toNat).ac
        rw [this]; rfl
      | resetControl => intro e; exact absurd e (by decide : ¬ (0 : BitVec 6) = 19)
      | _ => exact i) hp t

theorem path_19 : ∀ o : BitVec 8, ∀ fc fz : Bool, 19 ∈ pathOf o fc fz →
    decode o = some .sta ∨ decode o = some .stax ∨ decode o = none ∧ o &&& 0xF0 = 0x90 := by
  decide +kernel
theorem path_36 : ∀ o : BitVec 8, ∀ fc fz : Bool, 36 ∈ pathOf o fc fz → decode o = some .push := by
  decide +kernel
theorem path_28 : ∀ o : BitVec 8, ∀ fc fz : Bool, 28 ∈ pathOf o fc fz → decode o = some .call := by
  decide +kernel
theorem path_29 : ∀ o : BitVec 8, ∀ fc fz : Bool, 29 ∈ pathOf o fc fz → decode o = some .call := by
  decide +kernel

theorem InPath.get {m : M} (i : InPath m) {k : BitVec 6} (hk : m.s = k) (h0 : k ≠ 0) :
    ∃ fc fz, k ∈ pathOf m.v.ri fc fz := by
  rcases i with e | ⟨fc, fz, e⟩
  · exact absurd (hk.symm.trans e) h0
  · exact ⟨fc, fz, hk ▸ e⟩

theorem nat_state {s : BitVec 6} {k : Nat} (hk : k < 64) (h : s.toNat = k) : s = BitVec.ofNat 6 k :=
  BitVec.eq_of_toNat_eq (by rw [h, BitVec.toNat_ofNat]; omega)

/-- **C20.** One clock cycle of any reachable machine either leaves every memory cell alone, or is
a write microstate of a store instruction and changes only the cell that instruction addresses, to
the value it stores. -/
theorem C20_memory (u : Bool) (ph : Phase) (h : H) (hr : Reach ph h) (on : ph.on = true)
    (hu : u = true → ph.ui = true) :
    ∃ h', exec (.runClockCycle u) h = some (0, h') ∧
      ((∀ i x, Cell h i x → Cell h' i x) ∨
        ∃ a x, StoreOf h h' a x ∧ Cell h' a x ∧ ∀ i y, i ≠ a → Cell h i y → Cell h' i y) := by
  obtain ⟨m, t⟩ := hr.at on
  have ip := hr.inPath on t
  have bf := hr.before19 on t
  obtain ⟨h', e, t', _, st⟩ := t.cycleState u (fun e => hr.inv.ui.trans (hu e))
  refine ⟨h', e, ?_⟩
  have keep : ∀ i x, Cell h i x → m.step.v.mem i = m.v.mem i → Cell h' i x := fun i x hx em => by
    have h1 := t'.mem i
    rw [em] at h1
    show exec _ _ = _
    rw [h1, some_inj (hx.symm.trans (t.mem i))]
  have write : ∀ a x, m.step.v.mem = upd m.v.mem a x → StoreOf h h' a x →
      ∃ a x, StoreOf h h' a x ∧ Cell h' a x ∧ ∀ i y, i ≠ a → Cell h i y → Cell h' i y := by
    intro a x em so
    refine ⟨a, x, so, ?_, fun i y hi hy => keep i y hy ?_⟩
    · have h1 := t'.mem a
      rw [em, upd, if_pos rfl] at h1; exact h1
    · rw [em, upd, if_neg hi]
  by_cases hk : m.s.toNat ∈ [19, 27, 28, 29, 36]
  · right
    simp only [List.mem_cons, List.not_mem_nil, or_false] at hk
    rcases hk with hk | hk | hk | hk | hk <;> have hs := nat_state (by decide) hk <;>
      rw [hs] at st <;>
      have ev : m.step.v = m.v.rtl _ := congrArg m.v.rtl hk
    · obtain ⟨fc, fz, ep⟩ := ip.get hs (by decide)
      refine write m.v.hl m.v.op2 (by rw [ev]; rfl) ?_
      rw [bf hs]
      exact .sta (t.reg .ri) (path_19 _ _ _ ep) st (t.reg .h) (t.reg .l) (t.reg .acum)
    · exact absurd hs (by
        intro e
        have := t.ok.1
        rw [e] at this
        exact this (by decide))
    · obtain ⟨fc, fz, ep⟩ := ip.get hs (by decide)
      exact write m.v.sp m.v.pch (by rw [ev]; rfl)
        (.callHigh (t.reg .ri) (path_28 _ _ _ ep) st (t.reg .sp) (t.reg .pch))
    · obtain ⟨fc, fz, ep⟩ := ip.get hs (by decide)
      exact write m.v.sp m.v.pcl (by rw [ev]; rfl)
        (.callLow (t.reg .ri) (path_29 _ _ _ ep) st (t.reg .sp) (t.reg .pcl))
    · obtain ⟨fc, fz, ep⟩ := ip.get hs (by decide)
      exact write m.v.sp m.v.ac (by rw [ev]; rfl)
        (.push (t.reg .ri) (path_36 _ _ _ ep) st (t.reg .sp) (t.reg .acum))
  · left
    exact fun i x hx => keep i x hx (congrFun (rtl_mem m.v _ hk) i)

/-! ## C31 -/

theorem V.Mirror.halves {v : V} (h : v.Mirror) : v.pch = V.hi v.pc ∧ v.pcl = V.lo v.pc := by
  unfold V.Mirror at h
  rw [← h]; exact ⟨(hi_append _ _).symm, (lo_append _ _).symm⟩

theorem V.Mirror.inc {v : V} (h : v.Mirror) : v.incPc.Mirror := by
  unfold V.incPc V.setPc V.Mirror
  split
  · exact h
  · exact hi_lo _

theorem V.Mirror.same {v w : V} (h : v.Mirror) (e1 : w.pch = v.pch) (e2 : w.pcl = v.pcl)
    (e3 : w.pc = v.pc) : w.Mirror := by
  unfold V.Mirror at h ⊢
  rw [e1, e2, e3, h]

theorem V.incSp_same (v : V) : v.incSp.pch = v.pch ∧ v.incSp.pcl = v.pcl ∧ v.incSp.pc = v.pc := by
  unfold V.incSp; split <;> exact ⟨rfl, rfl, rfl⟩
theorem V.decSp_same (v : V) : v.decSp.pch = v.pch ∧ v.decSp.pcl = v.pcl ∧ v.decSp.pc = v.pc := by
  unfold V.decSp; split <;> exact ⟨rfl, rfl, rfl⟩

theorem rtl_pc (v : V) (k : Nat) (hk : k ∉ [0, 15, 16, 17, 20, 30, 32, 33]) :
    (v.rtl k).pch = v.pch ∧ (v.rtl k).pcl = v.pcl ∧ (v.rtl k).pc = v.pc := by
  unfold V.rtl
  split <;> first
    | exact ⟨rfl, rfl, rfl⟩
    | exact absurd (by decide) hk
    | exact V.incSp_same _
    | exact V.decSp_same _

/-- Every microstate keeps the mirror. -/
theorem V.Mirror.rtl {v : V} (h : v.Mirror) (k : Nat) : (v.rtl k).Mirror := by
  by_cases hk : k ∈ [0, 15, 16, 17, 20, 30, 32, 33]
  · obtain ⟨h1, h2⟩ := h.halves
    simp only [List.mem_cons, List.not_mem_nil, or_false] at hk
    rcases hk with rfl | rfl | rfl | rfl | rfl | rfl | rfl | rfl
    · exact V.Mirror.inc (V.Mirror.same h rfl rfl rfl)
    · exact V.Mirror.inc (V.Mirror.same h rfl rfl rfl)
    · exact V.Mirror.inc (V.Mirror.same h rfl rfl rfl)
    · exact V.Mirror.inc (V.Mirror.same h rfl rfl rfl)
    · exact hi_lo _
    · exact hi_lo _
    · show v.pch ++ v.mem v.sp = V.hi v.pc ++ v.mem v.sp
      rw [h1]
    · show v.mem v.sp ++ v.pcl = v.mem v.sp ++ V.lo v.pc
      rw [h2]
  · obtain ⟨e1, e2, e3⟩ := rtl_pc v k hk
    exact h.same e1 e2 e3

theorem fresh_mirror (rand : Nat → Nat) (log : List Err) : (A.fresh rand log).view.Mirror := by
  show (0 : BitVec 8) ++ (0 : BitVec 8) = (0 : BitVec 16)
  decide

/-- **C31.** A fetch not at 0xFFFF makes PCH and PCL the halves of PC, whatever they were. -/
theorem C31_fetch (u : Bool) (ph : Phase) (h : H) (hr : Reach ph h) (on : ph.on = true)
    (hu : u = true → ph.ui = true) (hb : Boundary h) (hpc : ¬ RegIs h .pc 0xFFFF) :
    ∃ h', exec (.runClockCycle u) h = some (0, h') ∧ Mirror h' := by
  obtain ⟨m, t⟩ := hr.at on
  have e := (t.boundary).1 hb
  obtain ⟨v, s⟩ := m
  obtain rfl : s = 0 := e
  obtain ⟨h', e1, t1, _⟩ := t.cycle u (fun e => hr.inv.ui.trans (hu e))
  refine ⟨h', e1, (t1.mirror).2 ?_⟩
  have hv : v.pc ≠ 0xFFFF := fun e => hpc (by
    have := t.reg .pc
    show exec _ _ = _
    rw [this]
    show some (v.pc.setWidth 32, h) = _
    rw [e]; rfl)
  show (V.incPc { v with ri := v.mem v.pc }).Mirror
  unfold V.incPc
  rw [if_neg hv]
  exact hi_lo _

/-- **C31.** No history of calls without `set_register_pc` destroys it: clock cycles in any
microstate, resets, memory writes, shutdown and initialisation. -/
theorem C31_kept (ph ph' : Phase) (h h' : H) (cs : List Call) (vs : List CInt) (hr : Reach ph h)
    (on : ph.on = true) (hm : Mirror h) (hl : Legal ph cs ph')
    (hc : ∀ v, Call.setRegisterPc v ∉ cs) (run : execAll cs h = some (vs, h'))
    (on' : ph'.on = true) : Mirror h' := by
  obtain ⟨s, d⟩ := hr.desc
  obtain ⟨m, t⟩ := hr.at on
  obtain ⟨s', d', hi⟩ := Desc.keeps (fun a => a.view.Mirror) (fun c => ∀ v, c ≠ .setRegisterPc v)
    fresh_mirror
    (fun a c hc hs ho hm => by
      have e : (a.call c).view = (a.m.call c).v := congrArg M.v (a.m_call hs ho.lt c)
      rw [e]
      cases c with
      | runClockCycle _ => exact hm.rtl _
      | setRegisterPc v => exact absurd rfl (hc v)
      | _ => exact hm)
    cs d
    (fun a ha => by
      subst ha
      have o : On h a := d.is
      have : (⟨a.view, a.dd⟩ : M) = m := o.at.unique t
      have hv : a.view = m.v := congrArg M.v this
      rw [hv]; exact (t.mirror).1 hm)
    hl (fun c h v e => hc v (e ▸ h)) run
  cases s' with
  | off l => rw [d'.phase] at on'; cases on'
  | on a =>
    have o : On h' a := d'.is
    exact (o.at.mirror).2 (hi a rfl)

/-- **C31.** `init` establishes it. -/
theorem C31_init (ph : Phase) (h : H) (rand : Nat → Nat) (hr : Reach ph h)
    (hc : (Call.init rand).Allowed ph) : ∃ h', exec (.init rand) h = some (0, h') ∧ Mirror h' := by
  obtain ⟨s, d⟩ := hr.desc
  obtain ⟨h', e, d'⟩ := d.call _ hc
  refine ⟨h', e, ?_⟩
  have o : On h' (A.fresh rand s.log) := d'.is
  exact (o.at.mirror).2 (fresh_mirror _ _)

/-- A CALL in the last cell, reached from the instruction before it: PCH and PCL are the halves of PC, as
C09 asks for. -/
example : ∃ h p, Ready h p ∧ decode (p.mem p.pc) = some .call ∧ p.pc = 0xFFFF ∧ Mirror h := by
  let p : P := ⟨0x55, 0xFF, 3, 4, 5, 0xFFFE, 6, true, false, fun i => if i = 0xFFFF then 0xC4 else 0x44, []⟩
  obtain ⟨h, hr⟩ := ready_all p rfl
  obtain ⟨v, t, e⟩ := hr.at
  obtain ⟨h', _, t', r'⟩ := hr.run t true
  have hv : v.pc = 0xFFFE ∧ v.mem v.pc = 0x44 := by
    have e1 : v.prog.pc = p.pc := by rw [e]
    have e2 : v.prog.mem v.prog.pc = p.mem p.pc := by rw [e]
    exact ⟨e1, e2⟩
  have hp : (v.follow (0 :: pathOf (v.mem v.pc) v.fc v.fz)).prog = v.prog.instr (.mov .ac .ac) := by
    have hd : decode (v.mem v.pc) = some (.mov .ac .ac) := by rw [hv.2]; decide +kernel
    have : pathOf (v.mem v.pc) v.fc v.fz = (Instr.mov .ac .ac).path v.fc v.fz := by
      unfold pathOf; rw [hd]
    rw [this]
    exact isa_sim v _ hd (fun e => by cases e)
  have keep : ∀ (l : List (BitVec 6)) (w : V), w.Mirror → (w.follow l).Mirror := by
    intro l
    induction l with
    | nil => exact fun w m => m
    | cons s l ih => exact fun w m => ih _ (m.rtl s.toNat)
  have m : (v.follow (0 :: pathOf (v.mem v.pc) v.fc v.fz)).Mirror := by
    refine keep (pathOf (v.mem v.pc) v.fc v.fz) (v.rtl 0) ?_
    show (v.rtl 0).pch ++ (v.rtl 0).pcl = (v.rtl 0).pc
    simp only [V.rtl]
    unfold V.incPc V.setPc
    rw [if_neg (by rw [hv.1]; decide)]
    exact hi_lo _
  rw [hp, e] at r'
  exact ⟨h', _, r', by decide +kernel, by decide +kernel, (t'.mirror).2 m⟩

/-! ## C32 -/

/-- The instructions documented to set the flags. -/
def Instr.setsFlags : Instr → Bool
  | .alu _ _ | .inc _ | .cma | .sfa | .iret => true
  | _ => false

/-- Opcodes of the instructions that are documented to set the flags, and the undefined opcodes
that always act as one of them (see C12). -/
def SetsFlags (o : BitVec 8) : Prop :=
  ∃ i : Instr, i.setsFlags = true ∧
    (decode o = some i ∨
      decode o = none ∧ ∀ u h p, Ready h p → p.mem p.pc = o → Does u h (p.instr i))

/-- Whether one of the microstates that write the flags is on the path. -/
def flagPath (o : BitVec 8) : Bool :=
  [false, true].any fun fc => [false, true].any fun fz =>
    (pathOf o fc fz).any fun s => decide (s.toNat ∈ [5, 6, 7, 8, 9, 10, 11, 13, 14, 24, 34])

def flagInstr (o : BitVec 8) : Bool :=
  match decode o with
  | some i => i.setsFlags
  | none =>
    match undefinedOp o with
    | .alias i => i.setsFlags
    | .inert _ => false

theorem flag_ops : ∀ o : BitVec 8, flagPath o = true → flagInstr o = true := by decide +kernel

theorem setsFlags_of (o : BitVec 8) (h : flagInstr o = true) : SetsFlags o := by
  unfold flagInstr at h
  cases hd : decode o with
  | some i => rw [hd] at h; exact ⟨i, h, .inl hd⟩
  | none =>
    rw [hd] at h
    cases hu : undefinedOp o with
    | inert l => rw [hu] at h; cases h
    | alias i =>
      rw [hu] at h
      refine ⟨i, h, .inr ⟨hd, fun u h p hr hp => ?_⟩⟩
      obtain ⟨v, t, rfl⟩ := hr.at
      obtain ⟨h', e1, _, e3⟩ := hr.run t u
      have hp' : v.mem v.pc = o := hp
      have e : pathOf (v.mem v.pc) v.fc v.fz = i.path v.fc v.fz := by
        unfold pathOf; rw [hp', hd, hu]
      rw [e, alias_sim v i (by rw [hp', hu])] at e3
      exact ⟨_, h', e1, e3⟩

theorem rtl_flags (v : V) (k : Nat) (hk : k ∉ [5, 6, 7, 8, 9, 10, 11, 13, 14, 24, 34]) :
    (v.rtl k).fc = v.fc ∧ (v.rtl k).fz = v.fz := by
  unfold V.rtl
  split <;> first
    | exact ⟨rfl, rfl⟩
    | exact absurd (by decide) hk
    | (unfold V.incPc V.setPc; split <;> exact ⟨rfl, rfl⟩)
    | (unfold V.incSp; split <;> exact ⟨rfl, rfl⟩)
    | (unfold V.decSp; split <;> exact ⟨rfl, rfl⟩)

theorem bool_any (b : Bool) : b ∈ [false, true] := by cases b <;> decide

/-- **C32.** At every clock cycle, also in the middle of instructions: unless the instruction
register holds the opcode of a flag-setting instruction, FC and FZ stay as they are. -/
theorem C32_cycle (u : Bool) (ph : Phase) (h : H) (hr : Reach ph h) (on : ph.on = true)
    (hu : u = true → ph.ui = true) (o : BitVec 8) (ho : RegIs h .ri (o.setWidth 32))
    (hn : ¬ SetsFlags o) :
    ∃ h', exec (.runClockCycle u) h = some (0, h') ∧
      (∀ x, RegIs h .fc x → RegIs h' .fc x) ∧ (∀ x, RegIs h .fz x → RegIs h' .fz x) := by
  obtain ⟨m, t⟩ := hr.at on
  have ip := hr.inPath on t
  obtain ⟨h', e, t', _⟩ := t.cycle u (fun e => hr.inv.ui.trans (hu e))
  have hri : m.v.ri = o := widen8_inj (some_inj ((t.reg .ri).symm.trans ho))
  have hk : m.s.toNat ∉ [5, 6, 7, 8, 9, 10, 11, 13, 14, 24, 34] := by
    intro hk
    rcases ip with e0 | ⟨fc, fz, ep⟩
    · rw [e0] at hk; exact absurd hk (by decide)
    · refine hn (setsFlags_of o (flag_ops o ?_))
      rw [hri] at ep
      unfold flagPath
      rw [List.any_eq_true]
      refine ⟨fc, bool_any fc, ?_⟩
      rw [List.any_eq_true]
      refine ⟨fz, bool_any fz, ?_⟩
      rw [List.any_eq_true]
      exact ⟨_, ep, decide_eq_true hk⟩
  obtain ⟨f1, f2⟩ := rtl_flags m.v _ hk
  refine ⟨h', e, fun x hx => ?_, fun x hx => ?_⟩
  · rw [some_inj (hx.symm.trans (t.reg .fc))]
    have := t'.reg .fc
    show exec _ _ = _
    rw [this]
    show some ((if (m.v.rtl m.s.toNat).fc then (1 : CInt) else 0), h') = _
    rw [f1]; rfl
  · rw [some_inj (hx.symm.trans (t.reg .fz))]
    have := t'.reg .fz
    show exec _ _ = _
    rw [this]
    show some ((if (m.v.rtl m.s.toNat).fz then (1 : CInt) else 0), h') = _
    rw [f2]; rfl

theorem follow_flags (v : V) (l : List (BitVec 6))
    (hl : ∀ s ∈ l, s.toNat ∉ [5, 6, 7, 8, 9, 10, 11, 13, 14, 24, 34]) :
    (v.follow l).fc = v.fc ∧ (v.follow l).fz = v.fz := by
  induction l generalizing v with
  | nil => exact ⟨rfl, rfl⟩
  | cons s l ih =>
    rw [V.follow_cons]
    obtain ⟨h1, h2⟩ := ih (v.rtl s.toNat) (fun s hs => hl s (List.mem_cons_of_mem _ hs))
    obtain ⟨h3, h4⟩ := rtl_flags v _ (hl s List.mem_cons_self)
    exact ⟨h1.trans h3, h2.trans h4⟩

/-- **C32.** Of whole instructions: only the flag-setting ones change the flags. -/
theorem C32_instruction (u : Bool) (h h' : H) (p p' : P) (n : Nat) (hr : Ready h p)
    (run : RunInstruction u n h h') (hr' : Ready h' p') (hn : ¬ SetsFlags (p.mem p.pc)) :
    p'.fc = p.fc ∧ p'.fz = p.fz := by
  obtain ⟨v, t, rfl⟩ := hr.at
  obtain ⟨h1, e1, _, e3⟩ := hr.run t u
  obtain ⟨_, e⟩ := run.det e1
  subst e
  rw [hr'.unique e3]
  refine follow_flags v _ fun s hs hk => ?_
  rcases List.mem_cons.1 hs with e0 | hs
  · rw [e0] at hk; exact absurd hk (by decide)
  · refine hn (setsFlags_of _ (flag_ops _ ?_))
    show flagPath (v.mem v.pc) = true
    unfold flagPath
    rw [List.any_eq_true]
    refine ⟨v.fc, bool_any _, ?_⟩
    rw [List.any_eq_true]
    refine ⟨v.fz, bool_any _, ?_⟩
    rw [List.any_eq_true]
    exact ⟨s, hs, decide_eq_true hk⟩

/-! ## C33 -/

/-- The microstates that the documentation lists for an instruction, for given flags, as in
`docs/src/pages/es/instructions/*.mdx`; `none` where it lists none. -/
def docStates (fc fz : Bool) : Instr → Option (List Nat)
  | .alu .add (.reg _) => some [0, 1, 2, 5]            -- ADD.mdx:35-38
  | .alu .add .imm => some [0, 1, 15, 5]               -- ADD.mdx:54-57
  | .alu .add .ac => some [0, 1, 12, 5]                -- ADD.mdx:73-76
  | .alu .sub (.reg _) => some [0, 1, 2, 6]            -- SUB.mdx
  | .alu .sub .imm => some [0, 1, 15, 6]
  | .alu .sub .ac => some [0, 1, 12, 6]
  | .alu .and .imm => some [0, 1, 15, 9]               -- AND.mdx:29-32
  | .alu .and (.reg _) => some [0, 1, 2, 9]            -- AND.mdx:48-51
  | .alu .and .ac => some [0, 1, 12, 9]                -- AND.mdx:67-70
  | .alu .or .imm => some [0, 1, 15, 10]               -- OR.mdx:29-32
  | .alu .or (.reg _) => some [0, 1, 12, 10]           -- OR.mdx:48-51
  | .alu .or .ac => some [0, 1, 12, 10]                -- OR.mdx:67-70
  | .alu .xor .imm => some [0, 1, 15, 11]              -- XOR.mdx
  | .alu .xor (.reg _) => some [0, 1, 2, 11]
  | .alu .xor .ac => some [0, 1, 12, 11]
  | .alu .cmp (.reg _) => some [0, 1, 2, 7]            -- CMP.mdx:56-59
  | .alu .cmp _ => none
  | .inc (.reg _) => some [0, 1, 2, 8]                 -- INC.mdx:33-36
  | .inc .ac => some [0, 1, 12, 13]                    -- INC.mdx:52-55
  | .mov .imm (.reg _) => some [0, 1, 15, 39]          -- MOV.mdx:33-36
  | .mov (.reg _) (.reg _) => some [0, 1, 2, 3]        -- MOV.mdx:52-55
  | .mov (.reg _) .ac => some [0, 1, 2, 4]             -- MOV.mdx:71-74
  | .mov .imm .ac => some [0, 1, 15, 4]                -- MOV.mdx:90-93
  | .mov .ac _ => none
  | .beq => some (if fz then [0, 1, 16, 17, 20] else [0, 1, 16, 17])  -- BEQ.mdx:22-26, 32-35
  | .bc => some (if fc then [0, 1, 16, 17, 20] else [0, 1, 16, 17])   -- BC.mdx:22-26, 32-35
  | .jmp => some [0, 1, 16, 17, 20]                    -- JMP.mdx:22-26
  | .call => some [0, 1, 16, 17, 26, 28, 26, 29, 20]   -- CALL.mdx:24-32
  | .cma => some [0, 1, 14]                            -- CMA.mdx:30-32
  | .inisp => some [0, 1, 16, 17, 38]                  -- INISP.mdx:35-39
  | .lda => some [0, 1, 16, 17, 18, 4]                 -- LDA.mdx:35-40
  | .ldax => some [0, 1, 21, 22, 18, 4]                -- LDAX.mdx:30-35
  | .lfa => some [0, 1, 23]                            -- LFA.mdx:42-44
  | .sfa => some [0, 1, 24]                            -- SFA.mdx:41-43
  | .sta => some [0, 1, 16, 17, 12, 19]                -- STA.mdx:33-38
  | .stax => some [0, 1, 21, 22, 12, 19]               -- STAX.mdx:28-33
  | .push => some [0, 1, 26, 36]                       -- PUSH.mdx:27-30
  | .pop => some [0, 1, 37, 31]                        -- POP.mdx:27-30
  | .ret => some [0, 1, 32, 31, 33, 31]                -- RET.mdx:21-26
  | .iret | .fin => none

/-- The microstate that a clone duplicates: S40 and S42 are SP - 1 like S26, S41 and S43 are SP + 1
like S31, S44 loads a register from 2OP like S39. -/
def original (s : CInt) : Nat :=
  match s.toNat with
  | 40 => 26
  | 41 => 31
  | 42 => 26
  | 43 => 31
  | 44 => 39
  | n => n

theorem trace_step {o : BitVec 8} {fc fz : Bool} {n : Nat} {m : M} {l : List (BitVec 6)}
    (ht : fullTrace o fc fz (n + 1) m.s = some l) (hri : m.v.ri = o) (hf : FlagsAt fc fz m)
    (hne : m.s ≠ 0) :
    ∃ l', l = m.s :: l' ∧ fullTrace o fc fz n m.step.s = some l' ∧ m.step.v.ri = o ∧
      FlagsAt fc fz m.step := by
  simp only [fullTrace, if_neg hne] at ht
  cases e : fullTrace o fc fz n (A.nextOf m.s o fc fz) with
  | none => rw [e] at ht; cases ht
  | some l' =>
    rw [e] at ht
    cases ht
    have hn : A.nextOf m.s m.v.ri m.v.fc m.v.fz = A.nextOf m.s o fc fz := by
      rw [hri]
      by_cases h17 : m.s = 17
      · obtain ⟨h1, h2⟩ := hf (.inr (.inr h17))
        rw [h1, h2]
      · exact next_flags _ _ _ _ _ _ h17
    have hs : m.step.s = A.nextOf m.s o fc fz := hn
    refine ⟨l', rfl, by rw [hs]; exact e, ?_, ?_⟩
    · rw [← hri]
      exact rtl_ri m.v _ (fun h => hne (BitVec.eq_of_toNat_eq h))
    · intro hk
      rw [hs] at hk
      obtain ⟨n1, n2, n3⟩ := next_src m.s o fc fz
      have hm : m.s = 1 ∨ m.s = 16 := by
        rcases hk with h | h | h
        · exact absurd (n1 h) hne
        · exact .inl (n2 h)
        · exact .inr (n3 h)
      obtain ⟨a1, a2⟩ := hf (hm.imp id .inl)
      obtain ⟨b1, b2⟩ := rtl_early m.v m.s (hm.imp id .inl)
      exact ⟨b1.trans a1, b2.trans a2⟩

theorem trace_nil {o : BitVec 8} {fc fz : Bool} {n : Nat} {s : BitVec 6}
    (h : fullTrace o fc fz n s = some []) : s = 0 := by
  cases n with
  | zero => simp only [fullTrace] at h; split at h <;> first | assumption | cases h
  | succ n =>
    simp only [fullTrace] at h
    split at h
    · assumption
    · cases e : fullTrace o fc fz n (A.nextOf s o fc fz) <;> rw [e] at h <;> cases h

theorem At.path {u : Bool} {o : BitVec 8} {fc fz : Bool} (n : Nat) {h : H} {m : M}
    {l : List (BitVec 6)} (t : At h m) (hu : u = true → h.ui = true)
    (ht : fullTrace o fc fz n m.s = some l) (hri : m.v.ri = o) (hf : FlagsAt fc fz m)
    (hne : m.s ≠ 0) : ∃ h', Microstates u h (l.map (·.setWidth 32)) h' := by
  induction n generalizing h m l with
  | zero => simp only [fullTrace, if_neg hne] at ht; cases ht
  | succ n ih =>
    obtain ⟨l', rfl, ht', hri', hf'⟩ := trace_step ht hri hf hne
    obtain ⟨h1, e1, t1, u1, s1⟩ := t.cycleState u hu
    by_cases h0 : m.step.s = 0
    · have : l' = [] := by
        rw [h0] at ht'
        cases n <;> simp only [fullTrace, if_true] at ht' <;> cases ht' <;> rfl
      subst this
      exact ⟨h1, .last e1 s1 ((t1.boundary).2 h0)⟩
    · obtain ⟨h2, r2⟩ := ih t1 (by rw [u1]; exact hu) ht' hri' hf' h0
      refine ⟨h2, .more e1 s1 t1.next (fun e => h0 ?_) r2⟩
      have h3 := t1.next
      rw [e] at h3
      exact (t1.boundary).1 h3

/-- The microstates shown while an instruction runs are the fetch and the path of its opcode. -/
theorem Ready.microstates {h : H} {p : P} (r : Ready h p) (u : Bool) :
    ∃ h', Microstates u h ((0 :: pathOf (p.mem p.pc) p.fc p.fz).map (·.setWidth 32)) h' := by
  obtain ⟨v, t, rfl⟩ := r.at
  obtain ⟨h1, e1, t1, u1, s1⟩ := t.cycleState u (fun _ => r.ui)
  have hs : (M.step ⟨v, 0⟩).s = 1 := next_zero v.ri v.fc v.fz
  obtain ⟨f1, f2⟩ := rtl_early v 0 (.inr (.inr rfl))
  obtain ⟨h2, r2⟩ := At.path (u := u) (o := v.mem v.pc) (fc := v.fc) (fz := v.fz) 8 t1
    (fun _ => u1.trans r.ui) (by rw [hs]; exact fullTrace_all _ _ _) (step_ri v)
    (fun _ => ⟨f1, f2⟩) (by rw [hs]; decide)
  refine ⟨h2, .more e1 s1 t1.next ?_ r2⟩
  rw [hs]; decide

theorem Microstates.det {u : Bool} {l l' : List CInt} {h h1 h2 : H} (r1 : Microstates u h l h1)
    (r2 : Microstates u h l' h2) : l = l' := by
  induction r1 generalizing l' h2 with
  | last run state done =>
    cases r2 with
    | last run' state' _ =>
      rw [run] at run'; cases run'; rw [state] at state'; cases state'; rfl
    | more run' state' next ne _ =>
      rw [run] at run'; cases run'
      exact absurd (some_inj (next.symm.trans done)) ne
  | more run state next ne rest ih =>
    cases r2 with
    | last run' state' done' =>
      rw [run] at run'; cases run'
      exact absurd (some_inj (next.symm.trans done')) ne
    | more run' state' next' ne' rest' =>
      rw [run] at run'; cases run'; rw [state] at state'; cases state'
      rw [ih rest']

def docOk (o : BitVec 8) (fc fz : Bool) : Bool :=
  match decode o with
  | none => true
  | some i =>
    match docStates fc fz i with
    | none => true
    | some l =>
      (match i with | .alu .or (.reg _) => true | _ => false) ||
        decide (((0 :: pathOf o fc fz).map fun s => original (s.setWidth 32)) = l)

theorem doc_all : ∀ o : BitVec 8, ∀ fc fz : Bool, docOk o fc fz = true := by decide +kernel

/-- **C33.** For every instruction whose microprogram the documentation lists, but the register
form of OR, the microstates that `get_state` shows while it runs are the documented ones, with
clones standing for the state they duplicate. Missing: the register form of OR, for which the
documentation is wrong, see `C33_or_wrong`. -/
theorem C33_documented_partial (u : Bool) (h : H) (p : P) (hr : Ready h p) (i : Instr) (l : List Nat)
    (hd : decode (p.mem p.pc) = some i) (hdoc : docStates p.fc p.fz i = some l)
    (hor : ∀ g, i ≠ .alu .or (.reg g)) :
    ∃ s h', Microstates u h s h' ∧ s.map original = l := by
  obtain ⟨h', r⟩ := hr.microstates u
  refine ⟨_, h', r, ?_⟩
  have := doc_all (p.mem p.pc) p.fc p.fz
  unfold docOk at this
  rw [hd] at this
  simp only [hdoc, Bool.or_eq_true, decide_eq_true_eq] at this
  rcases this with e | e
  · cases e
  · rw [List.map_map]; exact e

theorem or_path : ∀ o : BitVec 8, ∀ fc fz : Bool, ∀ g ∈ [G.b, .c, .d, .e],
    decode o = some (.alu .or (.reg g)) → pathOf o fc fz = [1, 2, 10] := by decide +kernel

/-- **C33** is false for the register form of OR: the documentation (`OR.mdx:48-51`) lists S12, the
machine always goes through S2. -/
theorem C33_or_wrong (u : Bool) (h : H) (p : P) (hr : Ready h p) (g : G)
    (hd : decode (p.mem p.pc) = some (.alu .or (.reg g))) :
    docStates p.fc p.fz (.alu .or (.reg g)) = some [0, 1, 12, 10] ∧
      (∃ h', Microstates u h [0, 1, 2, 10] h') ∧
      ¬ ∃ s h', Microstates u h s h' ∧ s.map original = [0, 1, 12, 10] := by
  obtain ⟨h', r⟩ := hr.microstates u
  rw [or_path _ p.fc p.fz g (by cases g <;> decide) hd] at r
  refine ⟨rfl, ⟨h', r⟩, ?_⟩
  rintro ⟨s, h2, r2, e⟩
  rw [← r.det r2] at e
  exact absurd e (by decide)

/-! ## Concrete cases -/

/-- State and microstate on the way through a path. -/
theorem steps_at {o : BitVec 8} {fc fz : Bool} (k n : Nat) {m : M} {l : List (BitVec 6)}
    (ht : fullTrace o fc fz n m.s = some l) (hri : m.v.ri = o) (hf : FlagsAt fc fz m)
    (hk : k < l.length) : (M.steps k m).v = m.v.follow (l.take k) ∧ (M.steps k m).s = l[k] := by
  induction k generalizing n m l with
  | zero =>
    cases n with
    | zero =>
      simp only [fullTrace] at ht
      split at ht <;> cases ht
      cases hk
    | succ n =>
      have hne : m.s ≠ 0 := fun e => by
        simp only [fullTrace, if_pos e] at ht; cases ht; cases hk
      obtain ⟨l', rfl, _⟩ := trace_step ht hri hf hne
      exact ⟨rfl, rfl⟩
  | succ k ih =>
    cases n with
    | zero =>
      simp only [fullTrace] at ht
      split at ht <;> cases ht
      cases hk
    | succ n =>
      have hne : m.s ≠ 0 := fun e => by
        simp only [fullTrace, if_pos e] at ht; cases ht; cases hk
      obtain ⟨l', rfl, ht', hri', hf'⟩ := trace_step ht hri hf hne
      exact ih n ht' hri' hf' (by simpa using hk)

/-- A reachable machine `k + 1` cycles into the instruction that `p` is at. -/
theorem inside (p : P) (he : p.errs = []) (k : Nat)
    (hk : k < (pathOf (p.mem p.pc) p.fc p.fz).length) :
    ∃ h, ∃ v : V, ∃ ph : Phase, Reach ph h ∧ ph.on = true ∧ ph.ui = true ∧ v.prog = p ∧
      At h ⟨v.follow (0 :: (pathOf (p.mem p.pc) p.fc p.fz).take k),
        (pathOf (p.mem p.pc) p.fc p.fz)[k]⟩ := by
  obtain ⟨h, r⟩ := ready_all p he
  obtain ⟨v, t, rfl⟩ := r.at
  obtain ⟨h', e, t', _⟩ := t.cycles false (fun e => by cases e) (k + 1)
  obtain ⟨ph, rr, on, ui, _, _⟩ := r
  refine ⟨h', v, ph, rr.cycles on ui e, on, ui, rfl, ?_⟩
  have hs : (M.step ⟨v, 0⟩).s = 1 := next_zero v.ri v.fc v.fz
  obtain ⟨f1, f2⟩ := rtl_early v 0 (.inr (.inr rfl))
  obtain ⟨a1, a2⟩ := steps_at (o := v.mem v.pc) (fc := v.fc) (fz := v.fz) k 8 (m := M.step ⟨v, 0⟩)
    (by rw [hs]; exact fullTrace_all _ _ _) (step_ri v) (fun _ => ⟨f1, f2⟩) hk
  have e2 : M.steps (k + 1) ⟨v, 0⟩ = ⟨v.follow (0 :: (pathOf (v.mem v.pc) v.fc v.fz).take k),
      (pathOf (v.mem v.pc) v.fc v.fz)[k]⟩ := by
    show M.steps k (M.step ⟨v, 0⟩) = _
    generalize M.steps k (M.step ⟨v, 0⟩) = m at a1 a2
    obtain ⟨x, y⟩ := m
    simp only at a1 a2
    rw [a1, a2]; rfl
  rw [e2] at t'
  exact t'

/-- PUSH with SP = 6, three cycles in: the next microstate, S36, writes to cell 5 (C20, C31). -/
example : ∃ h, ∃ ph : Phase, Reach ph h ∧ ph.on = true ∧ ph.ui = true ∧ NextState h 36 ∧
    RegIs h .sp 5 ∧ RegIs h .acum 9 := by
  let p : P := ⟨9, 2, 3, 4, 5, 7, 6, true, false, fun _ => 0xC1, []⟩
  have hp : pathOf (p.mem p.pc) p.fc p.fz = [1, 26, 36] := by decide +kernel
  obtain ⟨h, v, ph, r, on, ui, hv, t⟩ := inside p rfl 2 (by rw [hp]; decide)
  simp only [hp] at t
  refine ⟨h, ph, r, on, ui, t.next, ?_, ?_⟩
  · have := t.reg .sp
    show exec _ _ = _
    rw [this]
    have h1 : v.sp = 6 := congrArg P.sp hv
    simp only [List.take, V.follow_cons, V.follow_nil, V.rtl, BitVec.reduceToNat, V.incPc_eq,
      V.decSp_eq, V.reg, h1, satDec]
    rfl
  · have := t.reg .acum
    show exec _ _ = _
    rw [this]
    have h1 : v.ac = 9 := congrArg P.ac hv
    simp only [List.take, V.follow_cons, V.follow_nil, V.rtl, BitVec.reduceToNat, V.incPc_eq,
      V.decSp_eq, V.reg, h1]
    rfl

/-- JMP does not set the flags, 0x3F (which acts as ADD RE) does (C32). -/
theorem jmp_keeps : ¬ SetsFlags 0x74 := by
  rintro ⟨i, hi, e | ⟨e, _⟩⟩
  · rw [show decode 0x74 = some .jmp by decide +kernel] at e
    cases e; cases hi
  · rw [show decode 0x74 = some .jmp by decide +kernel] at e
    cases e

example : SetsFlags 0x3F := setsFlags_of _ (by decide +kernel)

example : ∃ h p, Ready h p ∧ ¬ SetsFlags (p.mem p.pc) := by
  let p : P := ⟨9, 2, 3, 4, 5, 7, 6, true, false, fun _ => 0x74, []⟩
  obtain ⟨h, r⟩ := ready_all p rfl
  exact ⟨h, p, r, jmp_keeps⟩

/-- BEQ with FZ set (C33), and OR RC. -/
example : ∃ h p, Ready h p ∧ decode (p.mem p.pc) = some .beq ∧
    docStates p.fc p.fz .beq = some [0, 1, 16, 17, 20] := by
  let p : P := ⟨9, 2, 3, 4, 5, 7, 6, true, true, fun _ => 0x72, []⟩
  obtain ⟨h, r⟩ := ready_all p rfl
  exact ⟨h, p, r, by decide +kernel, rfl⟩
example : ∃ h p, Ready h p ∧ decode (p.mem p.pc) = some (.alu .or (.reg .c)) := by
  let p : P := ⟨9, 2, 3, 4, 5, 7, 6, true, true, fun _ => 0x25, []⟩
  obtain ⟨h, r⟩ := ready_all p rfl
  exact ⟨h, p, r, by decide +kernel⟩

end Mpp
