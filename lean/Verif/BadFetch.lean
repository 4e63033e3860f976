import Verif.Props.Basics
import Verif.History
/-!
# Fetching a cell that is not a byte

A machine whose memory was filled with arbitrary `int` values is the image of a typed state except
for the memory. Used for C44.
-/
namespace Mpp

/-- Programs that do not touch the memory. -/
def Prog.NoMem {α} : Prog α → Prop
  | .pure _ => True
  | .op (.memGet _) _ => False
  | .op (.memSet _ _) _ => False
  | .op (.upd _) k => ∀ x, (k x).NoMem
  | .op (.cur _) k => ∀ x, (k x).NoMem
  | .op (.nxt _) k => ∀ x, (k x).NoMem
  | .op (.pub _ _) k => ∀ x, (k x).NoMem
  | .op (.getReg _) k => ∀ x, (k x).NoMem
  | .op (.setReg _ _) k => ∀ x, (k x).NoMem
  | .op (.err _) k => ∀ x, (k x).NoMem
  | .op .ub _ => True

/-- `t` with another memory. -/
def T.withMem (t : T) (m : BitVec 16 → CInt) : T := { t with mem := m }

theorem run_noMem {α} (p : Prog α) (hp : p.NoMem) {t t' : T} {v : α}
    (e : T.run p t = some (v, t')) (m : BitVec 16 → CInt) :
    T.run p (t.withMem m) = some (v, t'.withMem m) := by
  induction p generalizing t with
  | pure a => cases e; rfl
  | op o k ih =>
    cases o with
    | ub => cases e
    | memGet i => exact hp.elim
    | memSet i w => exact hp.elim
    | upd s => exact ih _ (hp ()) (t := t.setCur s (t.topic s.topic)) e
    | cur s => exact ih _ (hp (t.cur s)) (t := t) e
    | nxt s => exact ih _ (hp (t.topic s.topic)) (t := t) e
    | pub tp w => exact ih _ (hp ()) (t := t.setTopic tp w) e
    | getReg r => exact ih _ (hp (t.regs r)) (t := t) e
    | setReg r w => exact ih _ (hp ()) (t := t.setReg r w) e
    | err er => exact ih _ (hp ()) (t := t.addLog er) e

theorem nm_bind {α β} (p : Prog α) (f : α → Prog β) (hp : p.NoMem) (hf : ∀ a, (f a).NoMem) :
    (p >>= f).NoMem := by
  show (p.bind f).NoMem
  induction p with
  | pure a => exact hf a
  | op o k ih =>
    cases o with
    | ub => trivial
    | memGet i => exact hp.elim
    | memSet i w => exact hp.elim
    | _ => exact fun x => ih x (hp x)

theorem nm_ite {α} {c : Prop} [Decidable c] {p q : Prog α} (hp : p.NoMem) (hq : q.NoMem) :
    (if c then p else q).NoMem := by split <;> assumption

theorem nm_toInt (w : W) : (toInt w).NoMem := by
  unfold toInt
  cases wordToInt w <;> trivial

theorem nm_cAdd (a b : CInt) : (cAdd a b).NoMem := by unfold cAdd; split <;> trivial
theorem nm_cSub (a b : CInt) : (cSub a b).NoMem := by unfold cSub; split <;> trivial

macro "nm" : tactic => `(tactic| repeat' first
  | exact nm_toInt _ | exact nm_cAdd _ _ | exact nm_cSub _ _
  | exact fun _ => trivial | exact True.intro
  | (refine nm_bind _ _ ?_ (fun _ => ?_)) | refine nm_ite ?_ ?_ )

theorem nm_seqJnr : runSeqJnr.NoMem := by unfold runSeqJnr; nm
theorem nm_mxregJnr : runMxregJnr.NoMem := by unfold runMxregJnr; nm
theorem nm_seq : runSeq.NoMem := by unfold runSeq; nm
theorem nm_rom : runRom.NoMem := by
  unfold runRom
  nm
  split <;> nm
theorem nm_addsub : runAddsub.NoMem := by unfold runAddsub; nm
theorem nm_mxdir : runMxdir.NoMem := by unfold runMxdir; nm
theorem nm_mxreg : runMxreg.NoMem := by unfold runMxreg; nm
theorem nm_dxflipflop : runDxflipflop.NoMem := by unfold runDxflipflop; nm

/-- One memory step in the fetch state: the cell goes to the data bus, whatever it holds. -/
theorem mem_bad (t : T) (i : BitVec 16) (hd : t.topic .dir2 = i.setWidth 32)
    (h1 : (t.topic .control).getLsbD CB.le = true)
    (h2 : (t.topic .control).getLsbD CB.membus = true) :
    ∃ cur', T.run runMem t = some ((), { t.setTopic .data (t.mem i) with cur := cur' }) := by
  unfold runMem
  simp only [run_bind', run_upd, run_cur, run_nxt, Option.bind_some, T.setCur, upd_apply,
    Slot.topic, hd, toInt_16, run_ppure, getValueByOffset_16, if_true, h1, h2, run_memGet, run_pub,
    T.setTopic, reduceCtorEq, if_false]
  exact ⟨_, rfl⟩

/-- The control word of the fetch state. -/
theorem fetch_bits : (A.romOf 0).getLsbD CB.le = true ∧ (A.romOf 0).getLsbD CB.membus = true ∧
    (A.romOf 0).getLsbD CB.alubus = false ∧ (A.romOf 0).getLsbD CB.seldir0 = false ∧
    (A.romOf 0).getLsbD CB.seldir1 = false ∧ (A.romOf 0).getLsbD CB.ricar = true := by decide +kernel

theorem rom_control (a : A) : a.rom.control = A.romOf a.q.toNat := rfl

theorem front_facts (a : A) (c cur : Slot → W) :
    a.seqJnr.mxregJnr.seq.rom.pcOut = a.pcOut ∧ a.seqJnr.mxregJnr.seq.rom.acOut = a.acOut ∧
    a.seqJnr.mxregJnr.seq.rom.op2Out = a.op2Out ∧ a.seqJnr.mxregJnr.seq.rom.log = a.log ∧
    (lift a.seqJnr.mxregJnr.seq.rom c).regs = (lift a cur).regs ∧
    (∀ tp ∈ [Topic.d5, .d4, .d3, .d2, .d1, .d0],
      (lift a.seqJnr.mxregJnr.seq.rom c).topic tp = (lift a.seqJnr.seq cur).topic tp) ∧ True := by
  refine ⟨by simp only [A.rom, A.seq, A.mxregJnr, A.seqJnr], by
    simp only [A.rom, A.seq, A.mxregJnr, A.seqJnr], by
    simp only [A.rom, A.seq, A.mxregJnr, A.seqJnr], by
    simp only [A.rom, A.seq, A.mxregJnr, A.seqJnr], by
    simp only [lift, A.rom, A.seq, A.mxregJnr, A.seqJnr], ?_, trivial⟩
  intro tp ht
  simp only [List.mem_cons, List.not_mem_nil, or_false] at ht
  rcases ht with rfl | rfl | rfl | rfl | rfl | rfl <;>
    simp only [lift, A.rom, A.seq, A.mxregJnr, A.seqJnr]

theorem mid_facts (b : A) (c : Slot → W) :
    b.addsub.mxdir.mxreg.control = b.control ∧
    b.addsub.mxdir.mxreg.dir2 = (if b.control.getLsbD CB.seldir1 then
      if b.control.getLsbD CB.seldir0 then b.fffcOut else b.hlOut
      else if b.control.getLsbD CB.seldir0 then b.spOut else b.pcOut) ∧
    b.addsub.mxdir.mxreg.acOut = b.acOut ∧ b.addsub.mxdir.mxreg.op2Out = b.op2Out ∧
    b.addsub.mxdir.mxreg.log = b.log ∧ (lift b.addsub.mxdir.mxreg c).regs = (lift b c).regs ∧
    (∀ tp ∈ [Topic.d5, .d4, .d3, .d2, .d1, .d0],
      (lift b.addsub.mxdir.mxreg c).topic tp = (lift b c).topic tp) := by
  refine ⟨rfl, rfl, rfl, rfl, rfl, rfl, ?_⟩
  intro tp ht
  simp only [List.mem_cons, List.not_mem_nil, or_false] at ht
  rcases ht with rfl | rfl | rfl | rfl | rfl | rfl <;> rfl

/-- The fetch of a cell that does not fit a byte: an error, and nothing else. -/
theorem run_badFetch (a : A) (cur : Slot → W) (m : BitVec 16 → CInt) (hq : a.q = 0)
    (bad : usedBits (m a.pcOut) > 8) :
    ∃ t', T.run (runCu true) ((lift a cur).withMem m) = some ((), t') ∧
      t'.regs = (lift a cur).regs ∧ t'.mem = m ∧ t'.log = .riOverflow :: a.log ∧
      (∀ tp ∈ [Topic.d5, .d4, .d3, .d2, .d1, .d0], t'.topic tp = (lift a.seqJnr.seq cur).topic tp) := by
  obtain ⟨b1, b2, b3, b4, b5, b6⟩ := fetch_bits
  obtain ⟨c1, h1⟩ := (impl_seqJnr.seq (impl_mxregJnr.seq impl_seq)) a cur
  obtain ⟨c2, h2⟩ := run_rom a.seqJnr.mxregJnr.seq c1 (show a.q.toNat < 45 by rw [hq]; decide)
  obtain ⟨c3, h3⟩ := (impl_addsub.seq (impl_mxdir.seq impl_mxreg)) a.seqJnr.mxregJnr.seq.rom c2
  have hctl : a.seqJnr.mxregJnr.seq.rom.control = A.romOf 0 := by
    rw [rom_control, show a.seqJnr.mxregJnr.seq.q = a.q from rfl, hq]; rfl
  obtain ⟨p1, p2, p3, p4, p5, p6, p7⟩ := front_facts a c3 cur
  generalize a.seqJnr.mxregJnr.seq.rom = b at *
  obtain ⟨q1, q2, q3, q4, q5, q6, q7⟩ := mid_facts b c3
  rw [hctl] at q1 q2
  simp only [b4, b5, Bool.false_eq_true, if_false] at q2
  have e : T.run (runCu true) ((lift a cur).withMem m) =
      (T.run (do runSeqJnr; runMxregJnr; runSeq) ((lift a cur).withMem m)).bind fun r =>
        (T.run runRom r.2).bind fun r => (T.run (do runAddsub; runMxdir; runMxreg) r.2).bind fun r =>
          (T.run runMem r.2).bind fun r => (T.run runAlu r.2).bind fun r =>
            (T.run runMem r.2).bind fun r => (T.run runAlu r.2).bind fun r => T.run runCuRi r.2 := by
    simp only [runCu, runAsync, if_true, run_bind', Option.bind_assoc]
  have n1 := run_noMem _ (nm_bind _ _ nm_seqJnr fun _ => nm_bind _ _ nm_mxregJnr fun _ => nm_seq) h1 m
  have n2 := run_noMem _ nm_rom h2 m
  have n3 := run_noMem _ (nm_bind _ _ nm_addsub fun _ => nm_bind _ _ nm_mxdir fun _ => nm_mxreg) h3 m
  rw [e, n1, Option.bind_some, n2, Option.bind_some, n3, Option.bind_some]
  have x0 : ((lift b.addsub.mxdir.mxreg c3).withMem m).topic .acummOut = a.acOut.setWidth 32 := by
    rw [← p2, ← q3]; rfl
  have y0 : ((lift b.addsub.mxdir.mxreg c3).withMem m).topic .op2Out = a.op2Out.setWidth 32 := by
    rw [← p3, ← q4]; rfl
  have d0 : ((lift b.addsub.mxdir.mxreg c3).withMem m).topic .dir2 = a.pcOut.setWidth 32 := by
    rw [← p1, ← q2]; rfl
  have k0 : ((lift b.addsub.mxdir.mxreg c3).withMem m).topic .control = A.romOf 0 := q1
  have m0 : ((lift b.addsub.mxdir.mxreg c3).withMem m).mem = m := rfl
  have r0 : ((lift b.addsub.mxdir.mxreg c3).withMem m).regs = (lift a cur).regs := by
    rw [← p5, ← q6]; rfl
  have l0 : ((lift b.addsub.mxdir.mxreg c3).withMem m).log = a.log := by
    rw [← p4, ← q5]; rfl
  have s0 : ∀ tp ∈ [Topic.d5, .d4, .d3, .d2, .d1, .d0],
      ((lift b.addsub.mxdir.mxreg c3).withMem m).topic tp = (lift a.seqJnr.seq cur).topic tp := by
    intro tp ht
    rw [← p6 tp ht]
    exact q7 tp ht
  generalize (lift b.addsub.mxdir.mxreg c3).withMem m = t0 at *
  -- first half: memory, then the ALU
  obtain ⟨u1, e1⟩ := mem_bad t0 a.pcOut d0 (by rw [k0]; exact b1) (by rw [k0]; exact b2)
  obtain ⟨t1, e2, _, _, f1, f2, f3, f4, f5⟩ := alu_run { t0.setTopic .data (t0.mem a.pcOut) with cur := u1 }
    a.acOut a.op2Out (by simpa [T.setTopic] using x0) (by simpa [T.setTopic] using y0)
  have g : ∀ tp, tp ≠ .aluFc → tp ≠ .aluFz → tp ≠ .data → t1.topic tp = t0.topic tp := by
    intro tp a1 a2 a3
    rw [f2 tp a1 a2 a3]
    simp [T.setTopic, a3]
  have k1 : t1.topic .control = A.romOf 0 := by rw [g _ (by decide) (by decide) (by decide), k0]
  have d1 : t1.topic .dir2 = a.pcOut.setWidth 32 := by
    rw [g _ (by decide) (by decide) (by decide), d0]
  have m1 : t1.mem = m := by rw [f4]; exact m0
  -- second half
  obtain ⟨u2, e3⟩ := mem_bad t1 a.pcOut d1 (by rw [k1]; exact b1) (by rw [k1]; exact b2)
  obtain ⟨t2, e4, _, _, i1, i2, i3, i4, i5⟩ := alu_run { t1.setTopic .data (t1.mem a.pcOut) with cur := u2 }
    a.acOut a.op2Out
    (by simpa [T.setTopic] using (g .acummOut (by decide) (by decide) (by decide)).trans x0)
    (by simpa [T.setTopic] using (g .op2Out (by decide) (by decide) (by decide)).trans y0)
  have g2 : ∀ tp, tp ≠ .aluFc → tp ≠ .aluFz → tp ≠ .data → t2.topic tp = t0.topic tp := by
    intro tp a1 a2 a3
    rw [i2 tp a1 a2 a3, ← g tp a1 a2 a3]
    simp [T.setTopic, a3]
  have k2 : t2.topic .control = A.romOf 0 := by rw [g2 _ (by decide) (by decide) (by decide), k0]
  have v2 : t2.topic .data = m a.pcOut := by
    rw [i1]
    have : ({ t1.setTopic .data (t1.mem a.pcOut) with cur := u2 } : T).topic .control = A.romOf 0 := by
      simpa [T.setTopic] using k1
    rw [this, show (A.romOf 0).getLsbD 16 = false from b3]
    simp [T.setTopic, m1]
  rw [e1, Option.bind_some, e2, Option.bind_some, e3, Option.bind_some, e4, Option.bind_some]
  unfold runCuRi
  simp only [run_bind', run_upd, run_cur, Option.bind_some, T.setCur, upd_apply, Slot.topic,
    reduceCtorEq, if_false, if_true, k2, v2, b6, true_and, bad, run_err, T.addLog]
  refine ⟨_, rfl, ?_, ?_, ?_, ?_⟩
  · show t2.regs = _
    rw [i3, ← r0]; exact f3
  · show t2.mem = m
    rw [i4]; exact m1
  · show Err.riOverflow :: t2.log = _
    rw [i5, ← l0]; exact congrArg _ f5
  · intro tp ht
    show t2.topic tp = _
    rw [← s0 tp ht]
    simp only [List.mem_cons, List.not_mem_nil, or_false] at ht
    rcases ht with rfl | rfl | rfl | rfl | rfl | rfl <;>
      exact g2 _ (by decide) (by decide) (by decide)

end Mpp
