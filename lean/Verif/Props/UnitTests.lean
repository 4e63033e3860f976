import Verif.UnitTests
import Verif.Props.Basics
import Verif.Loader
/-!
# The unit tests of the core, for all inputs (C98)
-/
namespace Mpp

/-- The machine is initialised: every bus variable is live, and all buses of a topic agree. -/
def Running (h : H) : Prop := ∃ t, Rep h t

theorem Reach.running {p : Phase} {h : H} (r : Reach p h) (hp : p.on = true) : Running h := by
  obtain ⟨a, o⟩ := r.on hp
  obtain ⟨cur, r⟩ := o.rep
  exact ⟨_, r⟩

theorem onBus_eq {h : H} {t : T} {tp : Topic} {v : W} (r : Rep h t) (b : OnBus h tp v) (s : Slot)
    (hs : s.topic = tp) : v = t.topic tp := by
  obtain ⟨x, e1, e2⟩ := b s hs
  obtain ⟨y, e3, e4⟩ := r.onBus tp s hs
  rw [e1] at e3
  cases e3
  rw [← e2, e4]

/-- The buses other than those named, the registers, the memory and the errors stay as they are. -/
structure Keeps (h h' : H) (ts : List Topic) : Prop where
  bus : ∀ tp ∉ ts, ∀ v, OnBus h tp v → OnBus h' tp v
  mem : h'.mem = h.mem

theorem keeps_of {h h' : H} {t t' : T} (r : Rep h t) (r' : Rep h' t') (ts : List Topic)
    (hb : ∀ tp ∉ ts, t'.topic tp = t.topic tp) (hm : t'.mem = t.mem) : Keeps h h' ts := by
  refine ⟨fun tp ht v b s hs => ?_, by rw [r.mem, r'.mem, hm]⟩
  rw [onBus_eq r b s hs, ← hb tp ht]
  exact r'.onBus tp s hs

theorem alu_steps {h : H} {t : T} (r : Rep h t) (c : W) (x y : BitVec 8) {p : Prog Unit}
    {ts : List Topic} (t3 : T) (hp : T.run p t = T.run runAlu t3)
    (hc : t3.topic .control = c) (hx : t3.topic .acummOut = x.setWidth 32)
    (hy : t3.topic .op2Out = y.setWidth 32)
    (hb : ∀ tp ∉ ts, t3.topic tp = t.topic tp) (hts : .aluFc ∈ ts ∧ .aluFz ∈ ts)
    (hd : .data ∉ ts)
    (hr : t3.regs = t.regs ∧ t3.mem = t.mem ∧ t3.log = t.log) :
    ∃ h', H.run p h = some ((), h') ∧ Running h' ∧
      OnBus h' .aluFc (if aluCarrySpec (aluSel c) x.toNat y.toNat then 1 else 0) ∧
      OnBus h' .aluFz (if aluSpec (aluSel c) x.toNat y.toNat = 0 then 1 else 0) ∧
      (c.getLsbD 16 = true →
        OnBus h' .data (BitVec.ofNat 32 (aluSpec (aluSel c) x.toNat y.toNat)) ∧ Keeps h h' (.data :: ts)) ∧
      (c.getLsbD 16 = false → Keeps h h' ts) ∧ h'.regs = h.regs ∧ h'.log = h.log := by
  obtain ⟨t', e, a1, a2, a3, a4, a5, a6, a7⟩ := alu_run t3 x y hx hy
  obtain ⟨h', e', r', _⟩ := sim_some r (hp.trans e)
  rw [hc] at a1 a2 a3
  have k1 : ∀ tp ∉ ts, tp ≠ .data → t'.topic tp = t.topic tp := fun tp ht hd' => by
    rw [a4 tp (fun e => ht (e ▸ hts.1)) (fun e => ht (e ▸ hts.2)) hd', hb tp ht]
  refine ⟨h', e', ⟨t', r'⟩, ?_, ?_, fun b => ⟨?_, ?_⟩, fun b => ?_, ?_, ?_⟩
  · have := r'.onBus .aluFc
    rw [a1] at this
    rw [boolWord_int] at this
    exact this
  · have := r'.onBus .aluFz
    rw [a2] at this
    rw [boolWord_int] at this
    simp only [decide_eq_true_eq] at this
    exact this
  · have := r'.onBus .data
    rw [a3, if_pos b] at this
    exact this
  · refine keeps_of r r' _ (fun tp ht => ?_) (a6.trans hr.2.1)
    simp only [List.mem_cons, not_or] at ht
    exact k1 tp ht.2 ht.1
  · refine keeps_of r r' _ (fun tp ht => ?_) (a6.trans hr.2.1)
    by_cases hd' : tp = .data
    · subst hd'
      rw [a3, b, if_neg (by decide), hb _ hd]
    · exact k1 tp ht hd'
  · rw [r'.regs, r.regs, a5, hr.1]
  · rw [r'.log, r.log, a7, hr.2.2]

/-- **C98.** `alu_test.c`: for all bytes and control words, the ALU leaves the result on the data bus
if it was asked to, the carry and the zero test on their buses, and nothing else is changed. -/
theorem C98_alu {h : H} (r : Running h) (c : W) (x y : BitVec 8) :
    ∃ h', H.run (aluStep c (x.setWidth 32) (y.setWidth 32)) h = some ((), h') ∧ Running h' ∧
      OnBus h' .aluFc (if aluCarrySpec (aluSel c) x.toNat y.toNat then 1 else 0) ∧
      OnBus h' .aluFz (if aluSpec (aluSel c) x.toNat y.toNat = 0 then 1 else 0) ∧
      (c.getLsbD 16 = true →
        OnBus h' .data (BitVec.ofNat 32 (aluSpec (aluSel c) x.toNat y.toNat)) ∧
        Keeps h h' [.data, .aluFc, .aluFz, .control, .acummOut, .op2Out]) ∧
      (c.getLsbD 16 = false → Keeps h h' [.aluFc, .aluFz, .control, .acummOut, .op2Out]) ∧
      h'.regs = h.regs ∧ h'.log = h.log := by
  obtain ⟨t, r⟩ := r
  refine alu_steps r c x y (((t.setTopic .control c).setTopic .acummOut (x.setWidth 32)).setTopic
    .op2Out (y.setWidth 32)) rfl rfl rfl rfl ?_ (by decide) (by decide) ⟨rfl, rfl, rfl⟩
  intro tp ht
  simp only [List.mem_cons, List.not_mem_nil, or_false, not_or] at ht
  simp [T.setTopic, ht]

/-- **C98.** `alu_test.c:274-336`: the same when only the second operand is published; the first is the
byte that was on its bus before. -/
theorem C98_alu2 {h : H} (r : Running h) (c : W) (x y : BitVec 8)
    (hx : OnBus h .acummOut (x.setWidth 32)) :
    ∃ h', H.run (aluStep2 c (y.setWidth 32)) h = some ((), h') ∧ Running h' ∧
      OnBus h' .aluFc (if aluCarrySpec (aluSel c) x.toNat y.toNat then 1 else 0) ∧
      OnBus h' .aluFz (if aluSpec (aluSel c) x.toNat y.toNat = 0 then 1 else 0) ∧
      (c.getLsbD 16 = true →
        OnBus h' .data (BitVec.ofNat 32 (aluSpec (aluSel c) x.toNat y.toNat)) ∧
        Keeps h h' [.data, .aluFc, .aluFz, .control, .op2Out]) ∧
      (c.getLsbD 16 = false → Keeps h h' [.aluFc, .aluFz, .control, .op2Out]) ∧
      h'.regs = h.regs ∧ h'.log = h.log := by
  obtain ⟨t, r⟩ := r
  have e := onBus_eq r hx .aluAcumm rfl
  refine alu_steps r c x y ((t.setTopic .control c).setTopic .op2Out (y.setWidth 32)) rfl rfl
    e.symm rfl ?_ (by decide) (by decide) ⟨rfl, rfl, rfl⟩
  intro tp ht
  simp only [List.mem_cons, List.not_mem_nil, or_false, not_or] at ht
  simp [T.setTopic, ht]

/-- The control word of `test_run_alu_and` (`alu_test.c:131-139`): `SELalu1` and `ALUbus`. -/
def andWord : W := setBit (setBit 0 CB.selalu1 true) CB.alubus true

/-- **C98.** The last assertion of `test_run_alu_and` (`alu_test.c:152-163`) does not hold: 0 AND 1 is
zero, and FZ is 1, not 0. (The test is not called by `main`.) -/
theorem C98_and_wrong {h : H} (r : Running h) :
    ∃ h', H.run (aluStep andWord 0 1) h = some ((), h') ∧ OnBus h' .data 0 ∧ OnBus h' .aluFc 0 ∧
      OnBus h' .aluFz 1 ∧ ¬ OnBus h' .aluFz 0 := by
  obtain ⟨h', e, ⟨t', r'⟩, a1, a2, a3, _⟩ := C98_alu r andWord 0 1
  have n : OnBus h' .aluFz 1 := a2
  refine ⟨h', e, (a3 (by decide +kernel)).1, a1, n, fun z => ?_⟩
  have := (onBus_eq r' n .mxfld0Alufz rfl).trans (onBus_eq r' z .mxfld0Alufz rfl).symm
  exact absurd this (by decide)

/-! ## Address path -/

/-- What `addsub` does with the number on its bus, as selected by `ID1` and `ID0`: leave it, leave it,
add one, subtract one. No number where C leaves it undefined. -/
def addsubSpec (id0 id1 : Bool) (d : Int) : Option Int :=
  if d < 0 then none
  else if id1 = false then some d
  else if id0 = true then some (d - 1)
  else if d + 1 < 2 ^ 31 then some (d + 1) else none

theorem wordToInt_neg (d : W) : wordToInt d = if d.toInt < 0 then none else some d := by
  unfold wordToInt
  rw [BitVec.msb_eq_toInt]
  by_cases h : d.toInt < 0 <;> simp [h]

theorem addsub_alone (t : T) (c d : W) (hc : t.topic .control = c) (hd : t.topic .dir2 = d) :
    match addsubSpec (c.getLsbD 22) (c.getLsbD 23) d.toInt with
    | none => T.run runAddsub t = none
    | some v => ∃ cur, T.run runAddsub t =
        some ((), { t with cur := cur, topic := upd t.topic .dir1 (BitVec.ofInt 32 v) }) := by
  have hi : d.toInt < 2 ^ 31 := by have := BitVec.toInt_lt (x := d); simpa using this
  have e1 : (1 : CInt).toInt = 1 := rfl
  have ei : BitVec.ofInt 32 1 = 1 := rfl
  unfold runAddsub addsubSpec
  by_cases hn : d.toInt < 0
  · have : toInt d = undefined := by unfold toInt; rw [wordToInt_neg, if_pos hn]
    simp only [run_bind', Option.bind_some, run_upd, run_nxt, T.setCur, Slot.topic, hd, hn, if_true,
      this]
    rfl
  · have hd' : toInt d = Prog.pure d := by unfold toInt; rw [wordToInt_neg, if_neg hn]
    cases h0 : c.getLsbD 22 <;> cases h1 : c.getLsbD 23 <;>
      (have h0' : c.getLsbD CB.id0 = _ := h0
       have h1' : c.getLsbD CB.id1 = _ := h1
       simp only [run_bind', Option.bind_some, run_upd, run_nxt, run_cur, run_ppure, run_pure', run_ite,
         run_pub, T.setCur, T.setTopic, Slot.topic, toInt_sel2, upd_same, hc, hd, hd',
         h0', h1', hn, Bool.false_eq_true, Bool.true_eq_false, if_false, if_true,
         BitVec.reduceEq])
    · rw [BitVec.ofInt_toInt]; exact ⟨_, rfl⟩
    · by_cases ho : d.toInt + 1 < 2 ^ 31
      · have hc : cAdd d 1 = Prog.pure (d + 1) := by
          unfold cAdd; rw [if_pos ⟨by rw [e1]; omega, by rw [e1]; exact ho⟩]
        rw [if_pos ho, hc]
        show ∃ cur, _ = some ((), ({ t with cur := cur, topic := upd t.topic .dir1 _ } : T))
        rw [BitVec.ofInt_add, BitVec.ofInt_toInt, ei]
        exact ⟨_, rfl⟩
      · have hc : cAdd d 1 = undefined := by
          unfold cAdd; rw [if_neg (fun h => ho (by have := h.2; rw [e1] at this; exact this))]
        rw [if_neg ho, hc]
        rfl
    · rw [BitVec.ofInt_toInt]; exact ⟨_, rfl⟩
    · have hc : cSub d 1 = Prog.pure (d - 1) := by
        unfold cSub; rw [if_pos ⟨by rw [e1]; omega, by rw [e1]; omega⟩]
      rw [hc, show BitVec.ofInt 32 (d.toInt - 1) = d - 1 by
        rw [Int.sub_eq_add_neg, BitVec.ofInt_add, BitVec.ofInt_toInt, BitVec.sub_eq_add_neg]; rfl]
      exact ⟨_, rfl⟩

theorem addsub_run (t : T) (c d : W) :
    match addsubSpec (c.getLsbD 22) (c.getLsbD 23) d.toInt with
    | none => T.run (addsubStep c d) t = none
    | some v => ∃ t', T.run (addsubStep c d) t = some ((), t') ∧
        t'.topic .dir1 = BitVec.ofInt 32 v ∧
        (∀ tp, tp ≠ .dir1 → tp ≠ .dir2 → tp ≠ .control → t'.topic tp = t.topic tp) ∧
        t'.regs = t.regs ∧ t'.mem = t.mem ∧ t'.log = t.log := by
  have a := addsub_alone ((t.setTopic .control c).setTopic .dir2 d) c d rfl rfl
  cases hs : addsubSpec (c.getLsbD 22) (c.getLsbD 23) d.toInt with
  | none => rw [hs] at a; exact a
  | some v =>
    rw [hs] at a
    obtain ⟨cur, a⟩ := a
    refine ⟨_, a, rfl, ?_, rfl, rfl, rfl⟩
    intro tp h1 h2 h3
    simp [T.setTopic, h1, h2, h3]

/-- **C98.** `addsub_test.c`: for all control words and all words on the address bus, `addsub` leaves
the number, the next or the one before on its output bus; nothing else is changed. It is undefined
for a negative number, and for the next of the greatest. -/
theorem C98_addsub {h : H} (r : Running h) (c d : W) :
    match addsubSpec (c.getLsbD 22) (c.getLsbD 23) d.toInt with
    | none => H.run (addsubStep c d) h = none
    | some v => ∃ h', H.run (addsubStep c d) h = some ((), h') ∧ Running h' ∧
        OnBus h' .dir1 (BitVec.ofInt 32 v) ∧ Keeps h h' [.dir1, .dir2, .control] ∧
        h'.regs = h.regs ∧ h'.log = h.log := by
  obtain ⟨t, r⟩ := r
  have a := addsub_run t c d
  cases hs : addsubSpec (c.getLsbD 22) (c.getLsbD 23) d.toInt with
  | none =>
    rw [hs] at a
    have s := sim (addsubStep c d) r
    have a : T.run (addsubStep c d) t = none := a
    rw [a] at s
    show H.run (addsubStep c d) h = none
    cases hx : H.run (addsubStep c d) h with
    | none => rfl
    | some x => rw [hx] at s; exact s.elim
  | some v =>
    rw [hs] at a
    obtain ⟨t', e, b1, b2, b5, b6, b7⟩ := a
    obtain ⟨h', e', r', _⟩ := sim_some r e
    refine ⟨h', e', ⟨t', r'⟩, ?_, keeps_of r r' _ (fun tp ht => ?_) b6, ?_, ?_⟩
    · have := r'.onBus .dir1
      rw [b1] at this
      exact this
    · simp only [List.mem_cons, List.not_mem_nil, or_false, not_or] at ht
      exact b2 tp ht.1 ht.2.1 ht.2.2
    · rw [r'.regs, r.regs, b5]
    · rw [r'.log, r.log, b7]

/-! ## Accumulator -/

theorem acumm_run (t : T) (c : W) (hc : t.topic .control = c) :
    ∃ t', T.run runAcumm t = some ((), t') ∧ t'.mem = t.mem ∧
      (∀ tp, tp ≠ .data → tp ≠ .acummOut → t'.topic tp = t.topic tp) ∧
      if c.getLsbD 10 = true ∧ 256 ≤ (t.topic .data).toNat then
        t'.regs = t.regs ∧ t'.log = .acummOverflow :: t.log ∧ t'.topic = t.topic
      else
        t'.log = t.log ∧
        t'.regs = upd t.regs .ac (if c.getLsbD 10 then t.topic .data else t.regs .ac) ∧
        t'.topic .acummOut = (if c.getLsbD 10 then t.topic .data else t.regs .ac) ∧
        t'.topic .data = (if c.getLsbD 17 ∧ c.getLsbD 10 = false then t.regs .ac else t.topic .data) := by
  have e10 : c.getLsbD CB.accar = c.getLsbD 10 := rfl
  have e17 : c.getLsbD CB.acbus = c.getLsbD 17 := rfl
  have hu : usedBits (t.topic .data) > 8 ↔ 256 ≤ (t.topic .data).toNat := by
    have := usedBits_le (t.topic .data) 8
    omega
  have us : upd t.regs .ac (t.regs .ac) = t.regs := by
    funext r; simp only [upd_apply]; split
    · rename_i e; rw [e]
    · rfl
  unfold runAcumm
  simp only [run_bind', run_upd, Option.bind_some, run_cur, T.setCur, upd_apply, Slot.topic, reduceIte,
    reduceCtorEq, hc, e10, e17, hu, run_ite]
  by_cases ho : c.getLsbD 10 = true ∧ 256 ≤ (t.topic .data).toNat
  · simp only [ho, and_self, if_true]
    exact ⟨_, rfl, rfl, fun tp h1 h2 => rfl, rfl, rfl, rfl⟩
  · simp only [ho, if_false]
    cases c.getLsbD 10 <;> cases c.getLsbD 17 <;>
      refine ⟨_, rfl, rfl, ?_, rfl, ?_, rfl, ?_⟩ <;>
      first
      | (intro tp h1 h2; show upd _ _ _ _ = _; simp only [upd_apply, h1, h2, if_false])
      | (intro tp h1 h2; show upd (upd _ _ _) _ _ _ = _; simp only [upd_apply, h1, h2, if_false])
      | rfl
      | exact us.symm

/-- What a step of the accumulator test comes to, from `h` to `h'`, when the control word is `c` and
`d` is on the data bus. -/
structure AcummDone (h h' : H) (c d : W) : Prop where
  running : Running h'
  /-- a word that does not fit is refused: an error is reported, nothing is published -/
  over : c.getLsbD 10 = true → 256 ≤ d.toNat →
    h'.regs = h.regs ∧ h'.log = .acummOverflow :: h.log ∧ OnBus h' .data d ∧
      ∀ v, OnBus h .acummOut v → OnBus h' .acummOut v
  /-- loading -/
  load : c.getLsbD 10 = true → d.toNat < 256 →
    h'.regs = upd h.regs .ac d ∧ h'.log = h.log ∧ OnBus h' .acummOut d ∧ OnBus h' .data d
  /-- reading -/
  read : c.getLsbD 10 = false → h'.regs = h.regs ∧ h'.log = h.log ∧ OnBus h' .acummOut (h.regs .ac) ∧
    OnBus h' .data (if c.getLsbD 17 then h.regs .ac else d)
  keeps : Keeps h h' [.control, .data, .acummOut]

theorem acumm_done {h : H} {t t3 : T} (r : Rep h t) (c d : W) {p : Prog Unit}
    (hp : T.run p t = T.run runAcumm t3) (hc : t3.topic .control = c) (hd : t3.topic .data = d)
    (hb : ∀ tp, tp ≠ .control → tp ≠ .data → t3.topic tp = t.topic tp)
    (hr : t3.regs = t.regs ∧ t3.mem = t.mem ∧ t3.log = t.log) :
    ∃ h', H.run p h = some ((), h') ∧ AcummDone h h' c d := by
  obtain ⟨t', e, m, b, s⟩ := acumm_run t3 c hc
  obtain ⟨h', e', r', _⟩ := sim_some r (hp.trans e)
  rw [hd] at s
  have us : upd t.regs .ac (t.regs .ac) = t.regs := by
    funext r; simp only [upd_apply]; split
    · rename_i e; rw [e]
    · rfl
  have ob : ∀ tp v, t'.topic tp = v → OnBus h' tp v := fun tp v e => e ▸ r'.onBus tp
  refine ⟨h', e', ⟨t', r'⟩, fun c1 c2 => ?_, fun c1 c2 => ?_, fun c1 => ?_,
    keeps_of r r' _ (fun tp ht => ?_) (m.trans hr.2.1)⟩
  · rw [if_pos ⟨c1, c2⟩] at s
    refine ⟨by rw [r'.regs, r.regs, s.1, hr.1], by rw [r'.log, r.log, s.2.1, hr.2.2],
      ob _ _ (by rw [s.2.2, hd]), fun v hv => ?_⟩
    have := onBus_eq r hv .aluAcumm rfl
    exact ob _ _ (by rw [s.2.2, hb _ (by decide) (by decide), this])
  · rw [if_neg (fun h => by omega)] at s
    rw [c1] at s
    simp only [if_true, Bool.true_eq_false, and_false, if_false] at s
    exact ⟨by rw [r'.regs, r.regs, s.2.1, hr.1], by rw [r'.log, r.log, s.1, hr.2.2],
      ob _ _ s.2.2.1, ob _ _ s.2.2.2⟩
  · rw [if_neg (fun h => by rw [c1] at h; exact absurd h.1 (by decide))] at s
    rw [c1] at s
    simp only [Bool.false_eq_true, if_false, and_true] at s
    rw [hr.1] at s
    exact ⟨by rw [r'.regs, r.regs, s.2.1, us], by rw [r'.log, r.log, s.1, hr.2.2],
      ob _ _ (by rw [r.regs]; exact s.2.2.1), ob _ _ (by rw [r.regs]; exact s.2.2.2)⟩
  · simp only [List.mem_cons, List.not_mem_nil, or_false, not_or] at ht
    rw [b tp ht.2.1 ht.2.2, hb tp ht.1 ht.2.1]

/-- **C98.** `acum_test.c:24-57`: for all control words and all words on the data bus, the accumulator
loads what fits, refuses what does not, and shows its content. -/
theorem C98_acumm {h : H} (r : Running h) (c d : W) :
    ∃ h', H.run (acummStep c d) h = some ((), h') ∧ AcummDone h h' c d := by
  obtain ⟨t, r⟩ := r
  refine acumm_done r c d (t3 := (t.setTopic .control c).setTopic .data d) rfl rfl rfl ?_
    ⟨rfl, rfl, rfl⟩
  intro tp h1 h2
  simp [T.setTopic, h1, h2]

/-- **C98.** `acum_test.c:58-68`: the same when nothing is published on the data bus. -/
theorem C98_acumm2 {h : H} (r : Running h) (c d : W) (hd : OnBus h .data d) :
    ∃ h', H.run (acummStep2 c) h = some ((), h') ∧ AcummDone h h' c d := by
  obtain ⟨t, r⟩ := r
  have e := onBus_eq r hd .acummData rfl
  refine acumm_done r c d (t3 := t.setTopic .control c) rfl rfl e.symm ?_ ⟨rfl, rfl, rfl⟩
  intro tp h1 h2
  simp [T.setTopic, h1]

/-- The steps of `alu_test.c:58-91` (1 + 1, then 255 + 2) and `acum_test.c:24-68` one after the other,
on a machine after `init`. -/
example : ∃ h h1 h2 h3 h4 h5, Running h ∧
    H.run (aluStep (setBit 0 CB.alubus true) 1 1) h = some ((), h1) ∧
    OnBus h1 .data 2 ∧ OnBus h1 .aluFc 0 ∧ OnBus h1 .aluFz 0 ∧
    H.run (aluStep (setBit 0 CB.alubus true) 0xFF 2) h1 = some ((), h2) ∧
    OnBus h2 .data 1 ∧ OnBus h2 .aluFc 1 ∧ OnBus h2 .aluFz 0 ∧
    H.run (acummStep (setBit 0 CB.accar true) 0xFF) h2 = some ((), h3) ∧
    h3.regs .ac = 0xFF ∧ OnBus h3 .acummOut 0xFF ∧
    H.run (acummStep (setBit 0 CB.accar true) 0xFFF) h3 = some ((), h4) ∧
    h4.regs .ac = 0xFF ∧ OnBus h4 .acummOut 0xFF ∧
    H.run (acummStep2 (setBit 0 CB.acbus true)) h4 = some ((), h5) ∧
    OnBus h5 .data 0xFF ∧ OnBus h5 .acummOut 0xFF := by
  obtain ⟨h, p, r, on, _⟩ := ready_fresh fun _ => 0
  have r := r.running on
  obtain ⟨h1, e1, r1, a1, a2, a3, _⟩ := C98_alu r (setBit 0 CB.alubus true) 1 1
  obtain ⟨h2, e2, r2, b1, b2, b3, _⟩ := C98_alu r1 (setBit 0 CB.alubus true) 0xFF 2
  obtain ⟨h3, e3, d3⟩ := C98_acumm r2 (setBit 0 CB.accar true) 0xFF
  obtain ⟨h4, e4, d4⟩ := C98_acumm d3.running (setBit 0 CB.accar true) 0xFFF
  obtain ⟨l1, _, l3, _⟩ := d3.load (by decide) (by decide)
  obtain ⟨o1, _, o3, o4⟩ := d4.over (by decide) (by decide)
  obtain ⟨h5, e5, d5⟩ := C98_acumm2 d4.running (setBit 0 CB.acbus true) _ o3
  obtain ⟨_, _, k3, k4⟩ := d5.read (by decide)
  have v3 : h3.regs .ac = 0xFF := by rw [l1]; simp
  have v4 : h4.regs .ac = 0xFF := by rw [o1]; exact v3
  rw [v4] at k3 k4
  exact ⟨h, h1, h2, h3, h4, h5, r, e1, (a3 (by decide)).1, a1, a2, e2, (b3 (by decide)).1, b1, b2, e3, v3,
    l3, e4, v4, o4 _ l3, e5, k4, k3⟩

/-- `addsub_test.c:28-88`: one more, the same, the same, one less; and the two undefined cases. -/
example : addsubSpec false true 0 = some 1 ∧ addsubSpec false false 0 = some 0 ∧
    addsubSpec true false 0 = some 0 ∧ addsubSpec true true 1 = some 0 ∧
    addsubSpec false true (2 ^ 31 - 1) = none ∧ addsubSpec true true (-1) = none ∧
    addsubSpec true true 0 = some (-1) := by decide

/-! ## Middlewares -/

/-- The array holds the pointers `ps` to the middlewares `ms`. -/
structure MwArray.Holds (s : MwArray) (ps : List Nat) (ms : List (Topic × (W → Bool))) : Prop where
  arr : s.arr.getD [] = ps.map some
  count : s.count = ps.length
  block : ps.map s.block = ms.map some
  below : ∀ a ∈ ps, a < s.brk

theorem MwArray.Holds.add {s : MwArray} {ps : List Nat} {ms : List (Topic × (W → Bool))}
    (i : s.Holds ps ms) (t : Topic) (f : W → Bool) :
    ∃ s', s.add t f = some (s.brk, s') ∧ s'.Holds (ps ++ [s.brk]) (ms ++ [(t, f)]) := by
  have e : (ps.map some).take (ps.length + 1) = ps.map some :=
    List.take_of_length_le (by simp)
  refine ⟨{ count := ps.length + 1, arr := some (ps.map some ++ [some s.brk]),
            block := upd s.block s.brk (some (t, f)), brk := s.brk + 1 }, ?_, ?_, ?_, ?_, ?_⟩
  · simp only [MwArray.add, i.arr, i.count, e, MwArray.store, Nat.add_sub_cancel, List.length_append,
      List.length_map]
    congr
    simp
  · simp
  · simp
  · simp only [List.map_append, List.map_cons, List.map_nil, upd_same]
    congr 1
    rw [← i.block]
    apply List.map_congr_left
    intro a ha
    have := i.below a ha
    simp only [upd_apply]
    rw [if_neg (by omega)]
  · intro a ha
    simp only [List.mem_append, List.mem_singleton] at ha
    show a < s.brk + 1
    rcases ha with ha | ha
    · have := i.below a ha; omega
    · omega

theorem MwArray.Holds.addAll {ns : List (Topic × (W → Bool))} : ∀ {s : MwArray} {ps : List Nat}
    {ms : List (Topic × (W → Bool))}, s.Holds ps ms →
    ∃ qs s', MwArray.addAll ns s = some (qs, s') ∧ s'.Holds (ps ++ qs) (ms ++ ns) := by
  induction ns with
  | nil => intro s ps ms i; exact ⟨[], s, rfl, by simpa using i⟩
  | cons n ns ih =>
    intro s ps ms i
    obtain ⟨t, f⟩ := n
    obtain ⟨s1, e1, i1⟩ := i.add t f
    obtain ⟨qs, s2, e2, i2⟩ := ih i1
    refine ⟨s.brk :: qs, s2, ?_, ?_⟩
    · simp only [MwArray.addAll, e1, Option.bind_some, e2, Option.map_some]
    · simpa using i2

theorem MwArray.Holds.pass {s : MwArray} {ps : List Nat} {ms : List (Topic × (W → Bool))}
    (i : s.Holds ps ms) (t : Topic) (w : W) (n k : Nat) (h : k + n = ps.length) :
    s.passFrom t w k n = some (PS.middlewaresPass t w (ms.drop k)) := by
  have hl : ms.length = ps.length := by
    have := congrArg List.length i.block
    simpa using this.symm
  induction n generalizing k with
  | zero =>
    rw [List.drop_of_length_le (by omega)]
    rfl
  | succ n ih =>
    have hk : k < ps.length := by omega
    have hm : k < ms.length := by omega
    have hb : s.block ps[k] = some ms[k] := by
      have : (ps.map s.block)[k]? = (ms.map some)[k]? := by rw [i.block]
      simpa [hk, hm] using this
    have ha : s.arr = some (ps.map some) := by
      have := i.arr
      cases hs : s.arr with
      | none =>
        rw [hs] at this
        have := congrArg List.length this
        simp at this
        omega
      | some l => rw [hs] at this; exact congrArg some this
    have hg : (ps.map (some : Nat → Option Nat))[k]? = some (some ps[k]) := by simp [hk]
    rw [List.drop_eq_getElem_cons hm]
    simp only [MwArray.passFrom, ha, hg, hb, ih (k + 1) (by omega), PS.middlewaresPass]
    rcases ms[k] with ⟨t', f⟩
    dsimp only
    split
    · rfl
    · split <;> rfl

theorem MwArray.Holds.rm {s : MwArray} {ps : List Nat} {ms : List (Topic × (W → Bool))}
    (i : s.Holds ps ms) (a : Nat) : s.rm (some a) = none := by
  simp only [MwArray.rm]
  cases s.block a with
  | none => rfl
  | some x =>
    have := i.arr
    cases hs : s.arr with
    | none => simp only [MwArray.store]; rfl
    | some l =>
      rw [hs] at this
      have e : l.length = s.count := by
        have := congrArg List.length this
        simp only [Option.getD_some, List.length_map] at this
        rw [i.count, this]
      simp only [MwArray.store, e, Nat.lt_irrefl, if_false]
      rfl

theorem MwArray.start_holds : MwArray.start.Holds [] [] :=
  ⟨rfl, rfl, rfl, fun _ h => absurd h List.not_mem_nil⟩

/-- **C98.** `pubsub_test.c:52-96`: whatever middlewares are added, a message passes exactly if all
those of its topic let it pass. -/
theorem C98_middleware_partial (ms : List (Topic × (W → Bool))) :
    ∃ ps s, MwArray.addAll ms .start = some (ps, s) ∧ ps.length = ms.length ∧
      ∀ t w, ∃ b, s.pass t w = some b ∧ (b = true ↔ ∀ m ∈ ms, m.1 = t → m.2 w = true) := by
  obtain ⟨ps, s, e, i⟩ := MwArray.start_holds.addAll (ns := ms)
  rw [List.nil_append, List.nil_append] at i
  have hl : ms.length = ps.length := by
    have := congrArg List.length i.block
    simpa using this.symm
  refine ⟨ps, s, e, hl.symm, fun t w => ⟨_, ?_, PS.middlewaresPass_iff t w ms⟩⟩
  rw [MwArray.pass, i.pass t w s.count 0 (by rw [i.count, Nat.zero_add])]
  rfl

/-- **C98.** `test_rm_topic_middleware` (`pubsub_test.c:98-111`) asks for what the code does not do:
after any middlewares were added, removing one of them writes outside the array. -/
theorem C98_rm_wrong {ms : List (Topic × (W → Bool))} {ps : List Nat} {s : MwArray}
    (e : MwArray.addAll ms .start = some (ps, s)) {a : Nat} (_ : a ∈ ps) : s.rm (some a) = none := by
  obtain ⟨ps', s', e', i⟩ := MwArray.start_holds.addAll (ns := ms)
  rw [e] at e'
  cases e'
  exact i.rm a

/-- The two middlewares of the test, one of which lets nothing pass. -/
example : ∃ ps s, MwArray.addAll [(.data, fun _ => true), (.data, fun _ => false)] .start = some (ps, s) ∧
    s.pass .data 0 = some false ∧ s.pass .control 0 = some true ∧ ps = [0, 1] ∧ s.rm (some 0) = none :=
  ⟨_, _, rfl, rfl, rfl, rfl, rfl⟩

/-! ## Watchers -/

/-- **C98.** `watcher_test.c:8-18`: a watcher that was not registered can be registered behind all
others and unregistered once; the second time nothing is found. -/
theorem C98_watcher {α} [DecidableEq α] {h : LL.Heap α} {head : Option Nat} {vs : List α}
    (hr : LL.Repr h head vs) (v : α) (hv : v ∉ vs) :
    ∃ head1 h1 head2 h2, LL.append h head v = some (head1, h1) ∧ LL.Repr h1 head1 (vs ++ [v]) ∧
      unregisterWatcher h1 head1 v = some (true, head2, h2) ∧ LL.Repr h2 head2 vs ∧
      unregisterWatcher h2 head2 v = some (false, head2, h2) := by
  obtain ⟨head1, h1, e1, r1⟩ := C25_append hr v
  obtain ⟨head2, h2, e2, r2⟩ := C25_delete vs [] v hv r1
  rw [List.append_nil] at r2
  refine ⟨head1, h1, head2, h2, e1, r1, ?_, r2, ?_⟩
  · cases head1 with
    | none => cases head <;> simp [LL.append, LL.create] at e1
    | some a => exact e2
  · cases head2 with
    | none => rfl
    | some a => exact C25_delete_absent v hv r2

theorem getWatcher_seg {α β} [DecidableEq β] {h : LL.Heap α} {ty : α → β} (b : β) :
    ∀ {xs : List (Nat × α)} {p : Option Nat} {n : Nat}, LL.Seg h p xs → xs.length < n →
      getWatcher h ty b n p = some ((xs.map Prod.snd).find? fun v => decide (ty v = b)) := by
  intro xs
  induction xs with
  | nil =>
    intro p n hs hn
    obtain ⟨n, rfl⟩ : ∃ m, n = m + 1 := ⟨n - 1, by simp at hn; omega⟩
    have : p = none := hs
    subst this
    rfl
  | cons x xs ih =>
    intro p n hs hn
    obtain ⟨a, v⟩ := x
    obtain ⟨e, q, h2, h3⟩ := hs
    obtain ⟨n, rfl⟩ : ∃ m, n = m + 1 := ⟨n - 1, by simp at hn; omega⟩
    subst e
    simp only [getWatcher, h2, List.map_cons, List.find?_cons]
    by_cases hb : ty v = b
    · simp [hb]
    · simp only [hb, if_false, decide_false]
      exact ih h3 (by simpa using hn)

/-- **C98.** `watcher_test.c:20-24`: `get_register` finds the first watcher of the type, if there is
one; so it finds one that was registered when no other of its type was. -/
theorem C98_get {α β} [DecidableEq α] [DecidableEq β] {h : LL.Heap α} {head : Option Nat} {vs : List α}
    (hr : LL.Repr h head vs) (ty : α → β) :
    ∃ n, ∀ m, n ≤ m →
      (∀ b, (∀ u ∈ vs, ty u ≠ b) → getWatcher h ty b m head = some none) ∧
      ∀ pre v post, vs = pre ++ v :: post → (∀ u ∈ pre, ty u ≠ ty v) →
        getWatcher h ty (ty v) m head = some (some v) := by
  obtain ⟨xs, hs, _, _, rfl⟩ := hr
  refine ⟨xs.length + 1, fun m hm => ⟨fun b hb => ?_, fun pre v post e hp => ?_⟩⟩
  · rw [getWatcher_seg b hs (by omega)]
    congr 1
    rw [List.find?_eq_none]
    intro u hu
    simpa using hb u hu
  · rw [getWatcher_seg _ hs (by omega), e]
    congr 1
    rw [List.find?_append, List.find?_eq_none.2 (by intro u hu; simpa using hp u hu)]
    simp

end Mpp
