import Verif.RunSim
/-!
# Histories of calls as runs of an abstract machine

The state of the C program after a history is described by `Abs`: shut down, or running in a typed
state. Every call acts on it as a function.
-/
namespace Mpp

/-- What a call does to a running machine. -/
def A.call : Call → A → A
  | .runClockCycle _, a => a.cycle
  | .resetControl, a => a.resetCtl
  | .setMemoryValue offset value, a =>
    { a with mem := upd a.mem (offset.setWidth 16) (value.setWidth 8) }
  | .setRegisterPc value, a => { a with pc := value.setWidth 16, pcOut := value.setWidth 16 }
  | _, a => a

/-- What a call returns on a running machine. -/
def A.value : Call → A → CInt
  | .getRegisterValue t, a => a.view.reg t
  | .getMemoryValue offset, a =>
    if IsAddr offset then (a.mem (offset.setWidth 16)).setWidth 32 else -1
  | .getMemorySize, _ => 65536
  | .getMemoryValueSizeBits, _ => 8
  | .getState, a => a.q.setWidth 32
  | .getNextState, a => a.dd.setWidth 32
  | .getDataBus, a => a.data.setWidth 32
  | .getMemoryDirBus, a => a.dir2.setWidth 32
  | .getControlBit k, a => if a.control.getLsbD k then 1 else 0
  | .getControlSelalu, a => selaluOf a.control
  | _, _ => 0

/-- Calls that neither start nor stop the machine. -/
def Call.inner : Call → Bool
  | .init _ => false
  | .shutdown => false
  | _ => true

theorem On.call {p : Phase} {h : H} {a : A} (i : Inv p h) (o : On h a) (c : Call)
    (hc : c.Allowed p) (hn : c.inner = true) :
    ∃ h', exec c h = some (a.value c, h') ∧ On h' (a.call c) := by
  cases c with
  | init rand => cases hn
  | shutdown => cases hn
  | setUpdateUi b => exact ⟨{ h with ui := b }, rfl, o.setUi b⟩
  | runClockCycle u =>
    obtain ⟨h', e, o', _⟩ := o.cycle u (fun e => i.ui.trans (hc.2 e))
    exact ⟨h', e, o'⟩
  | resetControl =>
    obtain ⟨h', e, o', _⟩ := o.reset
    exact ⟨h', e, o'⟩
  | setMemoryValue offset value =>
    obtain ⟨h1, h2, h3, h4⟩ := hc
    obtain ⟨h', e, o', _⟩ := o.setMemory (i.ui.trans h2) (offset.setWidth 16) (value.setWidth 8)
    rw [h3.eq, h4.eq] at e
    exact ⟨h', e, o'⟩
  | setRegisterPc value =>
    obtain ⟨h1, h2, h3⟩ := hc
    obtain ⟨h', e, o', _⟩ := o.setPc (i.ui.trans h2) (value.setWidth 16)
    rw [h3.eq] at e
    exact ⟨h', e, o'⟩
  | getRegisterValue t => exact ⟨h, o.getReg t, o⟩
  | getMemoryValue offset =>
    by_cases ha : IsAddr offset
    · have := o.getMemory (offset.setWidth 16)
      rw [ha.eq] at this
      exact ⟨h, by simp only [A.value, if_pos ha]; exact this, o⟩
    · exact ⟨h, by simp only [A.value, if_neg ha]; exact On.getMemory_out ha, o⟩
  | getMemorySize => exact ⟨h, rfl, o⟩
  | getMemoryValueSizeBits => exact ⟨h, rfl, o⟩
  | getState => exact ⟨h, o.getState, o⟩
  | getNextState => exact ⟨h, o.getNextState, o⟩
  | getDataBus => exact ⟨h, o.getDataBus, o⟩
  | getMemoryDirBus => exact ⟨h, o.getMemoryDirBus, o⟩
  | getControlBit k => exact ⟨h, o.getControlBit k, o⟩
  | getControlSelalu => exact ⟨h, o.getControlSelalu, o⟩

/-- Shut down with the errors reported so far, or running. -/
inductive Abs
  | off (log : List Err)
  | on (a : A)

def Abs.is : Abs → H → Prop
  | .off log, h => Off h ∧ h.log = log
  | .on a, h => On h a

def Abs.log : Abs → List Err
  | .off l => l
  | .on a => a.log

def Abs.isOn : Abs → Bool
  | .off _ => false
  | .on _ => true

/-- The abstract machine. -/
def Abs.call (c : Call) (s : Abs) : Abs :=
  match c, s with
  | .init rand, s => .on (A.fresh rand s.log)
  | .shutdown, s => .off s.log
  | c, .on a => .on (a.call c)
  | _, .off l => .off l

def Abs.value (c : Call) (s : Abs) : CInt :=
  match c, s with
  | .getMemorySize, _ => 65536
  | .getMemoryValueSizeBits, _ => 8
  | .init _, _ => 0
  | .shutdown, _ => 0
  | c, .on a => a.value c
  | _, .off _ => 0

def Abs.calls : List Call → Abs → List CInt × Abs
  | [], s => ([], s)
  | c :: cs, s => (s.value c :: (Abs.calls cs (s.call c)).1, (Abs.calls cs (s.call c)).2)

/-- `h` is described by `s`, in phase `p`. -/
structure Desc (p : Phase) (h : H) (s : Abs) : Prop where
  inv : Inv p h
  is : s.is h
  phase : p.on = s.isOn

theorem Desc.start : Desc Phase.start H.start (.off []) :=
  ⟨Inv.start, ⟨⟨Good.start, 0, rfl⟩, rfl⟩, rfl⟩

theorem On.log {h : H} {a : A} (o : On h a) : h.log = a.log := by
  obtain ⟨cur, r⟩ := o.rep
  rw [r.log]; rfl

/-- Every allowed call does what the abstract machine does. -/
theorem Desc.call {p : Phase} {h : H} {s : Abs} (d : Desc p h s) (c : Call) (hc : c.Allowed p) :
    ∃ h', exec c h = some (s.value c, h') ∧ Desc (c.after p) h' (s.call c) := by
  obtain ⟨v, h', e, i'⟩ := d.inv.call c hc
  cases s with
  | off l =>
    have hp : p.on = false := d.phase
    obtain ⟨o, hl⟩ := d.is
    cases c with
    | init rand =>
      obtain ⟨h1, e1, o1, _⟩ := o.init rand (by rw [d.inv.count]; have : p.inits < 27183337 := hc; omega)
      rw [e1] at e; cases e
      refine ⟨h', e1, i', ?_, rfl⟩
      rw [hl] at o1; exact o1
    | setUpdateUi b =>
      cases e
      refine ⟨{ h with ui := b }, rfl, i', ⟨i'.off hp, hl⟩, d.phase⟩
    | getMemorySize => exact ⟨h, rfl, d.inv, ⟨o, hl⟩, d.phase⟩
    | getMemoryValueSizeBits => exact ⟨h, rfl, d.inv, ⟨o, hl⟩, d.phase⟩
    | runClockCycle u => exact absurd hc.1 (by rw [hp]; decide)
    | setMemoryValue _ _ => exact absurd hc.1 (by rw [hp]; decide)
    | setRegisterPc _ => exact absurd hc.1 (by rw [hp]; decide)
    | _ => exact absurd (show p.on = true from hc) (by rw [hp]; decide)
  | on a =>
    have hp : p.on = true := d.phase
    have o : On h a := d.is
    cases hn : c.inner with
    | true =>
      obtain ⟨h1, e1, o1⟩ := o.call d.inv c hc hn
      rw [e1] at e; cases e
      have e2 : (Abs.on a).value c = a.value c := by cases c <;> first | rfl | cases hn
      have e3 : (Abs.on a).call c = .on (a.call c) := by cases c <;> first | rfl | cases hn
      have e4 : (c.after p).on = p.on := by cases c <;> first | rfl | cases hn
      rw [e2, e3]
      exact ⟨h', e1, i', o1, e4.trans hp⟩
    | false =>
      cases c with
      | init rand =>
        obtain ⟨h1, e1, o1, _⟩ := o.off.init rand (by rw [d.inv.count]; have : p.inits < 27183337 := hc; omega)
        rw [e1] at e; cases e
        refine ⟨h', e1, i', ?_, rfl⟩
        rw [o.log] at o1; exact o1
      | shutdown =>
        obtain ⟨h1, e1, o1, _, _, l1⟩ := o.shutdown
        rw [e1] at e; cases e
        exact ⟨h', e1, i', ⟨o1, l1⟩, rfl⟩
      | _ => cases hn

theorem Desc.calls {p p' : Phase} {h : H} {s : Abs} (d : Desc p h s) (cs : List Call)
    (hl : Legal p cs p') :
    ∃ h', execAll cs h = some ((s.calls cs).1, h') ∧ Desc p' h' (s.calls cs).2 := by
  induction cs generalizing p h s with
  | nil => cases hl; exact ⟨h, rfl, d⟩
  | cons c cs ih =>
    obtain ⟨h1, e1, d1⟩ := d.call c hl.1
    obtain ⟨h2, e2, d2⟩ := ih d1 hl.2
    exact ⟨h2, by simp only [execAll, e1, Option.bind_some, e2, Option.map_some, Abs.calls], d2⟩

theorem Reach.desc {p : Phase} {h : H} (r : Reach p h) : ∃ s, Desc p h s := by
  obtain ⟨cs, vs, hl, e⟩ := r
  obtain ⟨h', e', d⟩ := Desc.start.calls cs hl
  rw [e] at e'; cases e'
  exact ⟨_, d⟩

/-! ## Invariants of running machines -/

/-- A property of running machines that `init` establishes and every call in `ok` keeps is kept by
every history of such calls. -/
theorem Desc.keeps (I : A → Prop) (ok : Call → Prop) (init : ∀ rand log, I (A.fresh rand log))
    (call : ∀ a c, ok c → a.Settled → OkState a.dd a.ri → I a → I (a.call c)) (cs : List Call) :
    ∀ {p : Phase} {h : H} {s : Abs} {p' : Phase} {vs : List CInt} {h' : H}, Desc p h s →
      (∀ a, s = .on a → I a) → Legal p cs p' → (∀ c ∈ cs, ok c) → execAll cs h = some (vs, h') →
      ∃ s', Desc p' h' s' ∧ ∀ a, s' = .on a → I a := by
  induction cs with
  | nil => intro p h s p' vs h' d hi hl _ e; cases hl; cases e; exact ⟨s, d, hi⟩
  | cons c cs ih =>
    intro p h s p' vs h' d hi hl hk e
    obtain ⟨h1, e1, d1⟩ := d.call c hl.1
    simp only [execAll, e1, Option.bind_some] at e
    cases e2 : execAll cs h1 with
    | none => rw [e2] at e; cases e
    | some q =>
      rw [e2] at e; cases e
      refine ih (vs := q.1) (h' := q.2) d1 ?_ hl.2
        (fun c hc => hk c (List.mem_cons_of_mem _ hc)) (by rw [e2])
      intro a ha
      cases s with
      | off l =>
        cases c <;> simp only [Abs.call] at ha <;> first | cases ha | skip
        exact init _ _
      | on b =>
        have o : On h b := d.is
        have hb := hi b rfl
        have key : I (b.call c) := call b c (hk c List.mem_cons_self) o.settled o.ok hb
        cases c with
        | init rand =>
          simp only [Abs.call, Abs.on.injEq] at ha
          rw [← ha]; exact init _ _
        | shutdown => cases ha
        | _ =>
          simp only [Abs.call, Abs.on.injEq] at ha
          rw [← ha]; exact key

/-- A property of running machines that `init` establishes and every call keeps holds in every
reachable state. -/
theorem Reach.invariant (I : A → Prop) (init : ∀ rand log, I (A.fresh rand log))
    (call : ∀ a c, a.Settled → OkState a.dd a.ri → I a → I (a.call c))
    {p : Phase} {h : H} (r : Reach p h) (hp : p.on = true) : ∃ a, On h a ∧ I a := by
  obtain ⟨cs, vs, hl, e⟩ := r
  obtain ⟨s, d, hi⟩ := Desc.keeps I (fun _ => True) init (fun a c _ => call a c) cs Desc.start
    (fun a ha => by cases ha) hl (fun _ _ => trivial) e
  cases s with
  | off l => rw [d.phase] at hp; cases hp
  | on a => exact ⟨a, d.is, hi a rfl⟩

/-! ## At the level of microstates -/

/-- The visible part of a running machine. -/
def A.m (a : A) : M := ⟨a.view, a.dd⟩

def M.call : Call → M → M
  | .runClockCycle _, m => m.step
  | .resetControl, m => { m with s := 0 }
  | .setMemoryValue offset value, m =>
    { m with v := { m.v with mem := upd m.v.mem (offset.setWidth 16) (value.setWidth 8) } }
  | .setRegisterPc value, m => { m with v := { m.v with pc := value.setWidth 16 } }
  | _, m => m

theorem A.m_cycle (a : A) (hs : a.Settled) (hq : a.dd.toNat < 45) : a.cycle.m = a.m.step := by
  obtain ⟨c1, _, _, c4, _⟩ := A.cycle_spec a hs hq
  unfold A.m M.step
  rw [c1, c4]
  rfl

theorem A.m_call (a : A) (hs : a.Settled) (hq : a.dd.toNat < 45) (c : Call) :
    (a.call c).m = a.m.call c := by
  cases c <;> first | rfl | exact a.m_cycle hs hq

/-- The visible state after `init`. -/
def M.fresh (rand : Nat → Nat) (log : List Err) : M :=
  ⟨⟨0, 0, 0, 0, 0, 0, 0, 0, 0, 0, 0, 0, 0, false, false, fun i => randByte (rand i.toNat), log⟩, 0⟩

/-- Invariants at the level of microstates. -/
theorem Reach.minvariant (I : M → Prop) (init : ∀ rand log, I (M.fresh rand log))
    (call : ∀ m c, OkState m.s m.v.ri → I m → I (m.call c))
    {p : Phase} {h : H} (r : Reach p h) (hp : p.on = true) : ∃ m, At h m ∧ I m := by
  obtain ⟨a, o, i⟩ := r.invariant (fun a => I a.m) (fun rand log => init rand log)
    (fun a c hs ho i => by
      show I (a.call c).m
      rw [a.m_call hs ho.lt c]; exact call a.m c ho i) hp
  exact ⟨a.m, o.at, i⟩

theorem Reach.mtheorem (I : M → Prop) (init : ∀ rand log, I (M.fresh rand log))
    (call : ∀ m c, OkState m.s m.v.ri → I m → I (m.call c))
    {p : Phase} {h : H} (r : Reach p h) (hp : p.on = true) {m : M} (t : At h m) : I m := by
  obtain ⟨m', t', i⟩ := r.minvariant I init call hp
  rw [t.unique t']; exact i

theorem At.ok {h : H} {m : M} (t : At h m) : OkState m.s m.v.ri := by
  obtain ⟨a, o, e1, e2⟩ := t
  have := o.ok
  rw [← e1, ← e2]; exact this

/-! ## The next microstate belongs to the program of the instruction register -/

theorem trace_next (o : BitVec 8) (fc fz : Bool) (n : Nat) (s0 s : BitVec 6)
    (l : List (BitVec 6)) (h : fullTrace o fc fz n s0 = some l) (hs : s ∈ l) :
    A.nextOf s o fc fz = 0 ∨ A.nextOf s o fc fz ∈ l := by
  induction n generalizing s0 l with
  | zero =>
    simp only [fullTrace] at h
    split at h <;> cases h
    cases hs
  | succ n ih =>
    simp only [fullTrace] at h
    split at h
    · cases h; cases hs
    · cases e : fullTrace o fc fz n (A.nextOf s0 o fc fz) with
      | none => rw [e] at h; cases h
      | some l' =>
        rw [e] at h; cases h
        rcases List.mem_cons.1 hs with rfl | hs'
        · by_cases h0 : A.nextOf s o fc fz = 0
          · exact .inl h0
          · right
            have : A.nextOf s o fc fz ∈ l' := by
              cases n with
              | zero => simp only [fullTrace, if_neg h0] at e; cases e
              | succ n =>
                simp only [fullTrace, if_neg h0] at e
                cases e2 : fullTrace o fc fz n (A.nextOf (A.nextOf s o fc fz) o fc fz) with
                | none => rw [e2] at e; cases e
                | some l2 => rw [e2] at e; cases e; exact List.mem_cons_self
            exact List.mem_cons_of_mem _ this
        · rcases ih _ _ e hs' with h1 | h1
          · exact .inl h1
          · exact .inr (List.mem_cons_of_mem _ h1)

theorem path17 : ∀ o : BitVec 8, ∀ fc fz fc' fz' : Bool, 17 ∈ pathOf o fc fz →
    17 ∈ pathOf o fc' fz' := by decide +kernel

theorem path1 : ∀ o : BitVec 8, 1 ∈ pathOf o false false := by decide +kernel

/-- The next microstate is the fetch or belongs to the microprogram of RI. -/
def InPath (m : M) : Prop := m.s = 0 ∨ ∃ fc fz, m.s ∈ pathOf m.v.ri fc fz

theorem InPath.step (m : M) (h : InPath m) : InPath m.step := by
  by_cases h0 : m.s = 0
  · right
    refine ⟨false, false, ?_⟩
    have : m.step.s = 1 := by
      show A.nextOf m.s m.v.ri m.v.fc m.v.fz = 1
      rw [h0]; exact next_zero _ _ _
    rw [this]; exact path1 _
  rcases h with h | ⟨fc, fz, h⟩
  · exact absurd h h0
  · have hr : m.step.v.ri = m.v.ri := rtl_ri m.v _ (fun e => h0 (BitVec.eq_of_toNat_eq e))
    have key : ∀ fc fz, m.s ∈ pathOf m.v.ri fc fz →
        A.nextOf m.s m.v.ri fc fz = A.nextOf m.s m.v.ri m.v.fc m.v.fz → InPath m.step := by
      intro fc fz hm he
      have hs : m.step.s = A.nextOf m.s m.v.ri fc fz := he.symm
      rcases trace_next _ fc fz _ _ _ _ (fullTrace_all m.v.ri fc fz) hm with e | e
      · exact .inl (hs.trans e)
      · exact .inr ⟨fc, fz, by rw [hs, hr]; exact e⟩
    by_cases h17 : m.s = 17
    · exact key m.v.fc m.v.fz (by rw [h17] at h ⊢; exact path17 _ _ _ _ _ h) rfl
    · exact key fc fz h (next_flags _ _ _ _ _ _ h17)

theorem InPath.call (m : M) (c : Call) (h : InPath m) : InPath (m.call c) := by
  cases c with
  | runClockCycle _ => exact h.step
  | resetControl => exact .inl rfl
  | _ => exact h

theorem Reach.inPath {p : Phase} {h : H} (r : Reach p h) (hp : p.on = true) {m : M} (t : At h m) :
    InPath m :=
  r.mtheorem InPath (fun _ _ => .inl rfl) (fun m c _ h => h.call m c) hp t

end Mpp
