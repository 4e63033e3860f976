import Verif.Lifecycle
/-!
# The topic machine

One value per topic instead of one copy per subscriber. Between `init` and `shutdown` the
concrete machine and the topic machine run every program in the same way (`sim`): this is the
coherence of the buses. The topic machine is a proof device.
-/
namespace Mpp

/-- State of the topic machine: the last value published on each topic, the latched copy
(`current_value`) of each bus variable, registers, memory, reported errors. -/
structure T where
  topic : Topic → W
  cur : Slot → W
  regs : Reg → W
  mem : BitVec 16 → CInt
  log : List Err

/-- Meaning of the primitives on the topic machine. -/
def T.handle : (o : Op) → T → Option (o.ret × T)
  | .upd s, t => some ((), { t with cur := upd t.cur s (t.topic s.topic) })
  | .cur s, t => some (t.cur s, t)
  | .nxt s, t => some (t.topic s.topic, t)
  | .pub tp w, t => some ((), { t with topic := upd t.topic tp w })
  | .getReg r, t => some (t.regs r, t)
  | .setReg r w, t => some ((), { t with regs := upd t.regs r w })
  | .memGet i, t => some (t.mem i, t)
  | .memSet i v, t => some ((), { t with mem := upd t.mem i v })
  | .err e, t => some ((), { t with log := e :: t.log })
  | .ub, _ => none

def T.run {α} (p : Prog α) (t : T) : Option (α × T) := p.run T.handle t

/-- The concrete state `h` is represented by `t`. -/
structure Rep (h : H) (t : T) : Prop where
  live : Live h
  bus : ∀ s a, h.busPtr s = some a → h.ps.heap a = some ⟨t.topic s.topic, t.cur s⟩
  regs : h.regs = t.regs
  mem : h.mem = .live t.mem
  log : h.log = t.log

/-- What component code never touches. -/
structure Frame (h h' : H) : Prop where
  busPtr : h'.busPtr = h.busPtr
  subPtr : h'.subPtr = h.subPtr
  subs : h'.ps.subs = h.ps.subs
  order : h'.ps.order = h.ps.order
  mws : h'.ps.mws = h.ps.mws
  count : h'.ps.count = h.ps.count
  brk : h'.ps.brk = h.ps.brk
  watch : h'.watch = h.watch
  ui : h'.ui = h.ui
  clk : h'.clk = h.clk

theorem Frame.refl (h : H) : Frame h h := by constructor <;> rfl

theorem Frame.trans {h1 h2 h3 : H} (a : Frame h1 h2) (b : Frame h2 h3) : Frame h1 h3 := by
  constructor
  · rw [b.busPtr, a.busPtr]
  · rw [b.subPtr, a.subPtr]
  · rw [b.subs, a.subs]
  · rw [b.order, a.order]
  · rw [b.mws, a.mws]
  · rw [b.count, a.count]
  · rw [b.brk, a.brk]
  · rw [b.watch, a.watch]
  · rw [b.ui, a.ui]
  · rw [b.clk, a.clk]

/-- A framed change that keeps the set of allocated buses keeps the machine live. -/
theorem Live.frame {h h' : H} (l : Live h) (f : Frame h h')
    (hh : ∀ a, (h'.ps.heap a).isSome = (h.ps.heap a).isSome) : Live h' := by
  have key : ∀ a b, h.ps.heap a = some b → ∃ b', h'.ps.heap a = some b' := fun a b e => by
    have := hh a
    rw [e] at this
    exact Option.isSome_iff_exists.1 this
  refine ⟨⟨?_, ?_, ?_, ?_, ?_⟩, ?_, ?_, ?_⟩
  · intro a ha
    have := hh a
    rw [l.good.heapB a (by rw [← f.brk]; exact ha)] at this
    simpa using this
  · intro i hi; rw [f.subs]; exact l.good.subsB i (by rw [← f.count]; exact hi)
  · intro id hid
    rw [f.order] at hid
    obtain ⟨t, a, b, h1, h2⟩ := l.good.order id hid
    obtain ⟨b', h3⟩ := key a b h2
    exact ⟨t, a, b', by rw [f.subs, h1], h3⟩
  · rw [f.order]; exact l.good.nodup
  · rw [f.mws]; exact l.good.mws
  · intro s
    obtain ⟨a, b, id, h1, h2, h3, h4, h5⟩ := l.slot s
    obtain ⟨b', h6⟩ := key a b h2
    exact ⟨a, b', id, by rw [f.busPtr, h1], h6, by rw [f.subPtr, h3], by rw [f.subs, h4],
      by rw [f.order]; exact h5⟩
  · rw [f.busPtr]; exact l.inj
  · rw [f.busPtr, f.subs, f.order, f.subPtr]; exact l.owner

/-- Outcome of the concrete machine against outcome of the topic machine. -/
def SimOut {α} (h : H) (x : Option (α × H)) (y : Option (α × T)) : Prop :=
  match x, y with
  | none, none => True
  | some (v, h'), some (v', t') => v = v' ∧ Rep h' t' ∧ Frame h h'
  | _, _ => False

theorem sim_op (o : Op) {h : H} {t : T} (r : Rep h t) :
    SimOut h (H.handle o h) (T.handle o t) := by
  cases o with
  | upd s =>
    obtain ⟨a, b, id, h1, h2, _⟩ := r.live.slot s
    have hb := r.bus s a h1
    simp only [H.handle, T.handle, PS.updateBus, h1, hb, Option.map_some, SimOut]
    have f : Frame h { h with ps := { h.ps with
        heap := upd h.ps.heap a (some ⟨t.topic s.topic, t.topic s.topic⟩) } } := by
      constructor <;> rfl
    refine ⟨rfl, ⟨r.live.frame f ?_, ?_, r.regs, r.mem, r.log⟩, f⟩
    · intro c
      simp only [upd_apply]
      split
      · rename_i e; subst e; rw [hb]; rfl
      · rfl
    · intro s' a' ha'
      simp only [upd_apply] at ha' ⊢
      by_cases e : s' = s
      · subst e
        rw [h1] at ha'; cases ha'
        simp
      · have : a' ≠ a := fun c => e (r.live.inj _ _ _ ha' (c ▸ h1))
        simp only [this, e, if_false]
        exact r.bus s' a' ha'
  | cur s =>
    obtain ⟨a, b, id, h1, h2, _⟩ := r.live.slot s
    have hb := r.bus s a h1
    simp only [H.handle, T.handle, PS.deref, h1, hb, Option.map_some, SimOut]
    exact ⟨rfl, r, Frame.refl h⟩
  | nxt s =>
    obtain ⟨a, b, id, h1, h2, _⟩ := r.live.slot s
    have hb := r.bus s a h1
    simp only [H.handle, T.handle, PS.deref, h1, hb, Option.map_some, SimOut]
    exact ⟨rfl, r, Frame.refl h⟩
  | pub tp w =>
    have hok : PS.ListOk h.ps.subs h.ps.order h.ps.heap := by
      intro id hid
      obtain ⟨t', a, b, e1, e2⟩ := r.live.good.order id hid
      exact ⟨_, e1, fun _ => ⟨a, b, rfl, e2⟩⟩
    obtain ⟨heap', h1, h2⟩ := PS.deliver_spec h.ps.subs tp w h.ps.order h.ps.heap 0 hok
    have hp : h.ps.publish tp w = some
        (some (0 + (h.ps.order.filter (PS.receives h.ps.subs tp)).length),
          { h.ps with heap := heap' }) := by
      simp only [PS.publish, r.live.good.mws, PS.middlewaresPass, if_true, h1]
    simp only [H.handle, T.handle, hp, Option.map_some, SimOut]
    have f : Frame h { h with ps := { h.ps with heap := heap' } } := by constructor <;> rfl
    refine ⟨rfl, ⟨r.live.frame f ?_, ?_, r.regs, r.mem, r.log⟩, f⟩
    · intro c
      by_cases hc : ∃ id ∈ h.ps.order, PS.Delivers h.ps.subs tp id c
      · simp only [(h2 c).1 hc]; cases h.ps.heap c <;> rfl
      · simp only [(h2 c).2 hc]
    · intro s a ha
      simp only at ha ⊢
      have hb := r.bus s a ha
      obtain ⟨a', b, id, g1, g2, g3, g4, g5⟩ := r.live.slot s
      rw [ha] at g1; cases g1
      by_cases e : s.topic = tp
      · rw [(h2 a).1 ⟨id, g5, _, g4, rfl, e, rfl⟩, hb]
        simp [e]
      · rw [(h2 a).2, hb, upd_ne _ _ e]
        rintro ⟨id', hid', sub, e1, e2, e3, e4⟩
        have := r.live.owner id' hid' s a sub e1 e4 ha
        rw [g3] at this; cases this
        rw [g4] at e1; cases e1
        exact e e3
  | getReg x =>
    simp only [H.handle, T.handle, SimOut]
    exact ⟨by rw [r.regs], r, Frame.refl h⟩
  | setReg x w =>
    simp only [H.handle, T.handle, SimOut]
    have f : Frame h { h with regs := upd h.regs x w } := by constructor <;> rfl
    exact ⟨rfl, ⟨r.live.frame f (fun _ => rfl), r.bus, by simp only [r.regs], r.mem, r.log⟩, f⟩
  | memGet i =>
    simp only [H.handle, T.handle, r.mem, SimOut]
    exact ⟨rfl, r, Frame.refl h⟩
  | memSet i v =>
    simp only [H.handle, T.handle, r.mem, SimOut]
    have f : Frame h { h with mem := .live (upd t.mem i v) } := by constructor <;> rfl
    exact ⟨rfl, ⟨r.live.frame f (fun _ => rfl), r.bus, r.regs, rfl, r.log⟩, f⟩
  | err e =>
    simp only [H.handle, T.handle, SimOut]
    have f : Frame h { h with log := e :: h.log } := by constructor <;> rfl
    exact ⟨rfl, ⟨r.live.frame f (fun _ => rfl), r.bus, r.regs, r.mem, by simp only [r.log]⟩, f⟩
  | ub => simp only [H.handle, T.handle, SimOut]

/-- The concrete machine and the topic machine run every program in the same way. -/
theorem sim {α} (p : Prog α) {h : H} {t : T} (r : Rep h t) :
    SimOut h (H.run p h) (T.run p t) := by
  induction p generalizing h t with
  | pure a => exact ⟨rfl, r, Frame.refl h⟩
  | op o k ih =>
    have s := sim_op o r
    simp only [H.run, T.run, Prog.run]
    unfold SimOut at s
    cases hx : H.handle o h with
    | none =>
      cases hy : T.handle o t with
      | none => simp [SimOut]
      | some y => rw [hx, hy] at s; exact s.elim
    | some x =>
      cases hy : T.handle o t with
      | none => rw [hx, hy] at s; exact s.elim
      | some y =>
        rw [hx, hy] at s
        obtain ⟨v, h'⟩ := x
        obtain ⟨v', t'⟩ := y
        obtain ⟨rfl, r', f⟩ := s
        simp only [Option.bind_some]
        have s' := ih v r'
        unfold SimOut at s' ⊢
        cases hx' : H.run (k v) h' with
        | none =>
          cases hy' : T.run (k v) t' with
          | none =>
            simp only [H.run] at hx'
            simp only [T.run] at hy'
            simp [hx', hy']
          | some y => rw [hx', hy'] at s'; exact s'.elim
        | some x =>
          cases hy' : T.run (k v) t' with
          | none => rw [hx', hy'] at s'; exact s'.elim
          | some y =>
            rw [hx', hy'] at s'
            simp only [H.run] at hx'
            simp only [T.run] at hy'
            simp only [hx', hy']
            exact ⟨s'.1, s'.2.1, f.trans s'.2.2⟩

/-- Success on the topic machine carries over. -/
theorem sim_some {α} {p : Prog α} {h : H} {t t' : T} {v : α} (r : Rep h t)
    (e : T.run p t = some (v, t')) : ∃ h', H.run p h = some (v, h') ∧ Rep h' t' ∧ Frame h h' := by
  have s := sim p r
  unfold SimOut at s
  rw [e] at s
  cases hx : H.run p h with
  | none => rw [hx] at s; exact s.elim
  | some x =>
    rw [hx] at s
    obtain ⟨v', h'⟩ := x
    exact ⟨h', by rw [s.1], s.2⟩

/-- The topic machine after `init`. -/
theorem Rep.init {h : H} (rand : Nat → Nat) (g : Good h) (hb : h.ps.count + 79 < 2 ^ 31) :
    ∃ h', h.cmds rand initCmds = some h' ∧
      Rep h' ⟨fun _ => 0, fun _ => 0, fun _ => 0, fun i => randomInt (rand i.toNat), h.log⟩ ∧
      h'.watch = h.watch ++ allWatchers ∧ h'.ui = h.ui ∧ h'.clk = h.clk ∧
      h'.ps.count = h.ps.count + 79 := by
  obtain ⟨h', e, l, e1, e2, e3, e4, e5, e6, e7, e8⟩ := init_live rand g hb
  refine ⟨h', e, ⟨l, ?_, funext e2, e3, e7⟩, e4, e5, e6, e8⟩
  intro s a ha
  obtain ⟨a', h1, h2⟩ := e1 s
  rw [ha] at h1; cases h1
  exact h2

end Mpp
