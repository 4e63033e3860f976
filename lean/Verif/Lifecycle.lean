import Verif.Host
/-!
# Lifecycle: what `init` and `shutdown` establish

`Good` holds between calls whether or not the machine is running; `Live` holds from `init` to
`shutdown`. `init` takes a `Good` state to a `Live` one, `shutdown` a `Live` one to a `Good` one.
The proofs are inductions over the statement lists, with a checker (evaluated on the concrete
lists) for the order of the statements.
-/
namespace Mpp

/-- Every listed subscription is active and its bus object is allocated. -/
structure Good (h : H) : Prop where
  heapB : ∀ a, h.ps.brk ≤ a → h.ps.heap a = none
  subsB : ∀ i, h.ps.count ≤ i → h.ps.subs i = none
  order : ∀ id ∈ h.ps.order, ∃ t a b, h.ps.subs id = some ⟨t, some a, true⟩ ∧ h.ps.heap a = some b
  nodup : h.ps.order.Nodup
  mws : h.ps.mws = []

/-- Every bus variable points to its own allocated bus, which is delivered to by exactly its own
subscription, to the right topic. -/
structure Live (h : H) : Prop where
  good : Good h
  slot : ∀ s, ∃ a b id, h.busPtr s = some a ∧ h.ps.heap a = some b ∧ h.subPtr s = some id ∧
    h.ps.subs id = some ⟨s.topic, some a, true⟩ ∧ id ∈ h.ps.order
  inj : ∀ s s' a, h.busPtr s = some a → h.busPtr s' = some a → s = s'
  owner : ∀ id ∈ h.ps.order, ∀ s a sub, h.ps.subs id = some sub → sub.bus = some a →
    h.busPtr s = some a → h.subPtr s = some id

theorem Good.start : Good H.start := by
  constructor <;> simp [H.start, PS.empty]

/-! ## Initialisation -/

/-- What has been done so far by an initialisation. -/
structure Done where
  created : List Slot
  subscribed : List Slot
  zeroed : List Reg
  watched : List Watcher
  filled : Bool

/-- Order check for one initialisation statement. -/
def Done.step (d : Done) : Cmd → Option Done
  | .initReg r => some { d with zeroed := r :: d.zeroed }
  | .create s => if s ∈ d.created then none else some { d with created := s :: d.created }
  | .subscribe s t =>
    if s ∈ d.created ∧ s ∉ d.subscribed ∧ t = s.topic then
      some { d with subscribed := s :: d.subscribed }
    else none
  | .watch r => some { d with watched := d.watched ++ [r] }
  | .fillMem => some { d with filled := true }
  | _ => none

def Done.steps (d : Done) : List Cmd → Option Done
  | [] => some d
  | c :: cs => (d.step c).bind fun d => d.steps cs

structure InitInv (rand : Nat → Nat) (h0 h : H) (d : Done) : Prop where
  good : Good h
  count : h.ps.count = h0.ps.count + d.subscribed.length
  created : ∀ s ∈ d.created, ∃ a, h.busPtr s = some a ∧ h.ps.heap a = some ⟨0, 0⟩
  inj : ∀ s ∈ d.created, ∀ s' ∈ d.created, ∀ a, h.busPtr s = some a → h.busPtr s' = some a → s = s'
  owner : ∀ id ∈ h.ps.order, ∀ s ∈ d.created, ∀ a sub, h.ps.subs id = some sub → sub.bus = some a →
    h.busPtr s = some a → s ∈ d.subscribed ∧ h.subPtr s = some id
  subCreated : ∀ s ∈ d.subscribed, s ∈ d.created
  subscribed : ∀ s ∈ d.subscribed, ∃ a id, h.busPtr s = some a ∧ h.subPtr s = some id ∧
    h.ps.subs id = some ⟨s.topic, some a, true⟩ ∧ id ∈ h.ps.order
  regs : ∀ r ∈ d.zeroed, h.regs r = 0
  watch : h.watch = h0.watch ++ d.watched
  mem : d.filled = true → h.mem = .live fun i => randomInt (rand i.toNat)
  ui : h.ui = h0.ui
  clk : h.clk = h0.clk
  log : h.log = h0.log

theorem InitInv.step {rand : Nat → Nat} {h0 h : H} {d d' : Done} {c : Cmd}
    (inv : InitInv rand h0 h d) (hc : d.step c = some d')
    (hb : h0.ps.count + d'.subscribed.length < 2 ^ 31) :
    ∃ h', h.cmd rand c = some h' ∧ InitInv rand h0 h' d' := by
  cases c with
  | initReg r =>
    cases hc
    refine ⟨_, rfl, ?_⟩
    exact {
      good := ⟨inv.good.heapB, inv.good.subsB, inv.good.order, inv.good.nodup, inv.good.mws⟩
      count := inv.count, created := inv.created, inj := inv.inj, owner := inv.owner
      subCreated := inv.subCreated, subscribed := inv.subscribed
      watch := inv.watch, mem := inv.mem, ui := inv.ui, clk := inv.clk, log := inv.log
      regs := by
        intro r' hr'
        simp only [List.mem_cons] at hr'
        simp only [upd_apply]
        split
        · rfl
        · rcases hr' with e | e
          · contradiction
          · exact inv.regs r' e }
  | watch r =>
    cases hc
    refine ⟨_, rfl, ?_⟩
    exact {
      good := ⟨inv.good.heapB, inv.good.subsB, inv.good.order, inv.good.nodup, inv.good.mws⟩
      count := inv.count, created := inv.created, inj := inv.inj, owner := inv.owner
      subCreated := inv.subCreated, subscribed := inv.subscribed, regs := inv.regs
      mem := inv.mem, ui := inv.ui, clk := inv.clk, log := inv.log
      watch := by simp [inv.watch] }
  | fillMem =>
    cases hc
    refine ⟨_, rfl, ?_⟩
    exact {
      good := ⟨inv.good.heapB, inv.good.subsB, inv.good.order, inv.good.nodup, inv.good.mws⟩
      count := inv.count, created := inv.created, inj := inv.inj, owner := inv.owner
      subCreated := inv.subCreated, subscribed := inv.subscribed, regs := inv.regs
      watch := inv.watch, ui := inv.ui, clk := inv.clk, log := inv.log
      mem := fun _ => rfl }
  | unwatch r => cases hc
  | unsub s => cases hc
  | destroy s => cases hc
  | unfillMem => cases hc
  | create s =>
    simp only [Done.step] at hc
    split at hc
    · cases hc
    · rename_i hs
      cases hc
      refine ⟨_, rfl, ?_⟩
      have hbrk : h.ps.heap h.ps.brk = none := inv.good.heapB _ (Nat.le_refl _)
      have hne : ∀ a b, h.ps.heap a = some b → a ≠ h.ps.brk := by
        intro a b hab e; rw [e, hbrk] at hab; cases hab
      have hold : ∀ s', s' ∈ d.created → s' ≠ s := fun s' h' e => hs (e ▸ h')
      constructor
      case good =>
        refine ⟨?_, inv.good.subsB, ?_, inv.good.nodup, inv.good.mws⟩
        · intro a ha
          have : a ≠ h.ps.brk := by simp only at ha; omega
          simp only
          rw [upd_ne _ _ this]
          exact inv.good.heapB a (by simp only at ha; omega)
        · intro id hid
          obtain ⟨t, a, b, h1, h2⟩ := inv.good.order id hid
          refine ⟨t, a, b, h1, ?_⟩
          simp only
          rw [upd_ne _ _ (hne a b h2), h2]
      case count => exact inv.count
      case created =>
        intro s' hs'
        simp only [List.mem_cons] at hs'
        by_cases e : s' = s
        · subst e
          exact ⟨h.ps.brk, by simp, by simp⟩
        · obtain ⟨a, h1, h2⟩ := inv.created s' (hs'.resolve_left e)
          refine ⟨a, ?_, ?_⟩
          · simp only; rw [upd_ne _ _ e, h1]
          · simp only; rw [upd_ne _ _ (hne a _ h2), h2]
      case inj =>
        intro s1 h1 s2 h2 a e1 e2
        simp only [List.mem_cons] at h1 h2
        simp only [upd_apply] at e1 e2
        by_cases c1 : s1 = s <;> by_cases c2 : s2 = s
        · rw [c1, c2]
        · rw [if_pos c1] at e1; rw [if_neg c2] at e2
          obtain ⟨a', g1, g2⟩ := inv.created s2 (h2.resolve_left c2)
          rw [g1] at e2; cases e2; cases e1
          exact absurd rfl (hne _ _ g2)
        · rw [if_neg c1] at e1; rw [if_pos c2] at e2
          obtain ⟨a', g1, g2⟩ := inv.created s1 (h1.resolve_left c1)
          rw [g1] at e1; cases e2; cases e1
          exact absurd rfl (hne _ _ g2)
        · rw [if_neg c1] at e1; rw [if_neg c2] at e2
          exact inv.inj s1 (h1.resolve_left c1) s2 (h2.resolve_left c2) a e1 e2
      case owner =>
        intro id hid s' hs' a sub e1 e2 e3
        simp only [List.mem_cons] at hs'
        simp only [upd_apply] at e3
        by_cases c1 : s' = s
        · rw [if_pos c1] at e3
          exfalso
          obtain ⟨t, a', b, g1, g2⟩ := inv.good.order id hid
          have : sub = ⟨t, some a', true⟩ := by
            have e1' : h.ps.subs id = some sub := e1
            rw [g1] at e1'; cases e1'; rfl
          subst this
          cases e2; cases e3
          exact hne _ _ g2 rfl
        · rw [if_neg c1] at e3
          exact inv.owner id hid s' (hs'.resolve_left c1) a sub e1 e2 e3
      case subCreated => exact fun s' hs' => List.mem_cons_of_mem _ (inv.subCreated s' hs')
      case subscribed =>
        intro s' hs'
        obtain ⟨a, id, h1, h2, h3, h4⟩ := inv.subscribed s' hs'
        by_cases e : s' = s
        · exfalso
          subst e
          exact hs (inv.subCreated s' hs')
        · exact ⟨a, id, by simp only; rw [upd_ne _ _ e, h1], h2, h3, h4⟩
      case regs => exact inv.regs
      case watch => exact inv.watch
      case mem => exact inv.mem
      case ui => exact inv.ui
      case clk => exact inv.clk
      case log => exact inv.log
  | subscribe s t =>
    simp only [Done.step] at hc
    split at hc
    · rename_i hs
      obtain ⟨hs1, hs2, rfl⟩ := hs
      cases hc
      have hcnt : h.ps.count < 2 ^ 31 - 1 := by
        rw [inv.count]; simp only [List.length_cons] at hb; omega
      have hfresh : h.ps.subs h.ps.count = none := inv.good.subsB _ (Nat.le_refl _)
      have hne : ∀ i x, h.ps.subs i = some x → i ≠ h.ps.count := by
        intro i x hx e; rw [e, hfresh] at hx; cases hx
      obtain ⟨a, ha, hheap⟩ := inv.created s hs1
      refine ⟨{ h with
          ps := { h.ps with
            subs := upd h.ps.subs h.ps.count (some ⟨s.topic, h.busPtr s, true⟩)
            count := h.ps.count + 1
            order := h.ps.order ++ [h.ps.count] }
          subPtr := upd h.subPtr s (some h.ps.count) }, ?_, ?_⟩
      · simp only [H.cmd, PS.subscribe, hcnt, if_true, Option.map_some]
      · constructor
        case good =>
          refine ⟨inv.good.heapB, ?_, ?_, ?_, inv.good.mws⟩
          · intro i hi
            simp only at hi ⊢
            rw [upd_ne _ _ (by omega)]
            exact inv.good.subsB i (by omega)
          · intro id hid
            simp only [List.mem_append, List.mem_singleton] at hid
            rcases hid with hid | rfl
            · obtain ⟨t, a, b, h1, h2⟩ := inv.good.order id hid
              exact ⟨t, a, b, by simp only; rw [upd_ne _ _ (hne _ _ h1), h1], h2⟩
            · exact ⟨s.topic, a, _, by simp [ha], hheap⟩
          · simp only
            refine List.nodup_append.2 ⟨inv.good.nodup, by simp, ?_⟩
            intro i hi j hj
            simp only [List.mem_singleton] at hj
            subst hj
            obtain ⟨t, a, b, h1, _⟩ := inv.good.order i hi
            exact hne _ _ h1
        case count => simp only [List.length_cons, inv.count]; omega
        case created => exact inv.created
        case inj => exact inv.inj
        case owner =>
          intro id hid s' hs' a' sub e1 e2 e3
          simp only [List.mem_append, List.mem_singleton] at hid
          simp only [upd_apply] at e1 ⊢
          rcases hid with hid | rfl
          · obtain ⟨t, a2, b, h1, h2⟩ := inv.good.order id hid
            rw [if_neg (hne _ _ h1)] at e1
            obtain ⟨g1, g2⟩ := inv.owner id hid s' hs' a' sub e1 e2 e3
            refine ⟨List.mem_cons_of_mem _ g1, ?_⟩
            rw [if_neg (fun e : s' = s => hs2 (e ▸ g1)), g2]
          · simp only [if_true] at e1
            cases e1
            simp only [ha] at e2
            cases e2
            have : s' = s := inv.inj s' hs' s hs1 a e3 ha
            subst this
            simp
        case subCreated =>
          intro s' hs'
          simp only [List.mem_cons] at hs'
          rcases hs' with rfl | hs'
          · exact hs1
          · exact inv.subCreated s' hs'
        case subscribed =>
          intro s' hs'
          simp only [List.mem_cons] at hs'
          by_cases e : s' = s
          · subst e
            exact ⟨a, h.ps.count, ha, by simp, by simp [ha], by simp⟩
          · obtain ⟨a', id, h1, h2, h3, h4⟩ := inv.subscribed s' (hs'.resolve_left e)
            refine ⟨a', id, h1, by simp only; rw [upd_ne _ _ e, h2], ?_, by simp [h4]⟩
            simp only
            rw [upd_ne _ _ (hne _ _ h3), h3]
        case regs => exact inv.regs
        case watch => exact inv.watch
        case mem => exact inv.mem
        case ui => exact inv.ui
        case clk => exact inv.clk
        case log => exact inv.log
    · cases hc

theorem Done.steps_subscribed_le {d d' : Done} {cs : List Cmd} (h : d.steps cs = some d') :
    d.subscribed.length ≤ d'.subscribed.length := by
  induction cs generalizing d with
  | nil => cases h; exact Nat.le_refl _
  | cons c cs ih =>
    simp only [steps] at h
    cases hs : d.step c with
    | none => rw [hs] at h; cases h
    | some d1 =>
      rw [hs] at h
      have h1 := ih h
      have h2 : d.subscribed.length ≤ d1.subscribed.length := by
        cases c <;> simp only [step] at hs
        case initReg => cases hs; exact Nat.le_refl _
        case create => split at hs <;> cases hs; exact Nat.le_refl _
        case subscribe => split at hs <;> cases hs; simp
        case watch => cases hs; exact Nat.le_refl _
        case fillMem => cases hs; exact Nat.le_refl _
        all_goals cases hs
      omega

theorem InitInv.steps {rand : Nat → Nat} {h0 h : H} {d d' : Done} {cs : List Cmd}
    (inv : InitInv rand h0 h d) (hc : d.steps cs = some d')
    (hb : h0.ps.count + d'.subscribed.length < 2 ^ 31) :
    ∃ h', h.cmds rand cs = some h' ∧ InitInv rand h0 h' d' := by
  induction cs generalizing h d with
  | nil => cases hc; exact ⟨h, rfl, inv⟩
  | cons c cs ih =>
    simp only [Done.steps] at hc
    cases hs : d.step c with
    | none => rw [hs] at hc; cases hc
    | some d1 =>
      rw [hs] at hc
      have hle := Done.steps_subscribed_le (d := d1) hc
      obtain ⟨h1, e1, inv1⟩ := inv.step hs (by omega)
      obtain ⟨h2, e2, inv2⟩ := ih inv1 hc
      exact ⟨h2, by simp only [H.cmds, e1, Option.bind_some, e2], inv2⟩

/-- What `init` has done when it returns. -/
def initDone : Done :=
  match (Done.steps ⟨[], [], [], [], false⟩ initCmds) with
  | some d => d
  | none => ⟨[], [], [], [], false⟩

theorem initDone_eq : Done.steps ⟨[], [], [], [], false⟩ initCmds = some initDone := by
  have : (Done.steps ⟨[], [], [], [], false⟩ initCmds).isSome = true := by decide +kernel
  unfold initDone
  cases h : Done.steps ⟨[], [], [], [], false⟩ initCmds with
  | none => rw [h] at this; cases this
  | some d => rfl

/-- Every slot. -/
def allSlots : List Slot :=
  [.memData, .memDir, .memControl, .mxdirPc, .mxdirSp, .mxdirHl, .mxdirFffc, .mxdirControl,
   .addsubDir, .addsubControl, .spDir, .spControl, .pcDir, .pcData, .pcControl, .hlData,
   .hlControl, .aluAcumm, .aluOp2, .aluControl, .acummData, .acummControl, .op2Data,
   .op2Control, .mxregJnr1, .mxregJnr2, .mxregControl, .gregData, .gregSelreg, .gregControl,
   .mxfldxData, .mxfldxControl, .mxfld7Alufc, .mxfld0Alufz, .flagsMx7, .flagsMx0,
   .flagsControl, .flagsintaFlags, .flagsintaControl, .cuData, .cuFlags, .cuControl,
   .seqJnrRi, .seqJnrFlags, .mxregJnrRi, .seqJoiner, .seqQ5, .seqQ4, .seqQ3, .seqQ2, .seqQ1,
   .seqQ0, .ffD5, .ffD4, .ffD3, .ffD2, .ffD1, .ffD0, .romQ5, .romQ4, .romQ3, .romQ2, .romQ1,
   .romQ0, .linkMemDir, .linkQ5, .linkQ4, .linkQ3, .linkQ2, .linkQ1, .linkQ0, .linkD5,
   .linkD4, .linkD3, .linkD2, .linkD1, .linkD0, .linkControl, .linkData]

theorem mem_allSlots (s : Slot) : s ∈ allSlots := by
  have h : ∀ n, n < 79 → Slot.ofNat n ∈ allSlots := by decide +kernel
  have e : Slot.ofNat s.ctorIdx = s := by cases s <;> rfl
  have l : s.ctorIdx < 79 := by cases s <;> exact Nat.le_of_ble_eq_true rfl
  rw [← e]
  exact h _ l

theorem initDone_subscribed (s : Slot) : s ∈ initDone.subscribed := by
  have h : ∀ s ∈ allSlots, s ∈ initDone.subscribed := by decide +kernel
  exact h s (mem_allSlots s)

theorem initDone_created (s : Slot) : s ∈ initDone.created := by
  have h : ∀ s ∈ allSlots, s ∈ initDone.created := by decide +kernel
  exact h s (mem_allSlots s)

theorem initDone_zeroed (r : Reg) : r ∈ initDone.zeroed := by
  cases r <;> decide +kernel

theorem initDone_filled : initDone.filled = true := by decide +kernel

theorem initDone_length : initDone.subscribed.length = 79 := by decide +kernel

/-- The watchers in the order `init` registers them. -/
def allWatchers : List Watcher :=
  [.sp, .pch, .pcl, .pc, .h, .l, .ac, .op2, .b, .c, .d, .e, .fc, .fz, .ri]

theorem initDone_watched : initDone.watched = allWatchers := by decide +kernel

/-- `init` from any good state: it succeeds and leaves all buses zero, all registers zero, the
memory filled and every register watched. -/
theorem init_live {h : H} (rand : Nat → Nat) (g : Good h) (hb : h.ps.count + 79 < 2 ^ 31) :
    ∃ h', h.cmds rand initCmds = some h' ∧ Live h' ∧
      (∀ s, ∃ a, h'.busPtr s = some a ∧ h'.ps.heap a = some ⟨0, 0⟩) ∧
      (∀ r, h'.regs r = 0) ∧ h'.mem = .live (fun i => randomInt (rand i.toNat)) ∧
      h'.watch = h.watch ++ allWatchers ∧ h'.ui = h.ui ∧ h'.clk = h.clk ∧ h'.log = h.log ∧
      h'.ps.count = h.ps.count + 79 := by
  have inv : InitInv rand h h ⟨[], [], [], [], false⟩ := by
    constructor <;> simp_all
  obtain ⟨h', e, inv'⟩ := inv.steps initDone_eq (by rw [initDone_length]; exact hb)
  refine ⟨h', e, ?_, fun s => inv'.created s (initDone_created s),
    fun r => inv'.regs r (initDone_zeroed r), inv'.mem initDone_filled, ?_, inv'.ui, inv'.clk,
    inv'.log, ?_⟩
  · refine ⟨inv'.good, ?_, ?_, ?_⟩
    · intro s
      obtain ⟨a, id, h1, h2, h3, h4⟩ := inv'.subscribed s (initDone_subscribed s)
      obtain ⟨a', g1, g2⟩ := inv'.created s (initDone_created s)
      rw [h1] at g1; cases g1
      exact ⟨a, _, id, h1, g2, h2, h3, h4⟩
    · intro s s' a
      exact inv'.inj s (initDone_created s) s' (initDone_created s') a
    · intro id hid s a sub e1 e2 e3
      exact (inv'.owner id hid s (initDone_created s) a sub e1 e2 e3).2
  · rw [inv'.watch, initDone_watched]
  · rw [inv'.count, initDone_length]

/-! ## Shutdown -/

/-- What has been undone so far by a shutdown. -/
structure Undone where
  unsubbed : List Slot
  destroyed : List Slot
  unwatched : List Watcher
  unfilled : Bool

def Undone.step (d : Undone) : Cmd → Option Undone
  | .unwatch r => some { d with unwatched := d.unwatched ++ [r] }
  | .unsub s => if s ∈ d.unsubbed then none else some { d with unsubbed := s :: d.unsubbed }
  | .destroy s =>
    if s ∈ d.unsubbed ∧ s ∉ d.destroyed then some { d with destroyed := s :: d.destroyed } else none
  | .unfillMem => if d.unfilled then none else some { d with unfilled := true }
  | _ => none

def Undone.steps (d : Undone) : List Cmd → Option Undone
  | [] => some d
  | c :: cs => (d.step c).bind fun d => d.steps cs

structure ShutInv (h0 h : H) (d : Undone) : Prop where
  good : Good h
  ptrs : h.busPtr = h0.busPtr ∧ h.subPtr = h0.subPtr
  count : h.ps.count = h0.ps.count
  inj : ∀ s s' a, h.busPtr s = some a → h.busPtr s' = some a → s = s'
  live : ∀ s, s ∉ d.destroyed → ∃ a b, h.busPtr s = some a ∧ h.ps.heap a = some b
  subbed : ∀ s, s ∉ d.unsubbed → ∃ a id, h.busPtr s = some a ∧ h.subPtr s = some id ∧
    h.ps.subs id = some ⟨s.topic, some a, true⟩ ∧ id ∈ h.ps.order
  unsubbed : ∀ s ∈ d.unsubbed, ∀ id ∈ h.ps.order, ∀ a sub, h.ps.subs id = some sub →
    sub.bus = some a → h.busPtr s ≠ some a
  owner : ∀ id ∈ h.ps.order, ∀ s a sub, h.ps.subs id = some sub → sub.bus = some a →
    h.busPtr s = some a → h.subPtr s = some id
  mem : if d.unfilled then h.mem = .freed else h.mem = h0.mem
  watch : h.watch = d.unwatched.foldl List.erase h0.watch
  regs : h.regs = h0.regs
  ui : h.ui = h0.ui
  clk : h.clk = h0.clk
  log : h.log = h0.log
  dead : ∀ s ∈ d.destroyed, ∃ a, h.busPtr s = some a ∧ h.ps.heap a = none

theorem ShutInv.step {rand : Nat → Nat} {h0 h : H} {d d' : Undone} {c : Cmd}
    (inv : ShutInv h0 h d) (hm : ∃ m, h0.mem = .live m) (hc : d.step c = some d') :
    ∃ h', h.cmd rand c = some h' ∧ ShutInv h0 h' d' := by
  cases c with
  | unwatch r =>
    cases hc
    refine ⟨_, rfl, ?_⟩
    exact {
      good := ⟨inv.good.heapB, inv.good.subsB, inv.good.order, inv.good.nodup, inv.good.mws⟩
      ptrs := inv.ptrs, count := inv.count, inj := inv.inj, live := inv.live, subbed := inv.subbed
      unsubbed := inv.unsubbed, owner := inv.owner, mem := inv.mem, regs := inv.regs, ui := inv.ui
      clk := inv.clk, log := inv.log, dead := inv.dead
      watch := by simp only [List.foldl_append, List.foldl_cons, List.foldl_nil, inv.watch] }
  | unfillMem =>
    simp only [Undone.step] at hc
    split at hc
    · cases hc
    · rename_i hf
      cases hc
      obtain ⟨m, hm⟩ := hm
      have hmem := inv.mem
      simp only [hf] at hmem
      refine ⟨{ h with mem := .freed }, ?_, ?_⟩
      · simp only [H.cmd]
        have hmem' : h.mem = .live m := by simpa [hm] using hmem
        rw [hmem']
      · exact {
          good := ⟨inv.good.heapB, inv.good.subsB, inv.good.order, inv.good.nodup, inv.good.mws⟩
          ptrs := inv.ptrs, count := inv.count, inj := inv.inj, live := inv.live
          subbed := inv.subbed, unsubbed := inv.unsubbed, owner := inv.owner, regs := inv.regs
          ui := inv.ui, clk := inv.clk, log := inv.log, dead := inv.dead, watch := inv.watch
          mem := by simp }
  | unsub s =>
    simp only [Undone.step] at hc
    split at hc
    · cases hc
    · rename_i hs
      cases hc
      obtain ⟨a, id, h1, h2, h3, h4⟩ := inv.subbed s hs
      have hne : h.ps.order ≠ [] := fun e => by rw [e] at h4; cases h4
      have hlt : ¬ id ≥ h.ps.count := fun e => by
        rw [inv.good.subsB id e] at h3; cases h3
      have hnot : id ∉ h.ps.order.erase id := fun e => by
        rw [List.Nodup.mem_erase_iff inv.good.nodup] at e; exact e.1 rfl
      have hsub : ∀ i, i ∈ h.ps.order.erase id → i ≠ id ∧ i ∈ h.ps.order := fun i hi =>
        (List.Nodup.mem_erase_iff inv.good.nodup).1 hi
      refine ⟨{ h with ps := { h.ps with
          subs := upd h.ps.subs id (some ⟨s.topic, some a, false⟩)
          order := h.ps.order.erase id } }, ?_, ?_⟩
      · simp only [H.cmd, PS.unsubscribe, h2, hne, if_false, h3, hlt, h4, if_true, Option.map_some]
      · exact {
          good := by
            refine ⟨inv.good.heapB, ?_, ?_, inv.good.nodup.erase _, inv.good.mws⟩
            · intro i hi
              simp only at hi ⊢
              rw [upd_ne _ _ (fun e : i = id => hlt (e ▸ hi))]
              exact inv.good.subsB i hi
            · intro i hi
              obtain ⟨n1, n2⟩ := hsub i hi
              obtain ⟨t, a', b, g1, g2⟩ := inv.good.order i n2
              exact ⟨t, a', b, by simp only; rw [upd_ne _ _ n1, g1], g2⟩
          ptrs := inv.ptrs, count := inv.count, inj := inv.inj, live := inv.live, regs := inv.regs
          ui := inv.ui, clk := inv.clk, log := inv.log, dead := inv.dead, watch := inv.watch, mem := inv.mem
          subbed := by
            intro s' hs'
            simp only [List.mem_cons, not_or] at hs'
            obtain ⟨a', id', g1, g2, g3, g4⟩ := inv.subbed s' hs'.2
            have : id' ≠ id := by
              intro e
              subst e
              rw [h3] at g3
              have e := congrArg Sub.bus (Option.some.inj g3)
              have e : some a = some a' := e
              rw [← e] at g1
              exact hs'.1 (inv.inj _ _ _ g1 h1)
            refine ⟨a', id', g1, g2, by simp only; rw [upd_ne _ _ this, g3], ?_⟩
            exact (List.Nodup.mem_erase_iff inv.good.nodup).2 ⟨this, g4⟩
          unsubbed := by
            intro s' hs' i hi a' sub e1 e2 e3
            obtain ⟨n1, n2⟩ := hsub i hi
            simp only at e1
            rw [upd_ne _ _ n1] at e1
            simp only [List.mem_cons] at hs'
            rcases hs' with rfl | hs'
            · have := inv.owner i n2 s' a' sub e1 e2 e3
              rw [h2] at this
              cases this
              exact n1 rfl
            · exact inv.unsubbed s' hs' i n2 a' sub e1 e2 e3
          owner := by
            intro i hi s' a' sub e1 e2 e3
            obtain ⟨n1, n2⟩ := hsub i hi
            simp only at e1
            rw [upd_ne _ _ n1] at e1
            exact inv.owner i n2 s' a' sub e1 e2 e3 }
  | destroy s =>
    simp only [Undone.step] at hc
    split at hc
    · rename_i hs
      cases hc
      obtain ⟨a, b, h1, h2⟩ := inv.live s hs.2
      refine ⟨{ h with ps := { h.ps with heap := upd h.ps.heap a none } }, ?_, ?_⟩
      · simp only [H.cmd, PS.destroyBus, h1, h2, Option.map_some]
      · exact {
          good := by
            refine ⟨?_, inv.good.subsB, ?_, inv.good.nodup, inv.good.mws⟩
            · intro i hi
              simp only [upd_apply]
              split
              · rfl
              · exact inv.good.heapB i hi
            · intro i hi
              obtain ⟨t, a', b', g1, g2⟩ := inv.good.order i hi
              refine ⟨t, a', b', g1, ?_⟩
              have : a' ≠ a := fun e => by
                subst e
                exact inv.unsubbed s hs.1 i hi a' _ g1 rfl h1
              simp only
              rw [upd_ne _ _ this, g2]
          ptrs := inv.ptrs, count := inv.count, inj := inv.inj, regs := inv.regs
          ui := inv.ui, clk := inv.clk, log := inv.log, watch := inv.watch, mem := inv.mem
          dead := by
            intro s' hs'
            simp only [List.mem_cons] at hs'
            rcases hs' with rfl | hs'
            · exact ⟨a, h1, upd_same _ _ _⟩
            · obtain ⟨a', g1, g2⟩ := inv.dead s' hs'
              refine ⟨a', g1, ?_⟩
              simp only [upd_apply]
              split
              · rfl
              · exact g2
          subbed := inv.subbed, unsubbed := inv.unsubbed, owner := inv.owner
          live := by
            intro s' hs'
            simp only [List.mem_cons, not_or] at hs'
            obtain ⟨a', b', g1, g2⟩ := inv.live s' hs'.2
            refine ⟨a', b', g1, ?_⟩
            have : a' ≠ a := fun e => by
              subst e
              exact hs'.1 (inv.inj _ _ _ g1 h1)
            simp only
            rw [upd_ne _ _ this, g2] }
    · cases hc
  | initReg r => cases hc
  | create s => cases hc
  | subscribe s t => cases hc
  | watch r => cases hc
  | fillMem => cases hc

theorem ShutInv.steps {rand : Nat → Nat} {h0 h : H} {d d' : Undone} {cs : List Cmd}
    (inv : ShutInv h0 h d) (hm : ∃ m, h0.mem = .live m) (hc : d.steps cs = some d') :
    ∃ h', h.cmds rand cs = some h' ∧ ShutInv h0 h' d' := by
  induction cs generalizing h d with
  | nil => cases hc; exact ⟨h, rfl, inv⟩
  | cons c cs ih =>
    simp only [Undone.steps] at hc
    cases hs : d.step c with
    | none => rw [hs] at hc; cases hc
    | some d1 =>
      rw [hs] at hc
      obtain ⟨h1, e1, inv1⟩ := inv.step (rand := rand) hm hs
      obtain ⟨h2, e2, inv2⟩ := ih inv1 hc
      exact ⟨h2, by simp only [H.cmds, e1, Option.bind_some, e2], inv2⟩

def shutDone : Undone :=
  match (Undone.steps ⟨[], [], [], false⟩ shutdownCmds) with
  | some d => d
  | none => ⟨[], [], [], false⟩

theorem shutDone_eq : Undone.steps ⟨[], [], [], false⟩ shutdownCmds = some shutDone := by
  have : (Undone.steps ⟨[], [], [], false⟩ shutdownCmds).isSome = true := by decide +kernel
  unfold shutDone
  cases h : Undone.steps ⟨[], [], [], false⟩ shutdownCmds with
  | none => rw [h] at this; cases this
  | some d => rfl

theorem shutDone_unwatched : shutDone.unwatched = allWatchers := by decide +kernel

theorem shutDone_unfilled : shutDone.unfilled = true := by decide +kernel

/-- `shutdown` frees every bus except the control bus of MXREG (`mxreg.c`). -/
theorem shutDone_destroyed (s : Slot) (hs : s ≠ .mxregControl) : s ∈ shutDone.destroyed := by
  have h : ∀ s ∈ allSlots, s ≠ .mxregControl → s ∈ shutDone.destroyed := by decide +kernel
  exact h s (mem_allSlots s) hs

theorem Live.shutInv {h : H} (l : Live h) : ShutInv h h ⟨[], [], [], false⟩ := {
  good := l.good, ptrs := ⟨rfl, rfl⟩, count := rfl, inj := l.inj
  live := fun s _ => by obtain ⟨a, b, id, h1, h2, _⟩ := l.slot s; exact ⟨a, b, h1, h2⟩
  subbed := fun s _ => by
    obtain ⟨a, b, id, h1, h2, h3, h4, h5⟩ := l.slot s; exact ⟨a, id, h1, h3, h4, h5⟩
  unsubbed := fun s hs => by cases hs
  owner := l.owner, mem := by simp, watch := rfl, regs := rfl, ui := rfl, clk := rfl, log := rfl
  dead := fun s hs => by cases hs }

/-- `shutdown` of a live machine succeeds and leaves a good state without memory. -/
theorem shutdown_good {h : H} (l : Live h) (hm : ∃ m, h.mem = .live m) :
    ∃ h', h.cmds (fun _ => 0) shutdownCmds = some h' ∧ Good h' ∧ h'.mem = .freed ∧
      h'.watch = allWatchers.foldl List.erase h.watch ∧ h'.regs = h.regs ∧ h'.ui = h.ui ∧
      h'.clk = h.clk ∧ h'.log = h.log ∧ h'.ps.count = h.ps.count := by
  obtain ⟨h', e, inv'⟩ := l.shutInv.steps hm shutDone_eq
  refine ⟨h', e, inv'.good, ?_, ?_, inv'.regs, inv'.ui, inv'.clk, inv'.log, inv'.count⟩
  · have := inv'.mem; rw [shutDone_unfilled] at this; simpa using this
  · rw [inv'.watch, shutDone_unwatched]

/-- After `shutdown` the bus pointers still point to the freed buses. -/
theorem shutdown_dead {h : H} (l : Live h) (hm : ∃ m, h.mem = .live m) :
    ∃ h', h.cmds (fun _ => 0) shutdownCmds = some h' ∧ Good h' ∧
      ∀ s, s ≠ .mxregControl → ∃ a, h'.busPtr s = some a ∧ h'.ps.heap a = none := by
  obtain ⟨h', e, inv'⟩ := l.shutInv.steps hm shutDone_eq
  exact ⟨h', e, inv'.good, fun s hs => inv'.dead s (shutDone_destroyed s hs)⟩

/-- Freeing a bus that has been freed is undefined, also after some unsubscriptions. -/
theorem cmds_dead {rand : Nat → Nat} {s : Slot} (ss : List Slot) (cs : List Cmd) {h : H} {a : Nat}
    (h1 : h.busPtr s = some a) (h2 : h.ps.heap a = none) :
    h.cmds rand (ss.map .unsub ++ .destroy s :: cs) = none := by
  induction ss generalizing h with
  | nil => simp only [List.map_nil, List.nil_append, H.cmds, H.cmd, PS.destroyBus, h1, h2,
      Option.map_none, Option.bind_none]
  | cons x ss ih =>
    simp only [List.map_cons, List.cons_append, H.cmds, H.cmd]
    cases e : h.ps.unsubscribe (h.subPtr x) with
    | none => rfl
    | some r =>
      have : r.2.heap = h.ps.heap := by
        unfold PS.unsubscribe at e
        repeat' split at e
        all_goals cases e
        all_goals rfl
      exact ih (h := { h with ps := r.2 }) h1 (by show r.2.heap a = none; rw [this, h2])

end Mpp
