import Verif.Machine
/-!
# C78: what the core allocates

The blocks that the core has allocated and not freed are the bus objects (`electronic/bus.c:37`), the
subscription objects (`pubsub.c:34`), the nodes of the list of subscriptions and the nodes of the list of watchers
(`linkedlist.c:7`). They are counted after every history of calls. (The array of `mem.c:39` is one
block for each `init`, freed by `shutdown`; the model has the array in use only.)
-/
namespace Mpp

/-- Exactly `n` places of a heap are allocated. -/
def Allocated {α : Type} (heap : Nat → Option α) (n : Nat) : Prop :=
  ∃ l : List Nat, l.Nodup ∧ (∀ a, a ∈ l ↔ (heap a).isSome = true) ∧ l.length = n

theorem Allocated.unique {α : Type} {heap : Nat → Option α} {m n : Nat} (h1 : Allocated heap m)
    (h2 : Allocated heap n) : m = n := by
  obtain ⟨l1, d1, e1, rfl⟩ := h1
  obtain ⟨l2, d2, e2, rfl⟩ := h2
  exact ((List.perm_ext_iff_of_nodup d1 d2).2 fun a => (e1 a).trans (e2 a).symm).length_eq

theorem Allocated.congr {α : Type} {heap heap' : Nat → Option α} {n : Nat} (h : Allocated heap n)
    (e : ∀ a, (heap' a).isSome = (heap a).isSome) : Allocated heap' n := by
  obtain ⟨l, d, m, ln⟩ := h
  exact ⟨l, d, fun a => by rw [m a, e a], ln⟩

/-- Allocating a block. -/
theorem Allocated.alloc {α : Type} {heap : Nat → Option α} {n a : Nat} (h : Allocated heap n) (x : α)
    (ha : heap a = none) : Allocated (upd heap a (some x)) (n + 1) := by
  obtain ⟨l, d, m, ln⟩ := h
  have hn : a ∉ l := fun e => by rw [m a, ha] at e; cases e
  refine ⟨a :: l, List.nodup_cons.2 ⟨hn, d⟩, fun b => ?_, by rw [List.length_cons, ln]⟩
  by_cases e : b = a
  · subst e; simp
  · rw [List.mem_cons, upd_ne _ _ e, m b]; simp [e]

/-- Freeing a block. -/
theorem Allocated.free {α : Type} {heap : Nat → Option α} {n a : Nat} {x : α} (h : Allocated heap n)
    (ha : heap a = some x) : ∃ k, n = k + 1 ∧ Allocated (upd heap a none) k := by
  obtain ⟨l, d, m, ln⟩ := h
  have hn : a ∈ l := by rw [m a, ha]; rfl
  have hl : (l.erase a).length = l.length - 1 := List.length_erase_of_mem hn
  have hp : 0 < l.length := List.length_pos_of_mem hn
  refine ⟨l.length - 1, by omega, l.erase a, d.erase _, fun b => ?_, hl⟩
  rw [List.Nodup.mem_erase_iff d]
  by_cases e : b = a
  · subst e; simp
  · rw [upd_ne _ _ e, m b]; simp [e]

/-! ## Calls that neither start nor stop the machine -/

/-- `h'` has the blocks of `h`. -/
structure SameBlocks (h h' : H) : Prop where
  heap : ∀ a, (h'.ps.heap a).isSome = (h.ps.heap a).isSome
  brk : h'.ps.brk = h.ps.brk
  subs : h'.ps.subs = h.ps.subs
  count : h'.ps.count = h.ps.count
  order : h'.ps.order = h.ps.order
  mws : h'.ps.mws = h.ps.mws
  watch : h'.watch = h.watch
  busPtr : h'.busPtr = h.busPtr
  subPtr : h'.subPtr = h.subPtr

theorem SameBlocks.refl (h : H) : SameBlocks h h :=
  ⟨fun _ => rfl, rfl, rfl, rfl, rfl, rfl, rfl, rfl, rfl⟩

theorem SameBlocks.trans {h1 h2 h3 : H} (a : SameBlocks h1 h2) (b : SameBlocks h2 h3) :
    SameBlocks h1 h3 :=
  ⟨fun x => (b.heap x).trans (a.heap x), b.brk.trans a.brk, b.subs.trans a.subs,
    b.count.trans a.count, b.order.trans a.order, b.mws.trans a.mws, b.watch.trans a.watch,
    b.busPtr.trans a.busPtr, b.subPtr.trans a.subPtr⟩

theorem deliver_blocks (subs : Nat → Option Sub) (t : Topic) (w : W) (ids : List Nat)
    {heap heap' : Nat → Option Bus} {sent n : Nat}
    (e : PS.deliver subs t w ids heap sent = some (n, heap')) (a : Nat) :
    (heap' a).isSome = (heap a).isSome := by
  induction ids generalizing heap sent with
  | nil => cases e; rfl
  | cons id ids ih =>
    simp only [PS.deliver] at e
    repeat' split at e
    all_goals first | cases e | skip
    · exact ih e
    · exact ih e
    · rename_i x _ _ b hb
      rw [ih e]
      by_cases hx : a = x
      · subst hx; simp [hb]
      · rw [upd_ne _ _ hx]

theorem handle_blocks (o : Op) {h h' : H} {v : o.ret} (e : H.handle o h = some (v, h')) :
    SameBlocks h h' := by
  cases o with
  | upd s =>
    simp only [H.handle, PS.updateBus] at e
    cases hp : h.busPtr s with
    | none => rw [hp] at e; cases e
    | some a =>
      cases hb : h.ps.heap a with
      | none => simp only [hp, hb] at e; cases e
      | some b =>
        simp only [hp, hb, Option.map_some] at e
        cases e
        refine ⟨fun x => ?_, rfl, rfl, rfl, rfl, rfl, rfl, rfl, rfl⟩
        by_cases hx : x = a
        · subst hx; simp [hb]
        · simp only [upd_ne _ _ hx]
  | cur s =>
    simp only [H.handle] at e
    cases hb : h.ps.deref (h.busPtr s) with
    | none => rw [hb] at e; cases e
    | some b => rw [hb] at e; cases e; exact .refl _
  | nxt s =>
    simp only [H.handle] at e
    cases hb : h.ps.deref (h.busPtr s) with
    | none => rw [hb] at e; cases e
    | some b => rw [hb] at e; cases e; exact .refl _
  | pub t w =>
    simp only [H.handle, PS.publish] at e
    split at e
    · cases hd : PS.deliver h.ps.subs t w h.ps.order h.ps.heap 0 with
      | none => rw [hd] at e; cases e
      | some r =>
        rw [hd] at e
        cases e
        exact ⟨fun x => deliver_blocks _ _ _ _ hd x, rfl, rfl, rfl, rfl, rfl, rfl, rfl, rfl⟩
    · cases e; exact .refl _
  | getReg r => cases e; exact .refl _
  | setReg r w => cases e; exact ⟨fun _ => rfl, rfl, rfl, rfl, rfl, rfl, rfl, rfl, rfl⟩
  | memGet i =>
    simp only [H.handle] at e
    split at e <;> cases e
    exact .refl _
  | memSet i v =>
    simp only [H.handle] at e
    split at e <;> cases e
    exact ⟨fun _ => rfl, rfl, rfl, rfl, rfl, rfl, rfl, rfl, rfl⟩
  | err x => cases e; exact ⟨fun _ => rfl, rfl, rfl, rfl, rfl, rfl, rfl, rfl, rfl⟩
  | ub => cases e

theorem run_blocks {α : Type} (p : Prog α) {h h' : H} {v : α} (e : H.run p h = some (v, h')) :
    SameBlocks h h' := by
  induction p generalizing h with
  | pure a => cases e; exact .refl _
  | op o k ih =>
    simp only [H.run, Prog.run] at e
    cases hr : H.handle o h with
    | none => rw [hr] at e; cases e
    | some r =>
      rw [hr] at e
      exact (handle_blocks o hr).trans (ih r.1 e)

theorem clockLoop_blocks (n : Nat) {h h' : H} (e : clockLoop n h = some h') : SameBlocks h h' := by
  induction n generalizing h with
  | zero => cases e
  | succ n ih =>
    simp only [clockLoop] at e
    have s0 : SameBlocks h { h with clk := !h.clk } :=
      ⟨fun _ => rfl, rfl, rfl, rfl, rfl, rfl, rfl, rfl, rfl⟩
    cases hr : H.run (runCu !h.clk) { h with clk := !h.clk } with
    | none => rw [hr] at e; cases e
    | some r =>
      rw [hr] at e
      simp only at e
      split at e
      · cases e; exact s0.trans (run_blocks _ hr)
      · exact (s0.trans (run_blocks _ hr)).trans (ih e)

theorem callUi_eq {h h' : H} (e : h.callUi = some h') : h' = h := by
  unfold H.callUi at e
  split at e <;> cases e
  rfl

/-- The call is `init`. -/
def Call.starts : Call → Bool
  | .init _ => true
  | _ => false

/-- The call is `shutdown`. -/
def Call.stops : Call → Bool
  | .shutdown => true
  | _ => false

/-- C78: a call other than `init` and `shutdown` allocates nothing and frees nothing, in whatever
state it is made. -/
theorem C78_call (c : Call) (h1 : c.starts = false) (h2 : c.stops = false) {h h' : H} {v : CInt}
    (e : exec c h = some (v, h')) :
    (∀ a, (h'.ps.heap a).isSome = (h.ps.heap a).isSome) ∧ h'.ps.subs = h.ps.subs ∧
      h'.ps.order = h.ps.order ∧ h'.watch = h.watch := by
  suffices s : SameBlocks h h' from ⟨s.heap, s.subs, s.order, s.watch⟩
  cases c with
  | init r => cases h1
  | shutdown => cases h2
  | setUpdateUi b => cases e; exact ⟨fun _ => rfl, rfl, rfl, rfl, rfl, rfl, rfl, rfl, rfl⟩
  | runClockCycle u =>
    simp only [exec] at e
    cases hr : clockLoop 2 h with
    | none => rw [hr] at e; cases e
    | some x =>
      rw [hr] at e
      simp only [Option.bind_some] at e
      split at e
      · cases hu : x.callUi with
        | none => rw [hu] at e; cases e
        | some y => rw [hu] at e; cases e; rw [callUi_eq hu]; exact clockLoop_blocks _ hr
      · cases e; exact clockLoop_blocks _ hr
  | resetControl =>
    simp only [exec] at e
    cases hr : H.run Mpp.resetControl h with
    | none => rw [hr] at e; cases e
    | some x => rw [hr] at e; cases e; exact run_blocks _ hr
  | setMemoryValue offset value =>
    simp only [exec] at e
    split at e
    · cases e
    · cases hr : h.handle (.memSet ‹_› value) with
      | none => rw [hr] at e; cases e
      | some x =>
        rw [hr] at e
        simp only [Option.bind_some] at e
        cases hu : x.2.callUi with
        | none => rw [hu] at e; cases e
        | some y => rw [hu] at e; cases e; rw [callUi_eq hu]; exact handle_blocks _ hr
  | setRegisterPc value =>
    simp only [exec] at e
    split at e
    · cases e
    · rename_i r _
      cases hr : H.run (do setReg r value; publish .pcOut (← Mpp.getReg r)) h with
      | none => rw [hr] at e; cases e
      | some x =>
        rw [hr] at e
        simp only [Option.bind_some] at e
        cases hu : x.2.callUi with
        | none => rw [hu] at e; cases e
        | some y => rw [hu] at e; cases e; rw [callUi_eq hu]; exact run_blocks _ hr
  | getRegisterValue t =>
    simp only [exec] at e
    split at e
    · cases e
    · exact run_blocks _ e
  | getMemoryValue offset =>
    simp only [exec] at e
    split at e
    · cases e; exact .refl _
    · exact run_blocks _ e
  | getMemorySize => cases e; exact .refl _
  | getMemoryValueSizeBits => cases e; exact .refl _
  | getState => exact run_blocks _ e
  | getNextState => exact run_blocks _ e
  | getDataBus => exact run_blocks _ e
  | getMemoryDirBus => exact run_blocks _ e
  | getControlBit k => exact run_blocks _ e
  | getControlSelalu => exact run_blocks _ e

/-! ## `init` and `shutdown` -/

theorem init_blocks {rand : Nat → Nat} {h0 h h' : H} {d d' : Done} {cs : List Cmd}
    (inv : InitInv rand h0 h d) (hc : d.steps cs = some d')
    (hb : h0.ps.count + d'.subscribed.length < 2 ^ 31) (e : h.cmds rand cs = some h') (n : Nat)
    (hn : Allocated h.ps.heap n) : ∃ k, Allocated h'.ps.heap k ∧
      k + d.created.length = n + d'.created.length ∧
      h'.ps.order.length + d.subscribed.length = h.ps.order.length + d'.subscribed.length := by
  induction cs generalizing h d n with
  | nil => cases hc; cases e; exact ⟨n, hn, rfl, rfl⟩
  | cons c cs ih =>
    simp only [Done.steps] at hc
    cases hs : d.step c with
    | none => rw [hs] at hc; cases hc
    | some d1 =>
      rw [hs] at hc
      have hle := Done.steps_subscribed_le (d := d1) hc
      obtain ⟨h1, e1, inv1⟩ := inv.step hs (by omega)
      simp only [H.cmds, e1, Option.bind_some] at e
      have step : ∃ m, Allocated h1.ps.heap m ∧ m + d.created.length = n + d1.created.length ∧
          h1.ps.order.length + d.subscribed.length = h.ps.order.length + d1.subscribed.length := by
        cases c with
        | initReg r => cases hs; cases e1; exact ⟨n, hn, rfl, rfl⟩
        | watch r => cases hs; cases e1; exact ⟨n, hn, rfl, rfl⟩
        | fillMem => cases hs; cases e1; exact ⟨n, hn, rfl, rfl⟩
        | unwatch r => cases hs
        | unsub s => cases hs
        | destroy s => cases hs
        | unfillMem => cases hs
        | create s =>
          simp only [Done.step] at hs
          split at hs <;> cases hs
          cases e1
          exact ⟨n + 1, hn.alloc _ (inv.good.heapB _ (Nat.le_refl _)), by simp only [List.length_cons]; omega,
            rfl⟩
        | subscribe s t =>
          simp only [Done.step] at hs
          split at hs <;> cases hs
          simp only [H.cmd, PS.subscribe] at e1
          split at e1 <;> cases e1
          exact ⟨n, hn, rfl, by simp only [List.length_append, List.length_cons, List.length_nil]; omega⟩
      obtain ⟨m, a1, a2, a3⟩ := step
      obtain ⟨k, b1, b2, b3⟩ := ih inv1 hc e m a1
      exact ⟨k, b1, by omega, by omega⟩

theorem shut_blocks {rand : Nat → Nat} {h0 h h' : H} {d d' : Undone} {cs : List Cmd}
    (inv : ShutInv h0 h d) (hm : ∃ m, h0.mem = .live m) (hc : d.steps cs = some d')
    (e : h.cmds rand cs = some h') (n : Nat)
    (hn : Allocated h.ps.heap n) : ∃ k, Allocated h'.ps.heap k ∧
      k + d'.destroyed.length = n + d.destroyed.length ∧
      h'.ps.order.length + d'.unsubbed.length = h.ps.order.length + d.unsubbed.length := by
  induction cs generalizing h d n with
  | nil => cases hc; cases e; exact ⟨n, hn, rfl, rfl⟩
  | cons c cs ih =>
    simp only [Undone.steps] at hc
    cases hs : d.step c with
    | none => rw [hs] at hc; cases hc
    | some d1 =>
      rw [hs] at hc
      obtain ⟨h1, e1, inv1⟩ := inv.step (rand := rand) hm hs
      simp only [H.cmds, e1, Option.bind_some] at e
      have step : ∃ m, Allocated h1.ps.heap m ∧ m + d1.destroyed.length = n + d.destroyed.length ∧
          h1.ps.order.length + d1.unsubbed.length = h.ps.order.length + d.unsubbed.length := by
        cases c with
        | initReg r => cases hs
        | watch r => cases hs
        | fillMem => cases hs
        | create s => cases hs
        | subscribe s t => cases hs
        | unwatch r => cases hs; cases e1; exact ⟨n, hn, rfl, rfl⟩
        | unfillMem =>
          simp only [Undone.step] at hs
          split at hs <;> cases hs
          simp only [H.cmd] at e1
          split at e1 <;> cases e1
          · exact ⟨n, hn, rfl, rfl⟩
          · exact ⟨n, hn, rfl, rfl⟩
        | destroy s =>
          simp only [Undone.step] at hs
          split at hs
          · rename_i hh
            cases hs
            obtain ⟨a, b, p1, p2⟩ := inv.live s hh.2
            simp only [H.cmd, PS.destroyBus, p1, p2, Option.map_some] at e1
            cases e1
            obtain ⟨k, hk, ak⟩ := hn.free p2
            exact ⟨k, ak, by simp only [List.length_cons]; omega, rfl⟩
          · cases hs
        | unsub s =>
          simp only [Undone.step] at hs
          split at hs
          · cases hs
          · rename_i hh
            cases hs
            obtain ⟨a, id, p1, p2, p3, p4⟩ := inv.subbed s hh
            have hne : h.ps.order ≠ [] := fun e => by rw [e] at p4; cases p4
            have hlt : ¬ id ≥ h.ps.count := fun e => by
              rw [inv.good.subsB id e] at p3; cases p3
            simp only [H.cmd, PS.unsubscribe, p2, hne, if_false, p3, hlt, p4, if_true,
              Option.map_some] at e1
            cases e1
            have h1 := List.length_erase_of_mem p4
            have h2 := List.length_pos_of_mem p4
            exact ⟨n, hn, rfl, by simp only [List.length_cons, h1]; omega⟩
      obtain ⟨m, a1, a2, a3⟩ := step
      obtain ⟨k, b1, b2, b3⟩ := ih inv1 hc e m a1
      exact ⟨k, b1, by omega, by omega⟩

theorem initDone_created_length : initDone.created.length = 79 := by decide +kernel
theorem shutDone_destroyed_length : shutDone.destroyed.length = 78 := by decide +kernel
theorem shutDone_unsubbed_length : shutDone.unsubbed.length = 78 := by decide +kernel

/-! ## Histories -/

/-- How many calls of a history are `init`. -/
def inits (cs : List Call) : Nat := cs.countP Call.starts

/-- How many calls of a history are `shutdown`. -/
def shutdowns (cs : List Call) : Nat := cs.countP Call.stops

theorem many_length (n : Nat) : (many n).length = 15 * n := by
  induction n with
  | zero => rfl
  | succ n ih =>
    rw [many_succ, List.length_append, ih]
    have : allWatchers.length = 15 := rfl
    omega

/-- The subscription objects are those with the ids given so far. -/
def SubsUsed (h : H) : Prop := ∀ i, (h.ps.subs i).isSome = decide (i < h.ps.count)

theorem cmd_subs {rand : Nat → Nat} {h h' : H} {c : Cmd} (u : SubsUsed h)
    (e : h.cmd rand c = some h') : SubsUsed h' := by
  cases c with
  | initReg r => cases e; exact u
  | watch r => cases e; exact u
  | fillMem => cases e; exact u
  | create s => cases e; exact u
  | unwatch r => cases e; exact u
  | unfillMem =>
    simp only [H.cmd] at e
    split at e <;> cases e
    · exact u
    · exact u
  | destroy s =>
    simp only [H.cmd, PS.destroyBus] at e
    repeat' split at e
    all_goals cases e
    · exact u
    · exact u
  | subscribe s t =>
    simp only [H.cmd, PS.subscribe] at e
    split at e <;> cases e
    intro i
    by_cases hi : i = h.ps.count
    · subst hi; simp
    · simp only [upd_ne _ _ hi]
      rw [u i]
      exact decide_eq_decide.2 (by omega)
  | unsub s =>
    simp only [H.cmd, PS.unsubscribe] at e
    repeat' split at e
    all_goals cases e
    · exact u
    · exact u
    · exact u
    · rename_i id _ _ _ x hx _ _
      intro i
      by_cases hi : i = id
      · subst hi; have := u i; rw [hx] at this; simpa using this
      · simp only [upd_ne _ _ hi]; exact u i
    · rename_i id _ _ _ x hx _ _
      intro i
      by_cases hi : i = id
      · subst hi; have := u i; rw [hx] at this; simpa using this
      · simp only [upd_ne _ _ hi]; exact u i

theorem cmds_subs {rand : Nat → Nat} {h h' : H} {cs : List Cmd} (u : SubsUsed h)
    (e : h.cmds rand cs = some h') : SubsUsed h' := by
  induction cs generalizing h with
  | nil => cases e; exact u
  | cons c cs ih =>
    simp only [H.cmds] at e
    cases hc : h.cmd rand c with
    | none => rw [hc] at e; cases e
    | some h1 => rw [hc] at e; exact ih (cmd_subs u hc) e

theorem SubsUsed.allocated {h : H} (u : SubsUsed h) : Allocated h.ps.subs h.ps.count :=
  ⟨List.range h.ps.count, List.nodup_range, fun a => by rw [u a, List.mem_range, decide_eq_true_iff],
    List.length_range⟩

/-- The counts of blocks after a history, with `i` starts and `s` stops. -/
structure Blocks (h : H) (i s : Nat) : Prop where
  buses : Allocated h.ps.heap (79 * i - 78 * s)
  nodes : h.ps.order.length = 79 * i - 78 * s
  subs : SubsUsed h

theorem Blocks.call {p : Phase} {h h' : H} {c : Call} {v : CInt} {s : Nat} (i : Inv p h)
    (b : Blocks h p.inits s) (hp : p.pending + s = p.inits) (hc : c.Allowed p)
    (e : exec c h = some (v, h')) :
    Blocks h' (c.after p).inits (s + if c.stops then 1 else 0) ∧
      (c.after p).pending + (s + if c.stops then 1 else 0) = (c.after p).inits := by
  by_cases h1 : c.starts = true
  · cases c <;> first | cases h1 | skip
    rename_i rand
    have hc : p.inits < 27183337 := hc
    have hcount : h.ps.count + 79 < 2 ^ 31 := by rw [i.count]; omega
    have inv : InitInv rand h h ⟨[], [], [], [], false⟩ := by
      have := i.any.good
      constructor <;> simp_all
    simp only [exec] at e
    cases hr : h.cmds rand initCmds with
    | none => rw [hr] at e; cases e
    | some x =>
      rw [hr] at e
      cases e
      obtain ⟨k, b1, b2, b3⟩ := init_blocks inv initDone_eq (by rw [initDone_length]; exact hcount) hr _ b.buses
      rw [initDone_created_length] at b2
      rw [initDone_length] at b3
      have hk : k = 79 * (p.inits + 1) - 78 * s := by simp only [List.length_nil] at b2; omega
      subst hk
      refine ⟨⟨b1, ?_, cmds_subs b.subs hr⟩, ?_⟩
      · have := b.nodes
        simp only [List.length_nil, Call.after, Call.stops] at b3 ⊢
        simp only [Bool.false_eq_true, if_false]
        omega
      · simp only [Call.after, Call.stops, Bool.false_eq_true, if_false]
        omega
  · by_cases h2 : c.stops = true
    · cases c <;> first | cases h2 | skip
      have hp1 := i.pending hc
      obtain ⟨a, o⟩ := i.on hc
      obtain ⟨cur, r⟩ := o.rep
      simp only [exec] at e
      cases hr : h.cmds (fun _ => 0) shutdownCmds with
      | none => rw [hr] at e; cases e
      | some x =>
        rw [hr] at e
        cases e
        obtain ⟨k, b1, b2, b3⟩ := shut_blocks r.live.shutInv ⟨_, r.mem⟩ shutDone_eq hr _ b.buses
        rw [shutDone_destroyed_length] at b2
        rw [shutDone_unsubbed_length] at b3
        have hk : k = 79 * p.inits - 78 * (s + 1) := by simp only [List.length_nil] at b2; omega
        subst hk
        refine ⟨⟨b1, ?_, cmds_subs b.subs hr⟩, ?_⟩
        · have := b.nodes
          simp only [List.length_nil, Call.after, Call.stops] at b3 ⊢
          simp only [if_true]
          omega
        · simp only [Call.after, Call.stops, if_true]
          omega
    · have h1 : c.starts = false := by simpa using h1
      have h2 : c.stops = false := by simpa using h2
      have hs := C78_call c h1 h2 e
      have hcnt : h'.ps.count = h.ps.count := by
        obtain ⟨v', h'', e', i'⟩ := i.call c hc
        rw [e] at e'
        cases e'
        rw [i'.count, i.count]
        cases c <;> first | rfl | (cases h1; done)
      have hq : (c.after p).inits = p.inits ∧ (c.after p).pending = p.pending := by
        cases c <;> first | exact ⟨rfl, rfl⟩ | (cases h2; done) | (cases h1; done)
      rw [h2, hq.1, hq.2]
      refine ⟨⟨b.buses.congr hs.1, by rw [hs.2.2.1]; exact b.nodes, ?_⟩, hp⟩
      intro j
      rw [hs.2.1, hcnt]
      exact b.subs j

theorem Blocks.calls {p p' : Phase} {h h' : H} {cs : List Call} {vs : List CInt} {s : Nat}
    (i : Inv p h) (b : Blocks h p.inits s) (hp : p.pending + s = p.inits) (hl : Legal p cs p')
    (e : execAll cs h = some (vs, h')) :
    Blocks h' p'.inits (s + shutdowns cs) ∧ p'.pending + (s + shutdowns cs) = p'.inits ∧
      p'.inits = p.inits + inits cs ∧ Inv p' h' := by
  induction cs generalizing p h s vs with
  | nil => cases hl; cases e; exact ⟨b, hp, rfl, i⟩
  | cons c cs ih =>
    simp only [execAll] at e
    cases hc : exec c h with
    | none => rw [hc] at e; cases e
    | some r =>
      rw [hc, Option.bind_some] at e
      cases hr : execAll cs r.2 with
      | none => rw [hr] at e; cases e
      | some q =>
        rw [hr] at e
        cases e
        obtain ⟨v', h1, e1, i1⟩ := i.call c hl.1
        rw [hc] at e1
        cases e1
        obtain ⟨b1, p1⟩ := b.call i hp hl.1 hc
        obtain ⟨x1, x2, x3, x4⟩ := ih i1 b1 p1 hl.2 hr
        have hsd : shutdowns (c :: cs) = (if c.stops then 1 else 0) + shutdowns cs := by
          simp only [shutdowns, List.countP_cons]; omega
        have hin : inits (c :: cs) = (if c.starts then 1 else 0) + inits cs := by
          simp only [inits, List.countP_cons]; omega
        have hst : (c.after p).inits = p.inits + if c.starts then 1 else 0 := by
          cases c <;> rfl
        refine ⟨?_, ?_, ?_, x4⟩
        · rw [hsd, ← Nat.add_assoc]; exact x1
        · rw [hsd]; omega
        · rw [x3, hst, hin]; omega

/-- C78: after every history of calls that respects the lifecycle, with `i` calls of `init` and `s` calls of
`shutdown`, exactly `79 * i - 78 * s` bus objects are allocated, the list of subscriptions has as
many nodes, `79 * i` subscription objects are allocated and the list of watchers has `15 * (i - s)` nodes. Nothing
else that the calls did has an influence on it. -/
theorem C78_history {p : Phase} {h : H} {cs : List Call} {vs : List CInt}
    (hl : Legal Phase.start cs p) (e : execAll cs H.start = some (vs, h)) :
    shutdowns cs ≤ inits cs ∧ Allocated h.ps.heap (79 * inits cs - 78 * shutdowns cs) ∧
      h.ps.order.length = 79 * inits cs - 78 * shutdowns cs ∧
      Allocated h.ps.subs (79 * inits cs) ∧
      h.watch.length = 15 * (inits cs - shutdowns cs) := by
  have b0 : Blocks H.start Phase.start.inits 0 :=
    ⟨⟨[], List.nodup_nil, fun a => by simp [H.start, PS.empty], rfl⟩, rfl,
      fun i => by simp [H.start, PS.empty]⟩
  obtain ⟨b, hp, hi, inv⟩ := b0.calls Inv.start rfl hl e
  rw [Nat.zero_add] at b hp
  have hi : p.inits = inits cs := by rw [hi]; simp [Phase.start]
  rw [hi] at b hp
  refine ⟨by omega, b.buses, b.nodes, ?_, ?_⟩
  · have := b.subs.allocated
    rw [inv.count, hi] at this
    exact this
  · rw [inv.watch, many_length]
    congr 1
    omega

/-- C78: after as many calls of `shutdown` as of `init` one bus, one node and 79 subscription objects for each of
them are left. -/
theorem C78_leak {p : Phase} {h : H} {cs : List Call} {vs : List CInt}
    (hl : Legal Phase.start cs p) (e : execAll cs H.start = some (vs, h))
    (hn : shutdowns cs = inits cs) :
    Allocated h.ps.heap (inits cs) ∧ h.ps.order.length = inits cs ∧
      Allocated h.ps.subs (79 * inits cs) ∧ h.watch = [] := by
  obtain ⟨_, h1, h2, h3, h4⟩ := C78_history hl e
  have : 79 * inits cs - 78 * shutdowns cs = inits cs := by omega
  rw [this] at h1 h2
  exact ⟨h1, h2, h3, List.length_eq_zero_iff.1 (by rw [h4, hn, Nat.sub_self])⟩

/-- A history with a run: it ends, and `C78_history` gives 79, 79, 79 and 15. -/
example : ∃ vs h, execAll [.init fun _ => 0, .runClockCycle false, .runClockCycle false] H.start =
    some (vs, h) ∧ Allocated h.ps.heap 79 ∧ h.ps.order.length = 79 ∧ h.watch.length = 15 := by
  have hl : Legal Phase.start [.init fun _ => 0, .runClockCycle false, .runClockCycle false]
      ⟨true, false, 1, 1⟩ :=
    ⟨show 0 < 27183337 by decide, ⟨rfl, fun e => by cases e⟩, ⟨rfl, fun e => by cases e⟩, rfl⟩
  obtain ⟨vs, h, e, _⟩ := Inv.start.calls _ hl
  obtain ⟨_, h1, h2, _, h3⟩ := C78_history hl e
  exact ⟨vs, h, e, h1, h2, h3⟩

/-- The same after two machines one after the other: two buses are left. -/
example : ∃ vs h, execAll [.init fun _ => 0, .shutdown, .init fun _ => 7, .runClockCycle false,
      .shutdown] H.start = some (vs, h) ∧ Allocated h.ps.heap 2 ∧ Allocated h.ps.subs 158 := by
  have hl : Legal Phase.start [.init fun _ => 0, .shutdown, .init fun _ => 7, .runClockCycle false,
      .shutdown] ⟨false, false, 2, 0⟩ :=
    ⟨show 0 < 27183337 by decide, rfl, show 1 < 27183337 by decide, ⟨rfl, fun e => by cases e⟩, rfl, rfl⟩
  obtain ⟨vs, h, e, _⟩ := Inv.start.calls _ hl
  obtain ⟨h1, _, h3, _⟩ := C78_leak hl e rfl
  exact ⟨vs, h, e, h1, h3⟩

end Mpp
