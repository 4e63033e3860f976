import Verif.OutOfMemory
import Verif.RunSim
import Verif.History

/-! # C96: what happens when memory runs out -/

namespace Mpp

deriving instance DecidableEq for Cmd

/-! ## Nothing fails -/

theorem cmdsMem_enough {alloc : Nat → Bool} {rand : Nat → Nat} (cs : List Cmd) (k : Nat) (h : H)
    (ha : ∀ i, i < (cs.map Cmd.blocks).sum → alloc (k + i) = true) :
    H.cmdsMem alloc rand cs k h = (h.cmds rand cs).map fun h' => (k + (cs.map Cmd.blocks).sum, h') := by
  induction cs generalizing k h with
  | nil => rfl
  | cons c cs ih =>
    simp only [List.map_cons, List.sum_cons] at ha ⊢
    have step : h.cmdMem alloc rand c k = (h.cmd rand c).map fun h' => (k + c.blocks, h') := by
      cases c with
      | subscribe s t =>
        have a0 : alloc k = true := ha 0 (by simp only [Cmd.blocks]; omega)
        have a1 : alloc (k + 1) = true := ha 1 (by simp only [Cmd.blocks]; omega)
        simp only [H.cmdMem, a0, a1, if_true, Cmd.blocks]
      | fillMem | create | watch =>
        have a0 : alloc k = true := ha 0 (by simp only [Cmd.blocks]; omega)
        simp only [H.cmdMem, a0, if_true, Cmd.blocks]
      | _ => simp only [H.cmdMem, Cmd.blocks, Nat.add_zero]
    simp only [H.cmdsMem, H.cmds, step]
    cases h.cmd rand c with
    | none => rfl
    | some h1 =>
      simp only [Option.map_some, Option.bind_some]
      rw [ih (k + c.blocks) h1 fun i hi => by
        rw [Nat.add_assoc]; exact ha _ (by omega)]
      simp only [Nat.add_assoc]

theorem init_asksFor : (initCmds.map Cmd.blocks).sum = 253 := by decide +kernel

/-- **C96.** `init` asks for 253 blocks; if it gets them it does what `init` does. -/
theorem C96_enough (alloc : Nat → Bool) (ha : ∀ i, i < 253 → alloc i = true) {ph : Phase} {h : H}
    (r : Reach ph h) (hi : ph.inits < 27183337) (rand : Nat → Nat) :
    ∃ h', exec (.init rand) h = some (0, h') ∧ h.initMem alloc rand = some (253, h') := by
  obtain ⟨v, h', e, _⟩ := r.inv.call (.init rand) hi
  unfold H.initMem
  rw [cmdsMem_enough initCmds 0 h (by rw [init_asksFor]; intro i hi; rw [Nat.zero_add]; exact ha i hi),
    init_asksFor]
  simp only [exec] at e ⊢
  obtain ⟨h1, e1, e2⟩ := Option.map_eq_some_iff.1 e
  cases e2
  exact ⟨h', by rw [e1]; rfl, by rw [e1]; rfl⟩

/-! ## Something fails -/

/-- The variables that a list of statements subscribes. -/
def subscribed : List Cmd → List Slot
  | [] => []
  | .subscribe s _ :: cs => s :: subscribed cs
  | _ :: cs => subscribed cs

/-- The statements, but those in `lost` are not subscribed: their variables become NULL. -/
def H.cmdsBut (rand : Nat → Nat) (lost : List Slot) : List Cmd → H → Option H
  | [], h => some h
  | .subscribe s t :: cs, h =>
    if s ∈ lost then H.cmdsBut rand lost cs { h with subPtr := upd h.subPtr s none }
    else (h.cmd rand (.subscribe s t)).bind (H.cmdsBut rand lost cs)
  | c :: cs, h => (h.cmd rand c).bind (H.cmdsBut rand lost cs)

theorem Cmd.subscribe_or (c : Cmd) : (∀ s t, c ≠ .subscribe s t) ∨ ∃ s t, c = .subscribe s t := by
  cases c <;> first
    | exact .inr ⟨_, _, rfl⟩
    | exact .inl (by intro _ _ e; cases e)

theorem cmdsBut_cons {rand : Nat → Nat} {lost : List Slot} {c : Cmd} {cs : List Cmd} {h : H}
    (hc : ∀ s t, c ≠ .subscribe s t) :
    H.cmdsBut rand lost (c :: cs) h = (h.cmd rand c).bind (H.cmdsBut rand lost cs) := by
  cases c <;> first | rfl | exact absurd rfl (hc _ _)

theorem subscribed_cons {c : Cmd} {cs : List Cmd} (hc : ∀ s t, c ≠ .subscribe s t) :
    subscribed (c :: cs) = subscribed cs := by
  cases c <;> first | rfl | exact absurd rfl (hc _ _)

theorem cmdsBut_other {rand : Nat → Nat} {lost : List Slot} {s : Slot} (cs : List Cmd) (h : H)
    (hs : s ∉ subscribed cs) :
    H.cmdsBut rand (s :: lost) cs h = H.cmdsBut rand lost cs h := by
  induction cs generalizing h with
  | nil => rfl
  | cons c cs ih =>
    rcases c.subscribe_or with hc | ⟨s', t, rfl⟩
    · rw [subscribed_cons hc] at hs
      rw [cmdsBut_cons hc, cmdsBut_cons hc]
      cases h.cmd rand c with
      | none => rfl
      | some h1 => exact ih h1 hs
    · simp only [subscribed, List.mem_cons, not_or] at hs
      simp only [H.cmdsBut, List.mem_cons, Ne.symm hs.1, false_or]
      split
      · exact ih _ hs.2
      · cases h.cmd rand (.subscribe s' t) with
        | none => rfl
        | some h1 => exact ih h1 hs.2

theorem cmd_subPtr {rand : Nat → Nat} {c : Cmd} {h h' : H} (hc : ∀ s t, c ≠ .subscribe s t)
    (e : h.cmd rand c = some h') : h'.subPtr = h.subPtr := by
  cases c with
  | subscribe s t => exact absurd rfl (hc s t)
  | initReg | create | watch | fillMem | unwatch => cases e; rfl
  | unsub | destroy =>
    obtain ⟨x, _, e⟩ := Option.map_eq_some_iff.1 e
    cases e; rfl
  | unfillMem =>
    simp only [H.cmd] at e
    split at e <;> cases e <;> rfl

/-- How many of the blocks from `k` on, up to but without `k'`, were refused. -/
def refused (alloc : Nat → Bool) (k k' : Nat) : Nat :=
  ((List.range' k (k' - k)).filter fun i => !alloc i).length

theorem refused_one {alloc : Nat → Bool} {k k' : Nat} (hk : k < k') :
    refused alloc k k' = (if alloc k then 0 else 1) + refused alloc (k + 1) k' := by
  unfold refused
  obtain ⟨n, rfl⟩ : ∃ n, k' = k + 1 + n := ⟨k' - (k + 1), by omega⟩
  rw [show k + 1 + n - k = n + 1 by omega, show k + 1 + n - (k + 1) = n by omega, List.range'_succ,
    List.filter_cons]
  cases alloc k <;> simp <;> omega

theorem cmdsMem_lost {alloc : Nat → Bool} {rand : Nat → Nat} (cs : List Cmd)
    (nd : (subscribed cs).Nodup) {k k' : Nat} {h h' : H}
    (e : H.cmdsMem alloc rand cs k h = some (k', h')) :
    k ≤ k' ∧ ∃ lost : List Slot, lost.Nodup ∧ (∀ s ∈ lost, s ∈ subscribed cs) ∧
      H.cmdsBut rand lost cs h = some h' ∧
      k' + lost.length = k + (cs.map Cmd.blocks).sum ∧ refused alloc k k' = lost.length ∧
      (∀ s, h'.subPtr s = none ↔ s ∈ lost ∨ (s ∉ subscribed cs ∧ h.subPtr s = none)) := by
  induction cs generalizing k h with
  | nil =>
    cases e
    exact ⟨Nat.le_refl _, [], List.nodup_nil, by simp, rfl, rfl, by simp [refused],
      by simp [subscribed]⟩
  | cons c cs ih =>
    obtain ⟨⟨k1, h1⟩, e1, e2⟩ := Option.bind_eq_some_iff.1 e
    simp only [] at e2
    rcases c.subscribe_or with hc | ⟨s, t, rfl⟩
    · rw [subscribed_cons hc] at nd ⊢
      obtain ⟨le, lost, l1, l2, l3, l4, l5, l6⟩ := ih nd e2
      have step : h.cmd rand c = some h1 ∧ k1 = k + c.blocks ∧
          refused alloc k k' = refused alloc k1 k' := by
        cases c with
        | subscribe s t => exact absurd rfl (hc s t)
        | fillMem | create | watch =>
          simp only [H.cmdMem] at e1
          split at e1
          · rename_i ha
            obtain ⟨x, e3, e4⟩ := Option.map_eq_some_iff.1 e1
            cases e4
            exact ⟨e3, rfl, by rw [refused_one (by omega), if_pos ha, Nat.zero_add]⟩
          · cases e1
        | _ =>
          simp only [H.cmdMem] at e1
          obtain ⟨x, e3, e4⟩ := Option.map_eq_some_iff.1 e1
          cases e4
          exact ⟨e3, rfl, rfl⟩
      obtain ⟨s1, s2, s3⟩ := step
      refine ⟨by omega, lost, l1, l2, ?_, ?_, by rw [s3, l5], ?_⟩
      · rw [cmdsBut_cons hc, s1]
        exact l3
      · simp only [List.map_cons, List.sum_cons]
        omega
      · intro s
        rw [l6, cmd_subPtr hc s1]
    · simp only [subscribed, List.nodup_cons] at nd
      obtain ⟨le, lost, l1, l2, l3, l4, l5, l6⟩ := ih nd.2 e2
      have hsl : s ∉ lost := fun hm => nd.1 (l2 s hm)
      simp only [H.cmdMem] at e1
      split at e1
      · rename_i a0
        split at e1
        · rename_i a1
          obtain ⟨x, e3, e4⟩ := Option.map_eq_some_iff.1 e1
          cases e4
          refine ⟨by omega, lost, l1, fun s hs => List.mem_cons_of_mem _ (l2 s hs), ?_, ?_, ?_, ?_⟩
          · simp only [H.cmdsBut, hsl, if_false, e3, Option.bind_some]
            exact l3
          · simp only [List.map_cons, List.sum_cons, Cmd.blocks]
            omega
          · rw [refused_one (by omega), if_pos a0, refused_one (by omega), if_pos a1, ← l5,
              Nat.zero_add, Nat.zero_add]
          · intro s'
            rw [l6]
            obtain ⟨y, _, e5⟩ := Option.map_eq_some_iff.1 e3
            subst e5
            simp only [subscribed, List.mem_cons, not_or, upd]
            by_cases hs' : s' = s
            · subst hs'
              simp [hsl]
            · simp [hs']
        · cases e1
      · rename_i a0
        cases e1
        refine ⟨by omega, s :: lost, List.nodup_cons.2 ⟨hsl, l1⟩, ?_, ?_, ?_, ?_, ?_⟩
        · intro s' hs'
          rcases List.mem_cons.1 hs' with rfl | hs'
          · exact List.mem_cons_self
          · exact List.mem_cons_of_mem _ (l2 s' hs')
        · simp only [H.cmdsBut, List.mem_cons_self, if_true]
          rw [cmdsBut_other cs _ nd.1]
          exact l3
        · simp only [List.map_cons, List.sum_cons, Cmd.blocks, List.length_cons]
          omega
        · rw [refused_one (by omega), if_neg a0, l5, List.length_cons]
          omega
        · intro s'
          rw [l6]
          simp only [subscribed, List.mem_cons, not_or, upd]
          by_cases hs' : s' = s
          · subst hs'
            simp [nd.1]
          · simp [hs']

theorem init_subscribed : (subscribed initCmds).Nodup ∧ ∀ s : Slot, s ∈ subscribed initCmds := by
  constructor
  · decide +kernel
  · intro s
    have : allSlots.all fun s => decide (s ∈ subscribed initCmds) := by decide +kernel
    exact of_decide_eq_true (List.all_eq_true.1 this s (mem_allSlots s))

/-- **C96.** If `init` comes back although blocks were refused, then each refused block cost it one
subscription, and nothing else: it did what it does, but the buses in `lost` are subscribed to
nothing. No error is reported. -/
theorem C96_lost (alloc : Nat → Bool) (rand : Nat → Nat) (h : H) {k : Nat} {h' : H}
    (e : h.initMem alloc rand = some (k, h')) :
    ∃ lost : List Slot, lost.Nodup ∧ H.cmdsBut rand lost initCmds h = some h' ∧
      (∀ s, s ∈ lost ↔ h'.subPtr s = none) ∧ refused alloc 0 k = lost.length ∧
      k + lost.length = 253 := by
  obtain ⟨_, lost, l1, l2, l3, l4, l5, l6⟩ := cmdsMem_lost initCmds init_subscribed.1 e
  refine ⟨lost, l1, l3, ?_, l5, by rw [l4, init_asksFor]⟩
  intro s
  rw [l6]
  simp [init_subscribed.2 s]

/-! ## A bus that is not subscribed -/

theorem deliver_other {subs : Nat → Option Sub} {t : Topic} {w : W} {a : Nat} (ids : List Nat)
    {heap heap' : Nat → Option Bus} {n n' : Nat}
    (hn : ∀ id ∈ ids, ∀ sub, subs id = some sub → sub.bus ≠ some a)
    (e : PS.deliver subs t w ids heap n = some (n', heap')) : heap' a = heap a := by
  induction ids generalizing heap n with
  | nil => cases e; rfl
  | cons id ids ih =>
    have hn' := fun i hi => hn i (List.mem_cons_of_mem _ hi)
    simp only [PS.deliver] at e
    cases es : subs id with
    | none => rw [es] at e; cases e
    | some sub =>
      rw [es] at e
      simp only [] at e
      split at e
      · exact ih hn' e
      split at e
      · exact ih hn' e
      have hb := hn id List.mem_cons_self sub es
      cases eb : sub.bus with
      | none => rw [eb] at e; cases e
      | some b =>
        rw [eb] at e hb
        simp only [] at e
        cases eh : heap b with
        | none => rw [eh] at e; cases e
        | some x =>
          rw [eh] at e
          rw [ih hn' e]
          have : a ≠ b := fun h => hb (by rw [h])
          simp only [upd, this, if_false]

theorem deliver_none {subs : Nat → Option Sub} {t : Topic} {w : W} {a : Nat} (ids : List Nat)
    {heap heap' : Nat → Option Bus} {n n' : Nat} (ha : heap a = none)
    (e : PS.deliver subs t w ids heap n = some (n', heap')) : heap' a = none := by
  induction ids generalizing heap n with
  | nil => cases e; exact ha
  | cons id ids ih =>
    simp only [PS.deliver] at e
    cases es : subs id with
    | none => rw [es] at e; cases e
    | some sub =>
      rw [es] at e
      simp only [] at e
      split at e
      · exact ih ha e
      split at e
      · exact ih ha e
      cases eb : sub.bus with
      | none => rw [eb] at e; cases e
      | some b =>
        rw [eb] at e
        simp only [] at e
        cases eh : heap b with
        | none => rw [eh] at e; cases e
        | some x =>
          rw [eh] at e
          refine ih ?_ e
          have : a ≠ b := fun h => by rw [h, eh] at ha; cases ha
          simp only [upd, this, if_false]
          exact ha

theorem run_keeps {I : H → Prop} (hI : ∀ o h x h', I h → H.handle o h = some (x, h') → I h')
    {α : Type} (p : Prog α) {h h' : H} {a : α} (i : I h) (e : H.run p h = some (a, h')) : I h' := by
  unfold H.run at e
  induction p generalizing h with
  | pure x => cases e; exact i
  | op o k ih =>
    simp only [Prog.run] at e
    obtain ⟨⟨x, h1⟩, e1, e2⟩ := Option.bind_eq_some_iff.1 e
    exact ih x (hI o h x h1 i e1) e2

/-- What the primitives keep and what does not depend on the callback, the clock and the watchers is
kept by every call except `init` and `shutdown`. -/
theorem call_keeps {I : H → Prop} (hI : ∀ o h x h', I h → H.handle o h = some (x, h') → I h')
    (hc : ∀ h b, I h → I { h with clk := b }) (hu : ∀ h b, I h → I { h with ui := b }) {c : Call}
    (hn : c.inner = true) {h h' : H} {v : CInt} (i : I h) (e : exec c h = some (v, h')) : I h' := by
  have loop : ∀ n h h', I h → clockLoop n h = some h' → I h' := by
    intro n
    induction n with
    | zero => intro h h' _ e; cases e
    | succ n ih =>
      intro h h' i e
      simp only [clockLoop] at e
      split at e
      · cases e
      · rename_i x h1 e1
        have i1 : I h1 := run_keeps hI _ (hc h _ i) e1
        split at e
        · cases e; exact i1
        · exact ih _ _ i1 e
  have ui : ∀ h h', I h → h.callUi = some h' → I h' := by
    intro h h' i e
    unfold H.callUi at e
    split at e <;> cases e
    exact i
  cases c with
  | init | shutdown => cases hn
  | setUpdateUi b => cases e; exact hu h b i
  | runClockCycle u =>
    simp only [exec] at e
    obtain ⟨h1, e1, e2⟩ := Option.bind_eq_some_iff.1 e
    have i1 := loop 2 h h1 i e1
    split at e2
    · obtain ⟨h2, e3, e4⟩ := Option.map_eq_some_iff.1 e2
      cases e4
      exact ui _ _ i1 e3
    · cases e2; exact i1
  | resetControl =>
    simp only [exec] at e
    obtain ⟨r, e1, e2⟩ := Option.map_eq_some_iff.1 e
    cases e2
    exact run_keeps hI _ i e1
  | setMemoryValue a w =>
    simp only [exec] at e
    split at e
    · cases e
    · obtain ⟨r, e1, e2⟩ := Option.bind_eq_some_iff.1 e
      obtain ⟨h2, e3, e4⟩ := Option.map_eq_some_iff.1 e2
      cases e4
      exact ui _ _ (hI _ _ _ _ i e1) e3
  | setRegisterPc w =>
    simp only [exec] at e
    split at e
    · cases e
    · obtain ⟨r, e1, e2⟩ := Option.bind_eq_some_iff.1 e
      obtain ⟨h2, e3, e4⟩ := Option.map_eq_some_iff.1 e2
      cases e4
      exact ui _ _ (run_keeps hI _ i e1) e3
  | getRegisterValue t =>
    simp only [exec] at e
    split at e
    · cases e
    · exact run_keeps hI _ i e
  | getMemoryValue a =>
    simp only [exec] at e
    split at e
    · cases e; exact i
    · exact run_keeps hI _ i e
  | getMemorySize | getMemoryValueSizeBits => cases e; exact i
  | getState | getNextState | getDataBus | getMemoryDirBus | getControlBit | getControlSelalu =>
    exact run_keeps hI _ i e

/-- Nothing points beyond the blocks that were handed out. -/
structure Below (h : H) : Prop where
  ptr : ∀ s a, h.busPtr s = some a → a < h.ps.brk
  heap : ∀ a, h.ps.brk ≤ a → h.ps.heap a = none
  bus : ∀ id ∈ h.ps.order, ∀ sub a, h.ps.subs id = some sub → sub.bus = some a → a < h.ps.brk

theorem Below.start : Below H.start :=
  ⟨fun _ _ e => (nomatch e), fun _ _ => rfl, fun _ hid => (nomatch hid)⟩

theorem Below.handle (o : Op) (h : H) (x : o.ret) (h' : H) (b : Below h)
    (e : H.handle o h = some (x, h')) : Below h' := by
  cases o with
  | upd s =>
    simp only [H.handle] at e
    obtain ⟨p, e1, e2⟩ := Option.map_eq_some_iff.1 e
    cases e2
    unfold PS.updateBus at e1
    split at e1
    · cases e1
    · rename_i a ea
      split at e1
      · cases e1
      · rename_i y ey
        cases e1
        refine ⟨b.ptr, ?_, b.bus⟩
        intro a' ha'
        have : a' ≠ a := by
          rintro rfl
          rw [b.heap a' ha'] at ey
          cases ey
        simp only [Mpp.upd, this, if_false]
        exact b.heap a' ha'
  | pub t w =>
    simp only [H.handle] at e
    obtain ⟨p, e1, e2⟩ := Option.map_eq_some_iff.1 e
    cases e2
    unfold PS.publish at e1
    split at e1
    · split at e1
      · cases e1
      · rename_i n heap e3
        cases e1
        exact ⟨b.ptr, fun a ha => deliver_none _ (b.heap a ha) e3, b.bus⟩
    · cases e1; exact b
  | cur | nxt =>
    simp only [H.handle] at e
    obtain ⟨p, e1, e2⟩ := Option.map_eq_some_iff.1 e
    cases e2; exact b
  | getReg | setReg | err => cases e; exact ⟨b.ptr, b.heap, b.bus⟩
  | memGet | memSet =>
    simp only [H.handle] at e
    split at e <;> cases e
    exact ⟨b.ptr, b.heap, b.bus⟩
  | ub => cases e

theorem Below.cmd {rand : Nat → Nat} {c : Cmd} {h h' : H} (b : Below h)
    (e : h.cmd rand c = some h') : Below h' := by
  cases c with
  | create s =>
    cases e
    refine ⟨?_, ?_, ?_⟩
    · intro s' a e
      simp only [Mpp.upd] at e ⊢
      split at e
      · cases e; omega
      · have := b.ptr s' a e; omega
    · intro a ha
      simp only [Mpp.upd] at ha ⊢
      rw [if_neg (by omega)]
      exact b.heap a (by omega)
    · intro id hid sub a e1 e2
      have := b.bus id hid sub a e1 e2
      show a < h.ps.brk + 1
      omega
  | subscribe s t =>
    obtain ⟨r, e1, e2⟩ := Option.map_eq_some_iff.1 e
    cases e2
    unfold PS.subscribe at e1
    split at e1
    · cases e1
      refine ⟨b.ptr, b.heap, ?_⟩
      intro id hid sub a e3 e4
      simp only [Mpp.upd] at e3
      split at e3
      · cases e3
        exact b.ptr s a e4
      · rename_i hne
        simp only [List.mem_append, List.mem_singleton, hne, or_false] at hid
        exact b.bus id hid sub a e3 e4
    · cases e1
  | unsub s =>
    obtain ⟨r, e1, e2⟩ := Option.map_eq_some_iff.1 e
    cases e2
    unfold PS.unsubscribe at e1
    split at e1
    · cases e1; exact ⟨b.ptr, b.heap, b.bus⟩
    · rename_i i ei
      split at e1
      · cases e1; exact ⟨b.ptr, b.heap, b.bus⟩
      split at e1
      · cases e1
      · rename_i q eq
        split at e1
        · cases e1; exact ⟨b.ptr, b.heap, b.bus⟩
        split at e1
        · cases e1
          refine ⟨b.ptr, b.heap, ?_⟩
          intro id hid sub a e3 e4
          have hid := List.mem_of_mem_erase hid
          simp only [Mpp.upd] at e3
          split at e3
          · rename_i hi
            cases e3
            exact b.bus id hid q a (by rw [hi]; exact eq) e4
          · exact b.bus id hid sub a e3 e4
        · cases e1
          refine ⟨b.ptr, b.heap, ?_⟩
          intro id hid sub a e3 e4
          simp only [Mpp.upd] at e3
          split at e3
          · rename_i hi
            cases e3
            exact b.bus id hid q a (by rw [hi]; exact eq) e4
          · exact b.bus id hid sub a e3 e4
  | destroy s =>
    obtain ⟨r, e1, e2⟩ := Option.map_eq_some_iff.1 e
    cases e2
    unfold PS.destroyBus at e1
    split at e1
    · cases e1; exact ⟨b.ptr, b.heap, b.bus⟩
    · split at e1
      · cases e1
      · cases e1
        refine ⟨b.ptr, ?_, b.bus⟩
        intro a ha
        simp only [Mpp.upd]
        split
        · rfl
        · exact b.heap a ha
  | initReg | watch | fillMem | unwatch => cases e; exact ⟨b.ptr, b.heap, b.bus⟩
  | unfillMem =>
    simp only [H.cmd] at e
    split at e <;> cases e <;> exact ⟨b.ptr, b.heap, b.bus⟩

theorem Below.cmds {rand : Nat → Nat} (cs : List Cmd) {h h' : H} (b : Below h)
    (e : h.cmds rand cs = some h') : Below h' := by
  induction cs generalizing h with
  | nil => cases e; exact b
  | cons c cs ih =>
    obtain ⟨h1, e1, e2⟩ := Option.bind_eq_some_iff.1 e
    exact ih (b.cmd e1) e2

theorem Reach.below {ph : Phase} {h : H} (r : Reach ph h) : Below h := by
  obtain ⟨cs, vs, _, e⟩ := r
  have all : ∀ (cs : List Call) (h h' : H) (vs : List CInt), Below h → execAll cs h = some (vs, h') →
      Below h' := by
    intro cs
    induction cs with
    | nil => intro h h' vs b e; cases e; exact b
    | cons c cs ih =>
      intro h h' vs b e
      obtain ⟨⟨v, h1⟩, e1, e2⟩ := Option.bind_eq_some_iff.1 e
      obtain ⟨⟨vs2, h2⟩, e3, e4⟩ := Option.map_eq_some_iff.1 e2
      cases e4
      refine ih h1 h2 vs2 ?_ e3
      by_cases hn : c.inner = true
      · exact call_keeps Below.handle (fun h _ b => ⟨b.ptr, b.heap, b.bus⟩)
          (fun h _ b => ⟨b.ptr, b.heap, b.bus⟩) hn b e1
      · cases c <;> first | exact absurd rfl hn | skip
        all_goals
          simp only [exec] at e1
          obtain ⟨h3, e5, e6⟩ := Option.map_eq_some_iff.1 e1
          cases e6
          exact b.cmds _ e5
  exact all cs _ _ vs Below.start e

/-- The bus of `s` is at `a`, holds 0, and nothing is delivered to it. -/
structure Deaf (s : Slot) (a : Nat) (h : H) : Prop where
  ptr : h.busPtr s = some a
  zero : h.ps.heap a = some ⟨0, 0⟩
  bus : ∀ id ∈ h.ps.order, ∀ sub, h.ps.subs id = some sub → sub.bus ≠ some a

theorem Deaf.handle {s : Slot} {a : Nat} (o : Op) (h : H) (x : o.ret) (h' : H) (d : Deaf s a h)
    (e : H.handle o h = some (x, h')) : Deaf s a h' := by
  cases o with
  | upd s' =>
    simp only [H.handle] at e
    obtain ⟨p, e1, e2⟩ := Option.map_eq_some_iff.1 e
    cases e2
    unfold PS.updateBus at e1
    split at e1
    · cases e1
    · split at e1
      · cases e1
      · rename_i a' _ y ey
        cases e1
        refine ⟨d.ptr, ?_, d.bus⟩
        simp only [Mpp.upd]
        split
        · rename_i ha
          rw [← ha, d.zero] at ey
          cases ey
          rfl
        · exact d.zero
  | pub t w =>
    simp only [H.handle] at e
    obtain ⟨p, e1, e2⟩ := Option.map_eq_some_iff.1 e
    cases e2
    unfold PS.publish at e1
    split at e1
    · split at e1
      · cases e1
      · rename_i n heap e3
        cases e1
        exact ⟨d.ptr, (deliver_other _ d.bus e3).trans d.zero, d.bus⟩
    · cases e1; exact d
  | cur | nxt =>
    simp only [H.handle] at e
    obtain ⟨p, e1, e2⟩ := Option.map_eq_some_iff.1 e
    cases e2; exact d
  | getReg | setReg | err => cases e; exact ⟨d.ptr, d.zero, d.bus⟩
  | memGet | memSet =>
    simp only [H.handle] at e
    split at e <;> cases e
    exact ⟨d.ptr, d.zero, d.bus⟩
  | ub => cases e

/-- While `init` runs: as `Deaf`, and no other variable points to the bus. -/
structure Alone (s : Slot) (a : Nat) (h : H) : Prop where
  deaf : Deaf s a h
  only : ∀ s', s' ≠ s → h.busPtr s' ≠ some a
  below : Below h

/-- The statements of which the `init` functions are made. -/
def Cmd.isInit : Cmd → Bool
  | .initReg _ | .create _ | .subscribe _ _ | .watch _ | .fillMem => true
  | _ => false

theorem Below.cmdMem {alloc : Nat → Bool} {rand : Nat → Nat} {c : Cmd} {k k' : Nat} {h h' : H}
    (b : Below h) (e : h.cmdMem alloc rand c k = some (k', h')) : Below h' := by
  rcases c.subscribe_or with hc | ⟨s, t, rfl⟩
  · cases c with
    | subscribe s t => exact absurd rfl (hc s t)
    | fillMem | create | watch =>
      simp only [H.cmdMem] at e
      split at e
      · obtain ⟨x, e1, e2⟩ := Option.map_eq_some_iff.1 e
        cases e2
        exact b.cmd e1
      · cases e
    | _ =>
      simp only [H.cmdMem] at e
      obtain ⟨x, e1, e2⟩ := Option.map_eq_some_iff.1 e
      cases e2
      exact b.cmd e1
  · simp only [H.cmdMem] at e
    split at e
    · split at e
      · obtain ⟨x, e1, e2⟩ := Option.map_eq_some_iff.1 e
        cases e2
        exact b.cmd e1
      · cases e
    · cases e
      exact ⟨b.ptr, b.heap, b.bus⟩

theorem Alone.cmdMem {alloc : Nat → Bool} {rand : Nat → Nat} {s : Slot} {a : Nat} {c : Cmd}
    {k k' : Nat} {h h' : H} (al : Alone s a h) (hi : c.isInit = true) (hc : c ≠ .create s)
    (hs : ∀ t, c ≠ .subscribe s t) (e : h.cmdMem alloc rand c k = some (k', h')) : Alone s a h' := by
  have b' := al.below.cmdMem e
  obtain ⟨⟨d1, d2, d3⟩, o, b⟩ := al
  cases c with
  | initReg r => cases e; exact ⟨⟨d1, d2, d3⟩, o, b'⟩
  | watch r =>
    simp only [H.cmdMem] at e
    split at e <;> cases e
    exact ⟨⟨d1, d2, d3⟩, o, b'⟩
  | fillMem =>
    simp only [H.cmdMem] at e
    split at e <;> cases e
    exact ⟨⟨d1, d2, d3⟩, o, b'⟩
  | create s' =>
    simp only [H.cmdMem] at e
    split at e <;> cases e
    have ne : s' ≠ s := fun e => hc (by rw [e])
    have la := b.ptr s a d1
    refine ⟨⟨?_, ?_, d3⟩, ?_, b'⟩
    · simp only [Mpp.upd, Ne.symm ne, if_false]
      exact d1
    · simp only [PS.createBus, Mpp.upd]
      rw [if_neg (by omega)]
      exact d2
    · intro s2 h2
      simp only [PS.createBus, Mpp.upd]
      split
      · intro e; cases e; omega
      · exact o s2 h2
  | subscribe s' t =>
    have ne : s' ≠ s := fun e => hs t (by rw [e])
    simp only [H.cmdMem] at e
    split at e
    · split at e
      · obtain ⟨x, e1, e2⟩ := Option.map_eq_some_iff.1 e
        cases e2
        obtain ⟨r, e3, e4⟩ := Option.map_eq_some_iff.1 e1
        cases e4
        unfold PS.subscribe at e3
        split at e3
        · cases e3
          refine ⟨⟨d1, d2, ?_⟩, o, b'⟩
          intro id hid sub e5
          simp only [Mpp.upd] at e5
          split at e5
          · cases e5
            exact o s' ne
          · rename_i hne
            simp only [List.mem_append, List.mem_singleton, hne, or_false] at hid
            exact d3 id hid sub e5
        · cases e3
      · cases e
    · cases e
      exact ⟨⟨d1, d2, d3⟩, o, b'⟩
  | _ => cases hi

theorem Below.alone {alloc : Nat → Bool} {rand : Nat → Nat} {s : Slot} {k k' : Nat} {h h' : H}
    (b : Below h) (e : h.cmdMem alloc rand (.create s) k = some (k', h')) : Alone s h.ps.brk h' := by
  have b' := b.cmdMem e
  simp only [H.cmdMem] at e
  split at e <;> cases e
  refine ⟨⟨?_, ?_, ?_⟩, ?_, b'⟩
  · simp [PS.createBus, Mpp.upd]
  · simp [PS.createBus, Mpp.upd]
  · intro id hid sub e1 e2
    exact Nat.lt_irrefl _ (b.bus id hid sub _ e1 e2)
  · intro s' hs' e
    simp only [PS.createBus, Mpp.upd, hs', if_false] at e
    exact Nat.lt_irrefl _ (b.ptr s' _ e)

theorem subscribed_nodup {c : Cmd} {cs : List Cmd} (h : (subscribed (c :: cs)).Nodup) :
    (subscribed cs).Nodup := by
  cases c <;> first | exact h | exact (List.nodup_cons.1 h).2

theorem Alone.cmds {alloc : Nat → Bool} {rand : Nat → Nat} {s : Slot} {a : Nat} (cs : List Cmd)
    (hi : ∀ c ∈ cs, c.isInit = true) (hc : .create s ∉ cs) (nd : (subscribed cs).Nodup) {k k' : Nat}
    {h h' : H} (al : Alone s a h) (e : H.cmdsMem alloc rand cs k h = some (k', h'))
    (hl : h'.subPtr s = none) : Alone s a h' := by
  induction cs generalizing k h with
  | nil => cases e; exact al
  | cons c cs ih =>
    obtain ⟨⟨k1, h1⟩, e1, e2⟩ := Option.bind_eq_some_iff.1 e
    have nd' := subscribed_nodup nd
    refine ih (fun c hm => hi c (List.mem_cons_of_mem _ hm)) (fun hm => hc (List.mem_cons_of_mem _ hm))
      nd' ?_ e2
    by_cases hs : ∀ t, c ≠ .subscribe s t
    · exact al.cmdMem (hi c List.mem_cons_self) (fun e => hc (by rw [e]; exact List.mem_cons_self)) hs e1
    · rcases c.subscribe_or with hx | ⟨s', t, rfl⟩
      · exact absurd (hx s) hs
      have es : s' = s := by
        apply Classical.byContradiction
        intro ne
        exact hs fun t e => ne (by cases e; rfl)
      subst es
      have hn : s' ∉ subscribed cs := (List.nodup_cons.1 nd).1
      obtain ⟨_, lost, _, l2, _, _, _, l6⟩ := cmdsMem_lost cs nd' e2
      rcases (l6 s').1 hl with hm | ⟨_, hz⟩
      · exact absurd (l2 s' hm) hn
      simp only [H.cmdMem] at e1
      split at e1
      · split at e1
        · obtain ⟨x, e3, e4⟩ := Option.map_eq_some_iff.1 e1
          cases e4
          obtain ⟨r, e5, e6⟩ := Option.map_eq_some_iff.1 e3
          cases e6
          simp [Mpp.upd] at hz
        · cases e1
      · cases e1
        obtain ⟨⟨d1, d2, d3⟩, o, b⟩ := al
        exact ⟨⟨d1, d2, d3⟩, o, ⟨b.ptr, b.heap, b.bus⟩⟩

theorem Below.deaf {alloc : Nat → Bool} {rand : Nat → Nat} {s : Slot} (cs : List Cmd)
    (hi : ∀ c ∈ cs, c.isInit = true) (hc : cs.count (.create s) = 1) (nd : (subscribed cs).Nodup)
    {k k' : Nat} {h h' : H} (b : Below h) (e : H.cmdsMem alloc rand cs k h = some (k', h'))
    (hl : h'.subPtr s = none) : ∃ a, Deaf s a h' := by
  induction cs generalizing k h with
  | nil => cases hc
  | cons c cs ih =>
    obtain ⟨⟨k1, h1⟩, e1, e2⟩ := Option.bind_eq_some_iff.1 e
    have hi' : ∀ c ∈ cs, c.isInit = true := fun c hm => hi c (List.mem_cons_of_mem _ hm)
    by_cases ec : c = .create s
    · subst ec
      rw [List.count_cons_self] at hc
      have hc : cs.count (.create s) = 0 := by omega
      exact ⟨_, (Alone.cmds cs hi' (List.count_eq_zero.1 hc) nd (b.alone e1) e2 hl).deaf⟩
    · rw [List.count_cons_of_ne ec] at hc
      exact ih hi' hc (subscribed_nodup nd) (b.cmdMem e1) e2

theorem init_created : (∀ c ∈ initCmds, c.isInit = true) ∧
    ∀ s : Slot, initCmds.count (.create s) = 1 := by
  constructor
  · decide +kernel
  · intro s
    have : allSlots.all fun s => decide (initCmds.count (.create s) = 1) := by decide +kernel
    exact of_decide_eq_true (List.all_eq_true.1 this s (mem_allSlots s))

/-- **C96.** A bus whose subscription was lost stays deaf: whatever is called afterwards (up to the
next `init` or `shutdown`), it holds 0. -/
theorem C96_deaf (alloc : Nat → Bool) (rand : Nat → Nat) {ph : Phase} {h : H} (r : Reach ph h)
    {k : Nat} {h1 : H} (e : h.initMem alloc rand = some (k, h1)) (s : Slot)
    (hl : h1.subPtr s = none) (cs : List Call) (hc : ∀ c ∈ cs, c.inner = true) {vs : List CInt} {h2 : H}
    (e2 : execAll cs h1 = some (vs, h2)) :
    ∃ a, h2.busPtr s = some a ∧ h2.ps.heap a = some ⟨0, 0⟩ := by
  obtain ⟨a, d⟩ := r.below.deaf initCmds init_created.1 (init_created.2 s) init_subscribed.1 e hl
  suffices Deaf s a h2 from ⟨a, this.ptr, this.zero⟩
  clear e hl r
  induction cs generalizing h1 vs with
  | nil => cases e2; exact d
  | cons c cs ih =>
    obtain ⟨⟨v, h3⟩, e3, e4⟩ := Option.bind_eq_some_iff.1 e2
    obtain ⟨⟨vs', h4⟩, e5, e6⟩ := Option.map_eq_some_iff.1 e4
    cases e6
    refine ih (fun c hm => hc c (List.mem_cons_of_mem _ hm)) e5 ?_
    exact call_keeps Deaf.handle (fun h _ d => ⟨d.ptr, d.zero, d.bus⟩)
      (fun h _ d => ⟨d.ptr, d.zero, d.bus⟩) (hc c List.mem_cons_self) d e3

/-! ## A store of a given size -/

/-- Of a list of statements: how many blocks it asks for, and what it does not subscribe. -/
def asks (alloc : Nat → Bool) : List Cmd → Nat → Option (Nat × List Slot)
  | [], k => some (k, [])
  | .subscribe s _ :: cs, k =>
    if alloc k then if alloc (k + 1) then asks alloc cs (k + 2) else none
    else (asks alloc cs (k + 1)).map fun r => (r.1, s :: r.2)
  | .fillMem :: cs, k => if alloc k then asks alloc cs (k + 1) else none
  | .create _ :: cs, k => if alloc k then asks alloc cs (k + 1) else none
  | .watch _ :: cs, k => if alloc k then asks alloc cs (k + 1) else none
  | _ :: cs, k => asks alloc cs k

theorem init_cmd {rand : Nat → Nat} {c : Cmd} {h : H} (hi : c.isInit = true)
    (hc : ∀ s t, c ≠ .subscribe s t) :
    ∃ h1, h.cmd rand c = some h1 ∧ h1.ps.count = h.ps.count ∧ h1.subPtr = h.subPtr := by
  cases c with
  | subscribe s t => exact absurd rfl (hc s t)
  | initReg | create | watch | fillMem => exact ⟨_, rfl, rfl, rfl⟩
  | _ => cases hi

theorem asks_spec {alloc : Nat → Bool} {rand : Nat → Nat} (cs : List Cmd)
    (hi : ∀ c ∈ cs, c.isInit = true) (nd : (subscribed cs).Nodup) (k : Nat) (h : H)
    (hb : h.ps.count + (subscribed cs).length < 2 ^ 31) :
    match asks alloc cs k with
    | none => H.cmdsMem alloc rand cs k h = none
    | some (k', lost) => ∃ h', H.cmdsMem alloc rand cs k h = some (k', h') ∧
        (∀ s ∈ lost, s ∈ subscribed cs) ∧
        ∀ s, h'.subPtr s = none ↔ s ∈ lost ∨ (s ∉ subscribed cs ∧ h.subPtr s = none) := by
  induction cs generalizing k h with
  | nil => exact ⟨h, rfl, by simp, by simp [subscribed]⟩
  | cons c cs ih =>
    have hi' : ∀ c ∈ cs, c.isInit = true := fun c hm => hi c (List.mem_cons_of_mem _ hm)
    have nd' := subscribed_nodup nd
    have hic := hi c List.mem_cons_self
    rcases c.subscribe_or with hc | ⟨s, t, rfl⟩
    · rw [subscribed_cons hc] at hb ⊢
      have next : ∀ k1 h1, h1.ps.count = h.ps.count → h1.subPtr = h.subPtr →
          h.cmdMem alloc rand c k = some (k1, h1) → asks alloc (c :: cs) k = asks alloc cs k1 →
          match asks alloc (c :: cs) k with
          | none => H.cmdsMem alloc rand (c :: cs) k h = none
          | some (k', lost) => ∃ h', H.cmdsMem alloc rand (c :: cs) k h = some (k', h') ∧
              (∀ s ∈ lost, s ∈ subscribed cs) ∧
              ∀ s, h'.subPtr s = none ↔ s ∈ lost ∨ (s ∉ subscribed cs ∧ h.subPtr s = none) := by
        intro k1 h1 e1 e2 e3 e4
        have := ih hi' nd' k1 h1 (by rw [e1]; exact hb)
        rw [e2] at this
        rw [e4]
        simp only [H.cmdsMem, e3, Option.bind_some]
        exact this
      have fail : ∀ (_ : h.cmdMem alloc rand c k = none) (_ : asks alloc (c :: cs) k = none),
          match asks alloc (c :: cs) k with
          | none => H.cmdsMem alloc rand (c :: cs) k h = none
          | some (k', lost) => ∃ h', H.cmdsMem alloc rand (c :: cs) k h = some (k', h') ∧
              (∀ s ∈ lost, s ∈ subscribed cs) ∧
              ∀ s, h'.subPtr s = none ↔ s ∈ lost ∨ (s ∉ subscribed cs ∧ h.subPtr s = none) := by
        intro e1 e2
        rw [e2]
        simp only [H.cmdsMem, e1, Option.bind_none]
      cases c with
      | subscribe s t => exact absurd rfl (hc s t)
      | initReg r =>
        obtain ⟨h1, e1, e2, e3⟩ := init_cmd (rand := rand) (h := h) hic hc
        exact next k h1 e2 e3 (by simp only [H.cmdMem, e1, Option.map_some]) rfl
      | fillMem | create | watch =>
        by_cases ha : alloc k = true
        · obtain ⟨h1, e1, e2, e3⟩ := init_cmd (rand := rand) (h := h) hic hc
          exact next (k + 1) h1 e2 e3 (by simp only [H.cmdMem, ha, if_true, e1, Option.map_some])
            (by simp only [asks, ha, if_true])
        · exact fail (by simp only [H.cmdMem, ha]; rfl) (by simp only [asks, ha]; rfl)
      | _ => cases hic
    · simp only [subscribed, List.length_cons] at hb nd ⊢
      have hns : s ∉ subscribed cs := (List.nodup_cons.1 nd).1
      simp only [asks, H.cmdsMem, H.cmdMem]
      by_cases a0 : alloc k = true
      · simp only [a0, if_true]
        by_cases a1 : alloc (k + 1) = true
        · simp only [a1, if_true]
          have lt : h.ps.count < 2 ^ 31 - 1 := by omega
          simp only [H.cmd, PS.subscribe, lt, if_true, Option.map_some, Option.bind_some]
          have := ih hi' nd' (k + 2) ({ h with
            ps := { h.ps with
              subs := Mpp.upd h.ps.subs h.ps.count (some ⟨t, h.busPtr s, true⟩)
              count := h.ps.count + 1
              order := h.ps.order ++ [h.ps.count] }
            subPtr := Mpp.upd h.subPtr s (some h.ps.count) }) (by simp only []; omega)
          revert this
          cases asks alloc cs (k + 2) with
          | none => exact id
          | some r =>
            rintro ⟨h', e1, e2, e3⟩
            refine ⟨h', e1, fun s hs => List.mem_cons_of_mem _ (e2 s hs), ?_⟩
            intro s'
            rw [e3]
            simp only [List.mem_cons, not_or, Mpp.upd]
            by_cases hs : s' = s
            · subst hs; simp
            · simp [hs]
        · simp only [a1]
          rfl
      · simp only [a0]
        have := ih hi' nd' (k + 1) ({ h with subPtr := Mpp.upd h.subPtr s none }) (by simp only []; omega)
        revert this
        cases asks alloc cs (k + 1) with
        | none => exact id
        | some r =>
          rintro ⟨h', e1, e2, e3⟩
          refine ⟨h', e1, ?_, ?_⟩
          · intro s' hs
            rcases List.mem_cons.1 hs with rfl | hs
            · exact List.mem_cons_self
            · exact List.mem_cons_of_mem _ (e2 s' hs)
          · intro s'
            rw [e3]
            simp only [List.mem_cons, not_or, Mpp.upd]
            by_cases hs : s' = s
            · subst hs; simp [hns]
            · simp [hs]

theorem asks_init : ∀ m : Fin 253, asks (fun k => decide (k < m.val)) initCmds 0 =
    if m = 249 then some (251, [.linkControl, .linkData])
    else if m = 251 then some (252, [.linkData]) else none := by decide +kernel

theorem init_spec {alloc : Nat → Bool} (rand : Nat → Nat) {ph : Phase} {h : H} (r : Reach ph h)
    (hi : ph.inits < 27183337) :
    match asks alloc initCmds 0 with
    | none => h.initMem alloc rand = none
    | some (k', lost) => ∃ h', h.initMem alloc rand = some (k', h') ∧
        ∀ s, h'.subPtr s = none ↔ s ∈ lost := by
  have l : (subscribed initCmds).length = 79 := by decide +kernel
  have := asks_spec (alloc := alloc) (rand := rand) initCmds init_created.1 init_subscribed.1 0 h
    (by rw [l, r.inv.count]; omega)
  revert this
  cases asks alloc initCmds 0 with
  | none => exact id
  | some q =>
    rintro ⟨h', e1, _, e3⟩
    refine ⟨h', e1, fun s => ?_⟩
    rw [e3]
    simp [init_subscribed.2 s]

/-- **C96.** With room for `m` blocks and no more, `init` comes back if and only if `m` is 249, 251,
or at least 253. -/
theorem C96_room (m : Nat) (rand : Nat → Nat) {ph : Phase} {h : H} (r : Reach ph h)
    (hi : ph.inits < 27183337) :
    (h.initMem (fun k => decide (k < m)) rand).isSome = true ↔ m = 249 ∨ m = 251 ∨ 253 ≤ m := by
  by_cases hm : m < 253
  · have := init_spec (alloc := fun k => decide (k < m)) rand r hi
    have a := asks_init ⟨m, hm⟩
    simp only [Fin.ext_iff] at a
    rw [a] at this
    by_cases h1 : m = 249
    · subst h1
      obtain ⟨h', e, _⟩ := this
      simp [e]
    by_cases h2 : m = 251
    · subst h2
      obtain ⟨h', e, _⟩ := this
      simp [e]
    · simp only [show ((249 : Fin 253) : Nat) = 249 from rfl, show ((251 : Fin 253) : Nat) = 251 from rfl,
        h1, h2, if_false] at this
      rw [this]
      simp
      omega
  · obtain ⟨h', _, e⟩ := C96_enough (fun k => decide (k < m)) (fun i hi => by simp; omega) r hi rand
    rw [e]
    simp
    omega

/-- **C96.** With room for 251 blocks `init` comes back, and from then on the data bus that the page
shows is 0, whatever the machine does. -/
theorem C96_silent (rand : Nat → Nat) {ph : Phase} {h : H} (r : Reach ph h)
    (hi : ph.inits < 27183337) :
    ∃ h1, h.initMem (fun k => decide (k < 251)) rand = some (252, h1) ∧
      ∀ (cs : List Call), (∀ c ∈ cs, c.inner = true) → ∀ vs h2, execAll cs h1 = some (vs, h2) →
        exec .getDataBus h2 = some (0, h2) := by
  have := init_spec (alloc := fun k => decide (k < 251)) rand r hi
  rw [show asks (fun k => decide (k < 251)) initCmds 0 = some (252, [.linkData]) from
    asks_init 251] at this
  obtain ⟨h1, e, l⟩ := this
  refine ⟨h1, e, ?_⟩
  intro cs hc vs h2 e2
  obtain ⟨a, e3, e4⟩ := C96_deaf _ rand r e .linkData ((l _).2 (by simp)) cs hc e2
  have hn : H.run (busNext .linkData) h2 = some (0, h2) := by
    simp only [H.run, busNext, Prog.run, H.handle, e3, PS.deref, e4, Option.map_some, Option.bind_some]
  have z : wordToInt 0 = some 0 := by decide
  simp only [exec, Mpp.getDataBus, hrun_bind, hn, Option.bind_some, toInt, z]
  rfl

/-! ## The hypotheses can be met -/

/-- Calls after `init`. -/
def deafRun : List Call :=
  [.setUpdateUi true, .setMemoryValue 0 0x2D, .runClockCycle false, .getDataBus]

/-- At the start of the program, room for 251 blocks: the calls can be made. -/
example : ((H.start.initMem (fun k => decide (k < 251)) fun _ => 0).bind fun r =>
    execAll deafRun r.2).map Prod.fst = some [0, 0, 0, 0] := by decide +kernel

example : ∀ c ∈ deafRun, c.inner = true := by decide

example : Reach Phase.start H.start ∧ Phase.start.inits < 27183337 := ⟨⟨[], [], rfl, rfl⟩, by decide⟩

/-- An allocator that refuses every tenth block: `init` is undefined. One that refuses only the block
for the subscription of the last bus but one: it comes back without it. -/
example : asks (fun k => decide (k % 10 ≠ 9)) initCmds 0 = none ∧
    asks (fun k => decide (k ≠ 249)) initCmds 0 = some (252, [.linkControl]) := by decide +kernel

end Mpp
