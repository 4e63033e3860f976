import Verif.History
/-!
# Where `malloc` puts the buses

`PS.createBus` gives every bus a new address. Here `create_bus_data` (`electronic/bus.c:36-42`) takes
its address from an arbitrary allocator, which may give an address again once it has been freed. The
only thing asked of it is that it never gives one that is in use. `brk` is no part of the machine any
more: it is a number above all addresses given out so far.
-/
namespace Mpp

/-- Where the next bus goes; it may depend on everything. -/
abbrev Malloc := H → Nat

/-- `malloc` never returns the address of an object that has not been freed, as long as only finitely
many addresses are in use. -/
def Malloc.Ok (m : Malloc) : Prop :=
  ∀ h : H, (∀ a, h.ps.brk ≤ a → h.ps.heap a = none) → h.ps.heap (m h) = none

/-- `create_bus_data` (`electronic/bus.c:36-42`) with the address `a` from `malloc`. -/
def PS.createBusAt (p : PS) (a : Nat) : PS :=
  { p with heap := upd p.heap a (some ⟨0, 0⟩), brk := max p.brk (a + 1) }

/-- As `H.cmd`, with `malloc`. -/
def H.cmdBy (m : Malloc) (rand : Nat → Nat) : Cmd → H → Option H
  | .create s, h => some { h with ps := h.ps.createBusAt (m h), busPtr := upd h.busPtr s (some (m h)) }
  | c, h => h.cmd rand c

def H.cmdsBy (m : Malloc) (rand : Nat → Nat) : List Cmd → H → Option H
  | [], h => some h
  | c :: cs, h => (h.cmdBy m rand c).bind (H.cmdsBy m rand cs)

/-- As `exec`, with `malloc`. Only `init` (`linker/linker.c:35-42`) creates buses. -/
def execBy (m : Malloc) : Call → H → Option (CInt × H)
  | .init rand, h => (h.cmdsBy m rand initCmds).map fun h => (0, h)
  | c, h => exec c h

/-- The calls one after the other, each with a `malloc` of its own, as what it gives may depend on
things outside this program. (The buses of one `init` are created in different states, so that one
function of the state is enough for each `init`.) -/
def execAllBy : List (Malloc × Call) → H → Option (List CInt × H)
  | [], h => some ([], h)
  | c :: cs, h => (execBy c.1 c.2 h).bind fun r => (execAllBy cs r.2).map fun q => (r.1 :: q.1, q.2)

/-- Never the same address twice. -/
def Malloc.bump : Malloc := fun h => h.ps.brk

/-- The lowest address that is not in use. -/
def Malloc.first : Malloc := fun h =>
  ((List.range h.ps.brk).find? fun a => (h.ps.heap a).isNone).getD h.ps.brk

theorem Malloc.bump_ok : Malloc.bump.Ok := fun _ hb => hb _ (Nat.le_refl _)

theorem Malloc.first_ok : Malloc.first.Ok := by
  intro h hb
  simp only [first]
  cases e : (List.range h.ps.brk).find? fun a => (h.ps.heap a).isNone with
  | none => exact hb _ (Nat.le_refl _)
  | some a => exact Option.isNone_iff_eq_none.mp (by simpa using List.find?_some e)

theorem H.cmdBy_bump (rand : Nat → Nat) (c : Cmd) (h : H) : h.cmdBy .bump rand c = h.cmd rand c := by
  cases c with
  | create s =>
    simp only [H.cmdBy, H.cmd, PS.createBusAt, PS.createBus, Malloc.bump, Nat.max_eq_right (Nat.le_succ h.ps.brk)]
  | _ => rfl

theorem H.cmdsBy_bump (rand : Nat → Nat) (cs : List Cmd) (h : H) : h.cmdsBy .bump rand cs = h.cmds rand cs := by
  induction cs generalizing h with
  | nil => rfl
  | cons c cs ih =>
    simp only [H.cmdsBy, H.cmds, H.cmdBy_bump]
    cases h.cmd rand c with
    | none => rfl
    | some h1 => exact ih h1

theorem execBy_bump (c : Call) (h : H) : execBy .bump c h = exec c h := by
  cases c with
  | init rand => simp only [execBy, exec, H.cmdsBy_bump]
  | _ => rfl

theorem InitInv.stepBy {rand : Nat → Nat} {h0 h : H} {d d' : Done} {c : Cmd} {m : Malloc} (ok : m.Ok)
    (inv : InitInv rand h0 h d) (hc : d.step c = some d')
    (hb : h0.ps.count + d'.subscribed.length < 2 ^ 31) :
    ∃ h', h.cmdBy m rand c = some h' ∧ InitInv rand h0 h' d' := by
  cases c with
  | create s =>
    simp only [Done.step] at hc
    split at hc
    · cases hc
    · rename_i hs
      cases hc
      refine ⟨_, rfl, ?_⟩
      have hfree : h.ps.heap (m h) = none := ok h inv.good.heapB
      generalize m h = n at *
      have hne : ∀ a b, h.ps.heap a = some b → a ≠ n := by
        intro a b hab e; rw [e, hfree] at hab; cases hab
      have hold : ∀ s', s' ∈ d.created → s' ≠ s := fun s' h' e => hs (e ▸ h')
      constructor
      case good =>
        refine ⟨?_, inv.good.subsB, ?_, inv.good.nodup, inv.good.mws⟩
        · intro a ha
          have ha : max h.ps.brk (n + 1) ≤ a := ha
          have : a ≠ n := by omega
          simp only [PS.createBusAt]
          rw [upd_ne _ _ this]
          exact inv.good.heapB a (by omega)
        · intro id hid
          obtain ⟨t, a, b, h1, h2⟩ := inv.good.order id hid
          refine ⟨t, a, b, h1, ?_⟩
          simp only [PS.createBusAt]
          rw [upd_ne _ _ (hne a b h2), h2]
      case count => exact inv.count
      case created =>
        intro s' hs'
        simp only [List.mem_cons] at hs'
        by_cases e : s' = s
        · subst e
          exact ⟨n, by simp, by simp [PS.createBusAt]⟩
        · obtain ⟨a, h1, h2⟩ := inv.created s' (hs'.resolve_left e)
          refine ⟨a, ?_, ?_⟩
          · simp only; rw [upd_ne _ _ e, h1]
          · simp only [PS.createBusAt]; rw [upd_ne _ _ (hne a _ h2), h2]
      case inj =>
        intro s1 h1 s2 h2 a e1 e2
        simp only [List.mem_cons] at h1 h2
        simp only [upd_apply] at e1 e2
        by_cases c1 : s1 = s <;> by_cases c2 : s2 = s
        · rw [c1, c2]
        · rw [if_pos c1] at e1; rw [if_neg c2] at e2
          obtain ⟨a', g1, g2⟩ := inv.created s2 (h2.resolve_left c2)
          rw [g1] at e2; cases e2; cases e1
          exact absurd rfl (hne _ _ g2)
        · rw [if_neg c1] at e1; rw [if_pos c2] at e2
          obtain ⟨a', g1, g2⟩ := inv.created s1 (h1.resolve_left c1)
          rw [g1] at e1; cases e2; cases e1
          exact absurd rfl (hne _ _ g2)
        · rw [if_neg c1] at e1; rw [if_neg c2] at e2
          exact inv.inj s1 (h1.resolve_left c1) s2 (h2.resolve_left c2) a e1 e2
      case owner =>
        intro id hid s' hs' a sub e1 e2 e3
        simp only [List.mem_cons] at hs'
        simp only [upd_apply] at e3
        by_cases c1 : s' = s
        · rw [if_pos c1] at e3
          exfalso
          obtain ⟨t, a', b, g1, g2⟩ := inv.good.order id hid
          have : sub = ⟨t, some a', true⟩ := by
            have e1' : h.ps.subs id = some sub := e1
            rw [g1] at e1'; cases e1'; rfl
          subst this
          cases e2; cases e3
          exact hne _ _ g2 rfl
        · rw [if_neg c1] at e3
          exact inv.owner id hid s' (hs'.resolve_left c1) a sub e1 e2 e3
      case subCreated => exact fun s' hs' => List.mem_cons_of_mem _ (inv.subCreated s' hs')
      case subscribed =>
        intro s' hs'
        obtain ⟨a, id, h1, h2, h3, h4⟩ := inv.subscribed s' hs'
        by_cases e : s' = s
        · exfalso
          subst e
          exact hs (inv.subCreated s' hs')
        · exact ⟨a, id, by simp only; rw [upd_ne _ _ e, h1], h2, h3, h4⟩
      case regs => exact inv.regs
      case watch => exact inv.watch
      case mem => exact inv.mem
      case ui => exact inv.ui
      case clk => exact inv.clk
      case log => exact inv.log
  | _ => exact inv.step hc hb

theorem InitInv.stepsBy {rand : Nat → Nat} {h0 h : H} {d d' : Done} {cs : List Cmd} {m : Malloc} (ok : m.Ok)
    (inv : InitInv rand h0 h d) (hc : d.steps cs = some d')
    (hb : h0.ps.count + d'.subscribed.length < 2 ^ 31) :
    ∃ h', h.cmdsBy m rand cs = some h' ∧ InitInv rand h0 h' d' := by
  induction cs generalizing h d with
  | nil => cases hc; exact ⟨h, rfl, inv⟩
  | cons c cs ih =>
    simp only [Done.steps] at hc
    cases hs : d.step c with
    | none => rw [hs] at hc; cases hc
    | some d1 =>
      rw [hs] at hc
      have hle := Done.steps_subscribed_le (d := d1) hc
      obtain ⟨h1, e1, inv1⟩ := inv.stepBy ok hs (by omega)
      obtain ⟨h2, e2, inv2⟩ := ih inv1 hc
      exact ⟨h2, by simp only [H.cmdsBy, e1, Option.bind_some, e2], inv2⟩

theorem Off.initBy {h : H} {m : Malloc} (ok : m.Ok) (o : Off h) (rand : Nat → Nat)
    (hb : h.ps.count + 79 < 2 ^ 31) :
    ∃ h', execBy m (.init rand) h = some (0, h') ∧ On h' (A.fresh rand h.log) ∧
      h'.ps.count = h.ps.count + 79 ∧ h'.ui = h.ui ∧ h'.clk = h.clk ∧
      h'.watch = h.watch ++ allWatchers := by
  have inv : InitInv rand h h ⟨[], [], [], [], false⟩ := by
    have g := o.good
    constructor <;> simp_all
  obtain ⟨h', e, inv'⟩ := inv.stepsBy ok initDone_eq (by rw [initDone_length]; exact hb)
  have l : Live h' := by
    refine ⟨inv'.good, ?_, ?_, ?_⟩
    · intro s
      obtain ⟨a, id, h1, h2, h3, h4⟩ := inv'.subscribed s (initDone_subscribed s)
      obtain ⟨a', g1, g2⟩ := inv'.created s (initDone_created s)
      rw [h1] at g1; cases g1
      exact ⟨a, _, id, h1, g2, h2, h3, h4⟩
    · intro s s' a
      exact inv'.inj s (initDone_created s) s' (initDone_created s') a
    · intro id hid s a sub e1 e2 e3
      exact (inv'.owner id hid s (initDone_created s) a sub e1 e2 e3).2
  have e1 : h'.watch = h.watch ++ allWatchers := by rw [inv'.watch, initDone_watched]
  have r : Rep h' ⟨fun _ => 0, fun _ => 0, fun _ => 0, fun i => randomInt (rand i.toNat), h.log⟩ := by
    refine ⟨l, ?_, funext fun r => inv'.regs r (initDone_zeroed r), inv'.mem initDone_filled, inv'.log⟩
    intro s a ha
    obtain ⟨a', h1, h2⟩ := inv'.created s (initDone_created s)
    rw [ha] at h1; cases h1
    exact h2
  rw [← lift_fresh] at r
  refine ⟨h', by simp only [execBy, e, Option.map_some], ⟨⟨_, r⟩, (by
    obtain ⟨n, w⟩ := o.watch
    exact ⟨n, by rw [e1, w, many_add]⟩),
    fun _ => rfl, ⟨rfl, rfl, (by show (0 : BitVec 16) = (0 : BitVec 8) ++ (0 : BitVec 8); decide), rfl, rfl, rfl,
      rfl, rfl⟩, ok_zero _, (by show (0 : BitVec 6) ∉ _; decide)⟩, (by rw [inv'.count, initDone_length]),
      inv'.ui, inv'.clk, e1⟩

theorem Desc.log {p : Phase} {h : H} {s : Abs} (d : Desc p h s) : h.log = s.log := by
  cases s with
  | off l => exact d.is.2
  | on a => exact On.log (show On h a from d.is)

theorem Desc.callBy {p : Phase} {h : H} {s : Abs} {m : Malloc} (ok : m.Ok) (d : Desc p h s) (c : Call)
    (hc : c.Allowed p) :
    ∃ h', execBy m c h = some (s.value c, h') ∧ Desc (c.after p) h' (s.call c) := by
  cases c with
  | init rand =>
    have hc : p.inits < 27183337 := hc
    have i := d.inv
    obtain ⟨h', e, o, e1, e2, _, e3⟩ := i.any.initBy ok rand (by rw [i.count]; omega)
    rw [d.log] at o
    have v : s.value (.init rand) = 0 := by cases s <;> rfl
    have k : s.call (.init rand) = .on (A.fresh rand s.log) := by cases s <;> rfl
    rw [v, k]
    exact ⟨h', e, ⟨by rw [e1, i.count]; simp only [Call.after]; omega, e2.trans i.ui,
      fun _ => ⟨_, o⟩, fun e => (by cases e), by rw [e3, i.watch, many_add]; rfl,
      fun _ => Nat.succ_ne_zero _⟩, o, rfl⟩
  | _ => exact d.call _ hc

theorem Desc.callsBy {p p' : Phase} {h : H} {s : Abs} (d : Desc p h s)
    (cs : List (Malloc × Call)) (ok : ∀ x ∈ cs, x.1.Ok) (hl : Legal p (cs.map (·.2)) p') :
    ∃ h', execAllBy cs h = some ((s.calls (cs.map (·.2))).1, h') ∧ Desc p' h' (s.calls (cs.map (·.2))).2 := by
  induction cs generalizing p h s with
  | nil => cases hl; exact ⟨h, rfl, d⟩
  | cons c cs ih =>
    obtain ⟨m, c⟩ := c
    obtain ⟨h1, e1, d1⟩ := d.callBy (ok _ List.mem_cons_self) c hl.1
    obtain ⟨h2, e2, d2⟩ := ih d1 (fun x hx => ok x (List.mem_cons_of_mem _ hx)) hl.2
    exact ⟨h2, by simp only [execAllBy, e1, Option.bind_some, e2, Option.map_some, Abs.calls, List.map_cons], d2⟩

end Mpp
