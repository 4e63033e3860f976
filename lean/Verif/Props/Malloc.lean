import Verif.Malloc
import Verif.Props.Schedule
/-!
# It does not matter where `malloc` puts the buses (C100)

The buses are the objects that the core allocates and frees. After a shutdown, bus pointers and
subscription objects are left that still hold the addresses of freed buses, and another `init` may
be given the same addresses.
-/
namespace Mpp

/-- **C100.** The model's way to choose addresses is one of those of `C100_history`. -/
theorem C100_bump : Malloc.bump.Ok ∧ ∀ (c : Call) (h : H), execBy .bump c h = exec c h :=
  ⟨Malloc.bump_ok, execBy_bump⟩

/-- **C100.** Let each `init` of a history be given whatever addresses for its buses, provided that none is
in use: all calls return the same values and never run into undefined behaviour, the reported errors
are the same, and at the end of a history that leaves the machine running, so are registers, memory
and the values on all buses. -/
theorem C100_history (ph : Phase) (h : H) (hr : Reach ph h) (cs : List (Malloc × Call)) (ph' : Phase)
    (ok : ∀ x ∈ cs, x.1.Ok) (hl : Legal ph (cs.map (·.2)) ph') :
    ∃ vs h1 h2, execAllBy cs h = some (vs, h1) ∧ execAll (cs.map (·.2)) h = some (vs, h2) ∧
      h1.log = h2.log ∧
      (ph'.on = true → h1.regs = h2.regs ∧ h1.mem = h2.mem ∧ ∀ tp w, OnBus h1 tp w ↔ OnBus h2 tp w) := by
  obtain ⟨s, d⟩ := hr.desc
  obtain ⟨h1, e1, d1⟩ := d.callsBy cs ok hl
  obtain ⟨h2, e2, d2⟩ := d.calls (cs.map (·.2)) hl
  refine ⟨_, h1, h2, e1, e2, d1.log.trans d2.log.symm, fun hp => ?_⟩
  generalize (s.calls (cs.map (·.2))).2 = s' at *
  cases s' with
  | off l =>
    have : ph'.on = false := d1.phase
    rw [hp] at this
    cases this
  | on a =>
    obtain ⟨c1, r1⟩ := (show On h1 a from d1.is).rep
    obtain ⟨c2, r2⟩ := (show On h2 a from d2.is).rep
    have t : ∀ tp, (lift a c1).topic tp = (lift a c2).topic tp := fun tp => by cases tp <;> rfl
    exact ⟨r1.regs.trans r2.regs.symm, r1.mem.trans r2.mem.symm,
      fun tp w => ⟨onBus_same r1 r2 tp (t tp) w, onBus_same r2 r1 tp (t tp).symm w⟩⟩

/-- **C100.** While the machine runs, two buses never share an address, and each is allocated. -/
theorem C100_apart (ph : Phase) (h : H) (hr : Reach ph h) (cs : List (Malloc × Call)) (ph' : Phase)
    (ok : ∀ x ∈ cs, x.1.Ok) (hl : Legal ph (cs.map (·.2)) ph') (hp : ph'.on = true) (vs : List CInt) (h1 : H)
    (e : execAllBy cs h = some (vs, h1)) :
    ∃ at_ : Slot → Nat, (∀ s, h1.busPtr s = some (at_ s) ∧ (h1.ps.heap (at_ s)).isSome) ∧
      ∀ s s', at_ s = at_ s' → s = s' := by
  obtain ⟨s, d⟩ := hr.desc
  obtain ⟨h2, e2, d2⟩ := d.callsBy cs ok hl
  rw [e] at e2
  cases e2
  obtain ⟨a, o⟩ := d2.inv.on hp
  obtain ⟨c1, r⟩ := o.rep
  have l := r.live
  have k : ∀ s, ∃ a, h1.busPtr s = some a ∧ (h1.ps.heap a).isSome := fun s => by
    obtain ⟨a, b, id, g1, g2, _⟩ := l.slot s
    exact ⟨a, g1, by rw [g2]; rfl⟩
  refine ⟨fun s => (k s).choose, fun s => (k s).choose_spec, fun s s' e => ?_⟩
  have e : (k s).choose = (k s').choose := e
  exact l.inj s s' _ (k s).choose_spec.1 (by rw [e]; exact (k s').choose_spec.1)

/-- The lives of `C100_reused` and `C100_same_wrong`. -/
def lives (m : Malloc) : List (Malloc × Call) :=
  [(m, .init (fun i => i)), (m, .shutdown), (.bump, .setUpdateUi true), (m, .init (fun i => i))]

/-- **C100.** With an allocator that gives the lowest free address, which is one of those of
`C100_history`, the second `init` is given addresses that the shutdown has freed. -/
theorem C100_reused : Malloc.first.Ok ∧ Legal Phase.start ((lives .first).map (·.2)) ⟨true, true, 2, 1⟩ ∧
    ((execAllBy ((lives .first).take 1) H.start).map fun r => r.2.busPtr .memData) = some (some 0) ∧
    ((execAllBy (lives .first) H.start).map fun r => r.2.busPtr .memData) = some (some 0) ∧
    ((execAllBy (lives .bump) H.start).map fun r => r.2.busPtr .memData) = some (some 79) := by
  refine ⟨Malloc.first_ok, ?_, ?_, ?_, ?_⟩
  · simp only [lives, List.map, Legal, Call.Allowed, Call.after, Phase.start]
    decide
  · decide +kernel
  · decide +kernel
  · decide +kernel

/-- The condition is needed: were two buses put at one address, the shutdown would free it twice. -/
theorem C100_same_wrong : execAllBy (lives fun _ => 7) H.start = none := by
  have : (execAllBy (lives fun _ => 7) H.start).isNone = true := by decide +kernel
  exact Option.isNone_iff_eq_none.mp this

end Mpp
