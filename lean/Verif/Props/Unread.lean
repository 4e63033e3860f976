import Verif.Props.MicroText
import Verif.Pair
import Verif.Bus
/-!
# Property C89: what was in memory before does not matter

`init` fills memory with random bytes (`mem.c:38-50`). A history that reads only cells that were stored since, by the
host or by the program, goes the same way whatever these bytes were. Which cells a clock cycle reads and writes is taken
from `docs/src/pages/es/instructions/states.json`.
-/
namespace Mpp.Front

/-- The cells that a microstate reads: those right of an arrow in its line of the documentation. -/
def microReads (k : Nat) : List MicroAddr :=
  (microSteps.filter fun x => x.1 = k).flatMap fun x => x.2.moves.filterMap fun m =>
    match m.2 with
    | .cell a => some a
    | _ => none

/-- The cells that it writes: those left of an arrow. -/
def microWrites (k : Nat) : List MicroAddr :=
  (microSteps.filter fun x => x.1 = k).flatMap fun x => x.2.moves.filterMap fun m =>
    match m.1 with
    | .cell a => some a
    | _ => none

/-- According to the documentation the next clock cycle reads cell `a`. -/
def ReadsNow (h : H) (a : BitVec 16) : Prop :=
  ∃ k o, NextState h (BitVec.ofNat 32 k) ∧ Sees h o ∧ ∃ x ∈ microReads k, x.of o = a

/-- According to the documentation the next clock cycle writes cell `a`. -/
def WritesNow (h : H) (a : BitVec 16) : Prop :=
  ∃ k o, NextState h (BitVec.ofNat 32 k) ∧ Sees h o ∧ ∃ x ∈ microWrites k, x.of o = a

/-- A history from `h` on that reads only cells stored since the last `init`; `known` holds of those stored so far. The
data bus is not looked at. -/
inductive Careful : (BitVec 16 → Prop) → H → List Call → Prop
  | nil {known : BitVec 16 → Prop} {h : H} : Careful known h []
  | init {known : BitVec 16 → Prop} {h h' : H} {rand : Nat → Nat} {x : CInt} {cs : List Call}
      (run : exec (.init rand) h = some (x, h')) (rest : Careful (fun _ => False) h' cs) :
      Careful known h (.init rand :: cs)
  | cycle {known : BitVec 16 → Prop} {h h' : H} {u : Bool} {x : CInt} {cs : List Call}
      (reads : ∀ a, ReadsNow h a → known a) (run : exec (.runClockCycle u) h = some (x, h'))
      (rest : Careful (fun a => known a ∨ WritesNow h a) h' cs) : Careful known h (.runClockCycle u :: cs)
  | store {known : BitVec 16 → Prop} {h h' : H} {offset value x : CInt} {cs : List Call}
      (run : exec (.setMemoryValue offset value) h = some (x, h'))
      (rest : Careful (fun a => known a ∨ a = offset.setWidth 16) h' cs) :
      Careful known h (.setMemoryValue offset value :: cs)
  | load {known : BitVec 16 → Prop} {h h' : H} {offset x : CInt} {cs : List Call}
      (reads : IsAddr offset → known (offset.setWidth 16))
      (run : exec (.getMemoryValue offset) h = some (x, h')) (rest : Careful known h' cs) :
      Careful known h (.getMemoryValue offset :: cs)
  | other {known : BitVec 16 → Prop} {h h' : H} {c : Call} {x : CInt} {cs : List Call}
      (kind : match c with
        | .init _ | .runClockCycle _ | .setMemoryValue _ _ | .getMemoryValue _ | .getDataBus => False
        | _ => True)
      (run : exec c h = some (x, h')) (rest : Careful known h' cs) : Careful known h (c :: cs)

/-- A call without the random numbers it gets. -/
def noRandom : Call → Call
  | .init _ => .init fun _ => 0
  | c => c

/-! ## Two machines that differ in memory -/

/-- The address in a visible state. -/
def MicroAddr.inV (v : V) : MicroAddr → BitVec 16
  | .pc => v.pc
  | .hl => v.hl
  | .sp => v.sp

theorem of_seen (v : V) (x : MicroAddr) : x.of (seenOf v) = x.inV v := by
  obtain ⟨h1, h2, h3⟩ := addr_of v
  cases x <;> assumption

/-- The same but for the cells that are not known. -/
def OnlyMem (known : BitVec 16 → Prop) (v w : V) : Prop :=
  w = { v with mem := w.mem } ∧ ∀ a, known a → v.mem a = w.mem a

theorem incPc_only (v : V) (m : BitVec 16 → BitVec 8) :
    ({ v with mem := m } : V).incPc = { v.incPc with mem := m } := by
  unfold V.incPc V.setPc
  by_cases e : v.pc = 0xFFFF
  · rw [if_pos e, if_pos e]
  · rw [if_neg e, if_neg e]

theorem decSp_only (v : V) (m : BitVec 16 → BitVec 8) :
    ({ v with mem := m } : V).decSp = { v.decSp with mem := m } := by
  unfold V.decSp
  by_cases e : v.sp = 0
  · rw [if_pos e, if_pos e]
  · rw [if_neg e, if_neg e]

theorem incSp_only (v : V) (m : BitVec 16 → BitVec 8) :
    ({ v with mem := m } : V).incSp = { v.incSp with mem := m } := by
  unfold V.incSp
  by_cases e : v.sp = 0xFFFF
  · rw [if_pos e, if_pos e]
  · rw [if_neg e, if_neg e]

theorem decSp_mem (v : V) : v.decSp.mem = v.mem := by unfold V.decSp; split <;> rfl
theorem incSp_mem (v : V) : v.incSp.mem = v.mem := by unfold V.incSp; split <;> rfl

theorem upd_agree {f g : BitVec 16 → BitVec 8} (b : BitVec 16) (x : BitVec 8) (a : BitVec 16)
    (h : f a = g a ∨ a = b) : upd f b x a = upd g b x a := by
  unfold upd
  by_cases e : a = b
  · rw [if_pos e, if_pos e]
  · rw [if_neg e, if_neg e]; exact h.resolve_right e

/-- One microstate, with another memory. -/
theorem rtl_only (k : Nat) (v : V) (m : BitVec 16 → BitVec 8) (hr : ∀ x ∈ microReads k, v.mem (x.inV v) = m (x.inV v)) :
    ∃ m', ({ v with mem := m } : V).rtl k = { v.rtl k with mem := m' } ∧
      ∀ a, (v.mem a = m a ∨ ∃ x ∈ microWrites k, x.inV v = a) → (v.rtl k).mem a = m' a := by
  have keep : ∀ {k}, microWrites k = [] → (v.rtl k).mem = v.mem →
      ∀ a, (v.mem a = m a ∨ ∃ x ∈ microWrites k, x.inV v = a) → (v.rtl k).mem a = m a := by
    intro k hk he a ha
    rw [he]
    refine ha.resolve_right ?_
    rw [hk]
    rintro ⟨x, hx, _⟩
    cases hx
  have wrote : ∀ {k : Nat} {x : MicroAddr}, microWrites k = [x] →
      ∀ a, (v.mem a = m a ∨ ∃ x ∈ microWrites k, x.inV v = a) → v.mem a = m a ∨ a = x.inV v := by
    intro k x hk a ha
    rcases ha with ha | ⟨y, hy, ha⟩
    · exact .inl ha
    · rw [hk] at hy
      cases List.mem_singleton.1 hy
      exact .inr ha.symm
  match k, hr with
  | 0, hr =>
    have e : v.mem v.pc = m v.pc := hr .pc (by decide)
    refine ⟨m, ?_, keep (by decide) (incPc_mem _)⟩
    show ({ v with mem := m, ri := m v.pc } : V).incPc = _
    rw [← e]
    exact incPc_only { v with ri := v.mem v.pc } m
  | 1, _ => exact ⟨m, rfl, keep (by decide) rfl⟩
  | 2, _ => exact ⟨m, rfl, keep (by decide) rfl⟩
  | 3, _ => exact ⟨m, rfl, keep (by decide) rfl⟩
  | 4, _ => exact ⟨m, rfl, keep (by decide) rfl⟩
  | 5, _ => exact ⟨m, rfl, keep (by decide) rfl⟩
  | 6, _ => exact ⟨m, rfl, keep (by decide) rfl⟩
  | 7, _ => exact ⟨m, rfl, keep (by decide) rfl⟩
  | 8, _ => exact ⟨m, rfl, keep (by decide) rfl⟩
  | 9, _ => exact ⟨m, rfl, keep (by decide) rfl⟩
  | 10, _ => exact ⟨m, rfl, keep (by decide) rfl⟩
  | 11, _ => exact ⟨m, rfl, keep (by decide) rfl⟩
  | 12, _ => exact ⟨m, rfl, keep (by decide) rfl⟩
  | 13, _ => exact ⟨m, rfl, keep (by decide) rfl⟩
  | 14, _ => exact ⟨m, rfl, keep (by decide) rfl⟩
  | 15, hr =>
    have e : v.mem v.pc = m v.pc := hr .pc (by decide)
    refine ⟨m, ?_, keep (by decide) (incPc_mem _)⟩
    show ({ v with mem := m, op2 := m v.pc } : V).incPc = _
    rw [← e]
    exact incPc_only { v with op2 := v.mem v.pc } m
  | 16, hr =>
    have e : v.mem v.pc = m v.pc := hr .pc (by decide)
    refine ⟨m, ?_, keep (by decide) (incPc_mem _)⟩
    show ({ v with mem := m, h := m v.pc } : V).incPc = _
    rw [← e]
    exact incPc_only { v with h := v.mem v.pc } m
  | 17, hr =>
    have e : v.mem v.pc = m v.pc := hr .pc (by decide)
    refine ⟨m, ?_, keep (by decide) (incPc_mem _)⟩
    show ({ v with mem := m, l := m v.pc } : V).incPc = _
    rw [← e]
    exact incPc_only { v with l := v.mem v.pc } m
  | 18, hr =>
    have e : v.mem v.hl = m v.hl := hr .hl (by decide)
    refine ⟨m, ?_, keep (by decide) rfl⟩
    show ({ v with mem := m, op2 := m v.hl } : V) = _
    rw [← e]
    rfl
  | 19, _ => exact ⟨upd m v.hl v.op2, rfl, fun a ha => upd_agree _ _ a (wrote (x := .hl) (by decide) a ha)⟩
  | 20, _ => exact ⟨m, rfl, keep (by decide) rfl⟩
  | 21, _ => exact ⟨m, rfl, keep (by decide) rfl⟩
  | 22, _ => exact ⟨m, rfl, keep (by decide) rfl⟩
  | 23, _ => exact ⟨m, rfl, keep (by decide) rfl⟩
  | 24, _ => exact ⟨m, rfl, keep (by decide) rfl⟩
  | 25, _ => exact ⟨m, rfl, keep (by decide) rfl⟩
  | 26, _ => exact ⟨m, decSp_only v m, keep (by decide) (decSp_mem v)⟩
  | 27, _ =>
    refine ⟨upd m v.sp (V.flagByte v.fc v.fz), rfl, fun a ha => upd_agree _ _ a (.inl (ha.resolve_right ?_))⟩
    rintro ⟨x, hx, _⟩
    exact absurd hx (List.not_mem_nil (a := x))
  | 28, _ => exact ⟨upd m v.sp v.pch, rfl, fun a ha => upd_agree _ _ a (wrote (x := .sp) (by decide) a ha)⟩
  | 29, _ => exact ⟨upd m v.sp v.pcl, rfl, fun a ha => upd_agree _ _ a (wrote (x := .sp) (by decide) a ha)⟩
  | 30, _ => exact ⟨m, rfl, keep (by decide) rfl⟩
  | 31, _ => exact ⟨m, incSp_only v m, keep (by decide) (incSp_mem v)⟩
  | 32, hr =>
    have e : v.mem v.sp = m v.sp := hr .sp (by decide)
    refine ⟨m, ?_, keep (by decide) rfl⟩
    show ({ v with mem := m, pcl := m v.sp, pc := V.hi v.pc ++ m v.sp } : V) = _
    rw [← e]
    rfl
  | 33, hr =>
    have e : v.mem v.sp = m v.sp := hr .sp (by decide)
    refine ⟨m, ?_, keep (by decide) rfl⟩
    show ({ v with mem := m, pch := m v.sp, pc := m v.sp ++ V.lo v.pc } : V) = _
    rw [← e]
    rfl
  | 34, hr =>
    have e : v.mem v.sp = m v.sp := hr .sp (by decide)
    refine ⟨m, ?_, keep (by decide) rfl⟩
    show ({ v with mem := m, fc := (m v.sp).getLsbD 7, fz := (m v.sp).getLsbD 0 } : V) = _
    rw [← e]
    rfl
  | 35, _ => exact ⟨m, rfl, keep (by decide) rfl⟩
  | 36, _ => exact ⟨upd m v.sp v.ac, rfl, fun a ha => upd_agree _ _ a (wrote (x := .sp) (by decide) a ha)⟩
  | 37, hr =>
    have e : v.mem v.sp = m v.sp := hr .sp (by decide)
    refine ⟨m, ?_, keep (by decide) rfl⟩
    show ({ v with mem := m, ac := m v.sp } : V) = _
    rw [← e]
    rfl
  | 38, _ => exact ⟨m, rfl, keep (by decide) rfl⟩
  | 39, _ => exact ⟨m, rfl, keep (by decide) rfl⟩
  | 40, _ => exact ⟨m, decSp_only v m, keep (by decide) (decSp_mem v)⟩
  | 41, _ => exact ⟨m, incSp_only v m, keep (by decide) (incSp_mem v)⟩
  | 42, _ => exact ⟨m, decSp_only v m, keep (by decide) (decSp_mem v)⟩
  | 43, _ => exact ⟨m, incSp_only v m, keep (by decide) (incSp_mem v)⟩
  | 44, _ => exact ⟨m, rfl, keep (by decide) rfl⟩
  | k + 45, _ =>
    refine ⟨m, rfl, fun a ha => ha.resolve_right ?_⟩
    rintro ⟨x, hx, _⟩
    simp only [microWrites, List.mem_flatMap, List.mem_filter, decide_eq_true_eq] at hx
    obtain ⟨y, ⟨hy, e⟩, _⟩ := hx
    have : ∀ y ∈ microSteps, y.1 < 45 := by decide
    have := this y hy
    omega

/-- Two shut down machines with the same errors, or two running ones that differ in cells that are not known. -/
def Twin (known : BitVec 16 → Prop) : Abs → Abs → Prop
  | .off l, .off l' => l = l'
  | .on a, .on b => OnlyMem known a.view b.view ∧ a.dd = b.dd ∧ a.q = b.q ∧ a.dir2 = b.dir2 ∧ a.control = b.control
  | _, _ => False

theorem At.touches {h : H} {m : M} (t : At h m) {f : Nat → List MicroAddr} (hf : ∀ k, 64 ≤ k → f k = [])
    (a : BitVec 16) : (∃ k o, NextState h (BitVec.ofNat 32 k) ∧ Sees h o ∧ ∃ x ∈ f k, x.of o = a) ↔
      ∃ x ∈ f m.s.toNat, x.inV m.v = a := by
  constructor
  · rintro ⟨k, o, n, so, x, hx, rfl⟩
    have hk : k < 64 := by
      refine Nat.lt_of_not_le fun hk => ?_
      rw [hf k hk] at hx
      cases hx
    obtain ⟨_, rfl⟩ := At.isNext t hk n
    refine ⟨x, hx, ?_⟩
    have e : ∀ t', o.reg t' = (seenOf m.v).reg t' := fun t' => some_inj ((so.1 t').symm.trans ((At.sees t).1 t'))
    rw [← of_seen]
    cases x
    · show (_ : CInt).setWidth 16 = (_ : CInt).setWidth 16; rw [e]
    · show BitVec.ofNat 16 (_ * 256 + _) = BitVec.ofNat 16 (_ * 256 + _); unfold Seen.nat; rw [e, e]
    · show (_ : CInt).setWidth 16 = (_ : CInt).setWidth 16; rw [e]
  · rintro ⟨x, hx, rfl⟩
    refine ⟨m.s.toNat, seenOf m.v, ?_, At.sees t, x, hx, of_seen _ _⟩
    have := t.next
    rwa [show m.s.setWidth 32 = BitVec.ofNat 32 m.s.toNat from
      BitVec.eq_of_toNat_eq (by rw [BitVec.toNat_setWidth, BitVec.toNat_ofNat])] at this

theorem microSteps_none {k : Nat} (hk : 64 ≤ k) : (microSteps.filter fun x => x.1 = k) = [] := by
  rw [List.filter_eq_nil_iff]
  intro x hx e
  have := microSteps_lt x hx
  rw [of_decide_eq_true e] at this
  omega

theorem microReads_none (k : Nat) (hk : 64 ≤ k) : microReads k = [] := by unfold microReads; rw [microSteps_none hk]; rfl
theorem microWrites_none (k : Nat) (hk : 64 ≤ k) : microWrites k = [] := by
  unfold microWrites; rw [microSteps_none hk]; rfl

theorem At.readsNow {h : H} {m : M} (t : At h m) (a : BitVec 16) :
    ReadsNow h a ↔ ∃ x ∈ microReads m.s.toNat, x.inV m.v = a := At.touches t microReads_none a

theorem At.writesNow {h : H} {m : M} (t : At h m) (a : BitVec 16) :
    WritesNow h a ↔ ∃ x ∈ microWrites m.s.toNat, x.inV m.v = a := At.touches t microWrites_none a

theorem Twin.log {known : BitVec 16 → Prop} {s1 s2 : Abs} (t : Twin known s1 s2) : s1.log = s2.log := by
  match s1, s2, t with
  | .off _, .off _, t => exact t
  | .on a, .on b, ⟨⟨e, _⟩, _⟩ => exact (congrArg V.log e).symm

theorem Twin.cycle {known : BitVec 16 → Prop} {a b : A} {h : H} (o : On h a) (ho : b.Settled)
    (t : Twin known (.on a) (.on b)) (hr : ∀ x, ReadsNow h x → known x) :
    Twin (fun x => known x ∨ WritesNow h x) (.on a.cycle) (.on b.cycle) := by
  obtain ⟨⟨hv, hm⟩, hd, hq, h2, hc⟩ := t
  have lt := o.ok.lt
  obtain ⟨c1, _, c2, c3, c4, _, _⟩ := A.cycle_spec a o.settled lt
  obtain ⟨d1, _, d2, d3, d4, _, _⟩ := A.cycle_spec b ho (hd ▸ lt)
  have e1 := (A.cycle_bus a o.settled lt).2
  have e2 := (A.cycle_bus b ho (hd ▸ lt)).2
  rw [← hd] at d1 d2 d3 d4 e2
  obtain ⟨m', r, w⟩ := rtl_only a.dd.toNat a.view b.view.mem
    (fun x hx => hm _ (hr _ ((At.readsNow o.at _).2 ⟨x, hx, rfl⟩)))
  rw [← hv] at r
  refine ⟨⟨?_, fun x hx => ?_⟩, ?_, c2.trans d2.symm, ?_, c4.trans d4.symm⟩
  · rw [d1, c1, r]
  · rw [d1, c1, r]
    refine w x ?_
    rcases hx with hx | hx
    · exact .inl (hm x hx)
    · exact .inr ((At.writesNow o.at x).1 hx)
  · rw [c3, d3]
    have f1 : b.ri = a.ri := congrArg V.ri hv
    have f2 : b.fc = a.fc := congrArg V.fc hv
    have f3 : b.fz = a.fz := congrArg V.fz hv
    rw [f1, f2, f3]
  · rw [e1, e2]
    have g1 : b.view.hl = a.view.hl := by rw [hv]; rfl
    unfold V.dirAfter
    rw [r, g1]

theorem noRandom_same {c d : Call} (h : noRandom d = noRandom c) (hc : ∀ r, c ≠ .init r) : d = c := by
  cases c with
  | init r => exact absurd rfl (hc r)
  | _ => cases d <;> first | exact h | cases h

theorem careful_step {c d : Call} {cs ds : List Call} {p q : Phase} {h h' g : H} {x : CInt} {s1 s2 : Abs}
    (e : noRandom d = noRandom c) (run : exec c h = some (x, h')) (d1 : Desc p h s1) (d2 : Desc p g s2)
    (hv : s1.value c = s2.value d) (l : Legal p (c :: cs) q)
    (next : ∀ g', Desc (c.after p) h' (s1.call c) → Desc (c.after p) g' (s2.call d) → Legal (c.after p) cs q →
      ∃ vs h'' g'', execAll cs h' = some (vs, h'') ∧ execAll ds g' = some (vs, g'') ∧ h''.log = g''.log) :
    ∃ vs h'' g'', execAll (c :: cs) h = some (vs, h'') ∧ execAll (d :: ds) g = some (vs, g'') ∧
      h''.log = g''.log := by
  have k : (d.Allowed p ↔ c.Allowed p) ∧ d.after p = c.after p := by
    cases c with
    | init r => cases d <;> first | exact ⟨Iff.rfl, rfl⟩ | cases e
    | _ => rw [noRandom_same e (fun _ => Call.noConfusion)]; exact ⟨Iff.rfl, rfl⟩
  obtain ⟨h1, e1, d1'⟩ := d1.call c l.1
  cases run.symm.trans e1
  obtain ⟨g1, e2, d2'⟩ := d2.call d (k.1.2 l.1)
  rw [k.2] at d2'
  rw [← hv] at e2
  obtain ⟨vs, h'', g'', e3, e4, e5⟩ := next g1 d1' d2' l.2
  exact ⟨s1.value c :: vs, h'', g'', by simp only [execAll, e1, Option.bind_some, e3, Option.map_some],
    by simp only [execAll, e2, Option.bind_some, e4, Option.map_some], e5⟩

theorem Twin.reg {known : BitVec 16 → Prop} {a b : A} (t : Twin known (.on a) (.on b)) (r : WType) :
    a.view.reg r = b.view.reg r := by
  rw [t.1.1]; cases r <;> rfl

theorem Twin.load {known : BitVec 16 → Prop} {a b : A} (t : Twin known (.on a) (.on b)) {offset : CInt}
    (reads : IsAddr offset → known (offset.setWidth 16)) :
    (Abs.on a).value (.getMemoryValue offset) = (Abs.on b).value (.getMemoryValue offset) := by
  simp only [Abs.value, A.value]
  by_cases ha : IsAddr offset
  · rw [if_pos ha, if_pos ha]
    exact congrArg (BitVec.setWidth 32) (t.1.2 _ (reads ha))
  · rw [if_neg ha, if_neg ha]

theorem off_on {p : Phase} {h : H} {l : List Err} (d : Desc p h (.off l)) (e : p.on = true) : False :=
  Bool.noConfusion (d.phase.symm.trans e)

theorem Twin.otherOff {known : BitVec 16 → Prop} (l : List Err) {c : Call}
    (kind : match c with
      | .init _ | .runClockCycle _ | .setMemoryValue _ _ | .getMemoryValue _ | .getDataBus => False
      | _ => True) :
    Twin known ((Abs.off l).call c) ((Abs.off l).call c) := by
  cases c <;> first | exact kind.elim | exact (rfl : l = l)

theorem Twin.otherValue {known : BitVec 16 → Prop} {a b : A} (t : Twin known (.on a) (.on b)) {c : Call}
    (kind : match c with
      | .init _ | .runClockCycle _ | .setMemoryValue _ _ | .getMemoryValue _ | .getDataBus => False
      | _ => True) :
    (Abs.on a).value c = (Abs.on b).value c := by
  obtain ⟨⟨hv, hm⟩, hd, hq, h2, hc⟩ := id t
  cases c with
  | getRegisterValue r => exact t.reg r
  | getState => simp only [Abs.value, A.value, hq]
  | getNextState => simp only [Abs.value, A.value, hd]
  | getMemoryDirBus => simp only [Abs.value, A.value, h2]
  | getControlBit k => simp only [Abs.value, A.value, hc]
  | getControlSelalu => simp only [Abs.value, A.value, hc]
  | _ => first | exact kind.elim | rfl

theorem Twin.other {known : BitVec 16 → Prop} {a b : A} (t : Twin known (.on a) (.on b)) {c : Call}
    (kind : match c with
      | .init _ | .runClockCycle _ | .setMemoryValue _ _ | .getMemoryValue _ | .getDataBus => False
      | _ => True) :
    Twin known ((Abs.on a).call c) ((Abs.on b).call c) := by
  obtain ⟨⟨hv, hm⟩, hd, hq, h2, hc⟩ := id t
  cases c with
  | shutdown => exact t.log
  | resetControl => exact ⟨⟨hv, hm⟩, rfl, rfl, h2, rfl⟩
  | setRegisterPc value =>
    exact ⟨⟨congrArg (fun w : V => { w with pc := value.setWidth 16 }) hv, hm⟩, hd, hq, h2, hc⟩
  | _ => first | exact kind.elim | exact t

theorem Twin.cases {known : BitVec 16 → Prop} {s1 s2 : Abs} (t : Twin known s1 s2) :
    (∃ l, s1 = .off l ∧ s2 = .off l) ∨ ∃ a b, s1 = .on a ∧ s2 = .on b ∧ Twin known (.on a) (.on b) := by
  match s1, s2, t with
  | .off l, .off _, rfl => exact .inl ⟨l, rfl, rfl⟩
  | .on a, .on b, t => exact .inr ⟨a, b, rfl, rfl, t⟩

theorem careful_calls {known : BitVec 16 → Prop} {h : H} {cs : List Call} (c : Careful known h cs) :
    ∀ {ds : List Call} {p q : Phase} {g : H} {s1 s2 : Abs}, Twin known s1 s2 → Desc p h s1 → Desc p g s2 →
      Legal p cs q → ds.map noRandom = cs.map noRandom →
      ∃ vs h' g', execAll cs h = some (vs, h') ∧ execAll ds g = some (vs, g') ∧ h'.log = g'.log := by
  induction c with
  | nil =>
    intro ds p q g s1 s2 t d1 d2 _ e
    cases List.map_eq_nil_iff.1 e
    exact ⟨[], _, _, rfl, rfl, d1.log.trans (t.log.trans d2.log.symm)⟩
  | @init known h h' rand x cs run rest ih =>
    intro ds p q g s1 s2 t d1 d2 l e
    cases ds with
    | nil => cases e
    | cons d ds =>
    obtain ⟨e, es⟩ := List.cons.inj e
    cases d with
    | init r =>
      refine careful_step e run d1 d2 rfl l (fun g' f1 f2 l' => ih ?_ f1 f2 l' es)
      refine ⟨⟨?_, fun _ hf => hf.elim⟩, rfl, rfl, rfl, rfl⟩
      rw [t.log]
      rfl
    | _ => cases e
  | @cycle known h h' u x cs reads run rest ih =>
    intro ds p q g s1 s2 t d1 d2 l e
    cases ds with
    | nil => cases e
    | cons d ds =>
    obtain ⟨e, es⟩ := List.cons.inj e
    cases noRandom_same e (fun _ => Call.noConfusion)
    rcases t.cases with ⟨l1, rfl, rfl⟩ | ⟨a, b, rfl, rfl, t⟩
    · exact (off_on d1 l.1.1).elim
    · exact careful_step e run d1 d2 rfl l fun g' f1 f2 l' =>
        ih (Twin.cycle d1.is (On.settled d2.is) t reads) f1 f2 l' es
  | @store known h h' offset value x cs run rest ih =>
    intro ds p q g s1 s2 t d1 d2 l e
    cases ds with
    | nil => cases e
    | cons d ds =>
    obtain ⟨e, es⟩ := List.cons.inj e
    cases noRandom_same e (fun _ => Call.noConfusion)
    rcases t.cases with ⟨l1, rfl, rfl⟩ | ⟨a, b, rfl, rfl, t⟩
    · exact (off_on d1 l.1.1).elim
    · obtain ⟨⟨hv, hm⟩, t⟩ := t
      refine careful_step e run d1 d2 rfl l fun g' f1 f2 l' => ih ?_ f1 f2 l' es
      refine ⟨⟨?_, fun i hi => ?_⟩, t⟩
      · exact congrArg (fun w : V => { w with mem := upd b.mem (offset.setWidth 16) (value.setWidth 8) }) hv
      · exact upd_agree _ _ _ (hi.imp (hm i) id)
  | @load known h h' offset x cs reads run rest ih =>
    intro ds p q g s1 s2 t d1 d2 l e
    cases ds with
    | nil => cases e
    | cons d ds =>
    obtain ⟨e, es⟩ := List.cons.inj e
    cases noRandom_same e (fun _ => Call.noConfusion)
    rcases t.cases with ⟨l1, rfl, rfl⟩ | ⟨a, b, rfl, rfl, t⟩
    · exact (off_on d1 l.1).elim
    · exact careful_step e run d1 d2 (t.load reads) l fun g' f1 f2 l' => ih t f1 f2 l' es
  | @other known h h' c x cs kind run rest ih =>
    intro ds p q g s1 s2 t d1 d2 l e
    cases ds with
    | nil => cases e
    | cons d ds =>
    obtain ⟨e, es⟩ := List.cons.inj e
    cases noRandom_same e (fun r hr => by rw [hr] at kind; exact kind)
    rcases t.cases with ⟨l1, rfl, rfl⟩ | ⟨a, b, rfl, rfl, t⟩
    · exact careful_step e run d1 d2 rfl l fun g' f1 f2 l' => ih (Twin.otherOff l1 kind) f1 f2 l' es
    · exact careful_step e run d1 d2 (t.otherValue kind) l fun g' f1 f2 l' => ih (t.other kind) f1 f2 l' es

/-! ## The property -/

/-- Take any history of calls that respects the lifecycle and reads only cells stored since the last `init`, where the
cells that a clock cycle reads and stores are those of the documentation. Whatever the random numbers with which `init`
fills memory are, all calls return the same values and the same errors are reported. -/
theorem C89_random {cs ds : List Call} {p : Phase} (l : Legal Phase.start cs p)
    (c : Careful (fun _ => False) H.start cs) (e : ds.map noRandom = cs.map noRandom) :
    ∃ vs h g, execAll cs H.start = some (vs, h) ∧ execAll ds H.start = some (vs, g) ∧ h.log = g.log :=
  careful_calls c (s1 := .off []) (s2 := .off []) rfl Desc.start Desc.start l e

/-! ### Instances -/

/-- The same as `Careful` for a machine that is not initialised again. -/
def Tame : (BitVec 16 → Prop) → M → List Call → Prop
  | _, _, [] => True
  | known, m, c :: cs =>
    match c with
    | .init _ => False
    | .shutdown => False
    | .getDataBus => False
    | .runClockCycle _ => (∀ x ∈ microReads m.s.toNat, known (x.inV m.v)) ∧
      Tame (fun i => known i ∨ ∃ x ∈ microWrites m.s.toNat, x.inV m.v = i) (m.call c) cs
    | .setMemoryValue offset _ => Tame (fun i => known i ∨ i = offset.setWidth 16) (m.call c) cs
    | .getMemoryValue offset => (IsAddr offset → known (offset.setWidth 16)) ∧ Tame known (m.call c) cs
    | _ => Tame known (m.call c) cs

theorem Tame.careful {cs : List Call} : ∀ {known : BitVec 16 → Prop} {p q : Phase} {h : H} {a : A},
    Tame known a.m cs → Desc p h (.on a) → Legal p cs q → Careful known h cs := by
  induction cs with
  | nil => intros; exact .nil
  | cons c cs ih =>
    intro known p q h a t d l
    obtain ⟨h', e, d'⟩ := d.call c l.1
    have o : On h a := d.is
    have k := a.m_call o.settled o.ok.lt c
    cases c with
    | init r => exact t.elim
    | shutdown => exact t.elim
    | getDataBus => exact t.elim
    | runClockCycle u =>
      refine .cycle (fun i hi => ?_) e ?_
      · obtain ⟨x, hx, rfl⟩ := (At.readsNow o.at i).1 hi
        exact t.1 x hx
      · have k' : (fun i => known i ∨ WritesNow h i) =
            fun i => known i ∨ ∃ x ∈ microWrites a.m.s.toNat, x.inV a.m.v = i := by
          funext i; exact congrArg _ (propext (At.writesNow o.at i))
        rw [k']
        exact ih (k ▸ t.2) d' l.2
    | setMemoryValue offset value => exact .store e (ih (k ▸ t) d' l.2)
    | getMemoryValue offset => exact .load t.1 e (ih (k ▸ t.2) d' l.2)
    | _ => exact .other trivial e (ih (k ▸ t) d' l.2)

theorem Tame.start {cs : List Call} {r : Nat → Nat} {p : Phase}
    (l : Legal Phase.start (.setUpdateUi true :: .init r :: cs) p)
    (t : Tame (fun _ => False) ⟨(A.fresh r []).view, 0⟩ cs) :
    Careful (fun _ => False) H.start (.setUpdateUi true :: .init r :: cs) := by
  obtain ⟨h1, e1, d1⟩ := Desc.start.call (.setUpdateUi true) l.1
  obtain ⟨h2, e2, d2⟩ := d1.call (.init r) l.2.1
  exact .other trivial e1 (.init e2 (Tame.careful (a := A.fresh r []) t d2 l.2.2))

theorem careful_path (m : M) (h0 : m.s = 0) (h1 : m.v.pc = 0) (h2 : m.v.mem 0 = 0x64) (h3 : m.v.fc = false)
    (h4 : m.v.fz = false) (h5 : m.v.ri = 0) :
    m.step.s = 1 ∧ m.step.step.s = 15 ∧ m.step.step.v.pc = 1 ∧ m.step.step.step.s = 4 := by
  obtain ⟨v, s⟩ := m
  replace h0 : s = 0 := h0
  subst h0
  replace h1 : v.pc = 0 := h1
  replace h2 : v.mem 0 = 0x64 := h2
  replace h3 : v.fc = false := h3
  replace h4 : v.fz = false := h4
  replace h5 : v.ri = 0 := h5
  have e : v.rtl 0 = { v with ri := 0x64, pch := 0, pcl := 1, pc := 1 } := by
    simp only [V.rtl, V.incPc, V.setPc, h1, h2]
    rw [if_neg (by decide)]
    rw [(by decide : V.hi (0 + 1) = 0), (by decide : V.lo (0 + 1) = 1)]
    rfl
  have s1 : (⟨v, 0⟩ : M).step = ⟨{ v with ri := 0x64, pch := 0, pcl := 1, pc := 1 }, 1⟩ := by
    show (⟨v.rtl 0, A.nextOf 0 v.ri v.fc v.fz⟩ : M) = _
    rw [e, h3, h4, h5]
    exact congrArg _ (by decide +kernel)
  have s2 : (⟨{ v with ri := 0x64, pch := 0, pcl := 1, pc := 1 }, 1⟩ : M).step = ⟨{ v with ri := 0x64, pch := 0, pcl := 1, pc := 1 }, 15⟩ := by
    show (⟨_, A.nextOf 1 0x64 v.fc v.fz⟩ : M) = _
    rw [h3, h4]
    exact congrArg _ (by decide +kernel)
  have s3 : (⟨{ v with ri := 0x64, pch := 0, pcl := 1, pc := 1 }, 15⟩ : M).step.s = 4 := by
    show A.nextOf 15 0x64 v.fc v.fz = _
    rw [h3, h4]
    decide +kernel
  rw [s1, s2]
  exact ⟨rfl, rfl, rfl, s3⟩

/-- A program of two bytes, `MOV 42, AC`, is stored and run: its cells are known and nothing else is read. -/
def carefulHistory (r : Nat → Nat) : List Call :=
  [.setUpdateUi true, .init r, .setMemoryValue 0 0x64, .setMemoryValue 1 42, .setRegisterPc 0, .runClockCycle true,
    .runClockCycle true, .runClockCycle true, .runClockCycle true, .getRegisterValue .acum, .getMemoryValue 1]

theorem careful_legal (r : Nat → Nat) : Legal Phase.start (carefulHistory r) ⟨true, true, 1, 1⟩ := by
  refine ⟨trivial, (by decide : 0 < 27183337), ⟨rfl, rfl, by decide, by decide⟩, ⟨rfl, rfl, by decide, by decide⟩,
    ⟨rfl, rfl, by decide⟩, ⟨rfl, fun _ => rfl⟩, ⟨rfl, fun _ => rfl⟩, ⟨rfl, fun _ => rfl⟩,
    ⟨rfl, fun _ => rfl⟩, rfl, rfl, rfl⟩

example (r r' : Nat → Nat) : ∃ vs h g, execAll (carefulHistory r) H.start = some (vs, h) ∧
    execAll (carefulHistory r') H.start = some (vs, g) ∧ h.log = g.log := by
  refine C89_random (careful_legal r) (Tame.start (careful_legal r) ?_) rfl
  have h0 : microReads 0 = [.pc] := by decide +kernel
  have h1 : microReads 1 = [] := by decide +kernel
  have h4 : microReads 4 = [] := by decide +kernel
  have h15 : microReads 15 = [.pc] := by decide +kernel
  obtain ⟨p1, p2, p3, p4⟩ := careful_path (M.call (.setRegisterPc 0) (M.call (.setMemoryValue 1 42)
    (M.call (.setMemoryValue 0 0x64) ⟨(A.fresh r []).view, 0⟩))) rfl rfl rfl rfl rfl rfl
  refine ⟨fun x hx => ?_, fun x hx => ?_, fun x hx => ?_, fun x hx => ?_, fun _ => ?_, trivial⟩
  · replace hx : x ∈ microReads 0 := hx
    rw [h0] at hx
    cases List.mem_singleton.1 hx
    exact .inl (.inr rfl)
  · replace hx : x ∈ microReads (M.step _).s.toNat := hx
    rw [p1] at hx
    replace hx : x ∈ microReads 1 := hx
    rw [h1] at hx
    cases hx
  · replace hx : x ∈ microReads (M.step (M.step _)).s.toNat := hx
    rw [p2] at hx
    replace hx : x ∈ microReads 15 := hx
    rw [h15] at hx
    cases List.mem_singleton.1 hx
    exact .inl (.inl (.inr p3))
  · replace hx : x ∈ microReads (M.step (M.step (M.step _))).s.toNat := hx
    rw [p4] at hx
    replace hx : x ∈ microReads 4 := hx
    rw [h4] at hx
    cases hx
  · exact .inl (.inl (.inl (.inl (.inr rfl))))

/-- A history that reads only the cell it stored. -/
def fetchHistory (r : Nat → Nat) : List Call :=
  [.setUpdateUi true, .init r, .setMemoryValue 0 0x64, .runClockCycle false]

theorem fetch_legal (r : Nat → Nat) : Legal Phase.start (fetchHistory r) ⟨true, true, 1, 1⟩ :=
  ⟨trivial, (by decide : 0 < 27183337), ⟨rfl, rfl, by decide, by decide⟩, ⟨rfl, fun _ => rfl⟩, rfl⟩

theorem fetch_bus (r : Nat → Nat) : ∃ h, execAll (fetchHistory r ++ [.getDataBus]) H.start =
    some ([0, 0, 0, 0, (randByte (r 1)).setWidth 32], h) := by
  obtain ⟨h1, e1, d1⟩ := Desc.start.call (.setUpdateUi true) (fetch_legal r).1
  obtain ⟨h2, e2, d2⟩ := d1.call (.init r) (fetch_legal r).2.1
  obtain ⟨h3, e3, d3⟩ := d2.call (.setMemoryValue 0 0x64) (fetch_legal r).2.2.1
  obtain ⟨h4, e4, d4⟩ := d3.call (.runClockCycle false) (fetch_legal r).2.2.2.1
  obtain ⟨h5, e5, d5⟩ := d4.call .getDataBus rfl
  have o : On h3 ((A.fresh r []).call (.setMemoryValue 0 0x64)) := d3.is
  have k : (((A.fresh r []).call (.setMemoryValue 0 0x64)).cycle).data = randByte (r 1) := by
    rw [(A.cycle_bus _ o.settled o.ok.lt).1]
    rfl
  replace e5 : exec .getDataBus h4 =
    some ((((A.fresh r []).call (.setMemoryValue 0 0x64)).cycle).data.setWidth 32, h5) := e5
  rw [k] at e5
  exact ⟨h5, by simp only [fetchHistory, List.cons_append, List.nil_append, execAll, e1, e2, e3, e4, e5,
    Option.bind_some, Option.map_some]; rfl⟩

/-- Looking at the data bus has to be left out: after a fetch, which reads the one cell that was stored, it shows the
byte after that cell. -/
theorem C89_data_bus : ∃ (r r' : Nat → Nat), Careful (fun _ => False) H.start (fetchHistory r) ∧
    ∃ vs vs' h h', execAll (fetchHistory r ++ [.getDataBus]) H.start = some (vs, h) ∧
      execAll (fetchHistory r' ++ [.getDataBus]) H.start = some (vs', h') ∧ vs ≠ vs' := by
  refine ⟨fun _ => 0, fun _ => 1, Tame.start (fetch_legal _) ⟨fun x hx => ?_, trivial⟩, ?_⟩
  · have h0 : microReads 0 = [.pc] := by decide +kernel
    replace hx : x ∈ microReads 0 := hx
    rw [h0] at hx
    cases List.mem_singleton.1 hx
    exact .inr rfl
  · obtain ⟨h, e⟩ := fetch_bus fun _ => 0
    obtain ⟨h', e'⟩ := fetch_bus fun _ => 1
    exact ⟨_, _, h, h', e, e', by decide⟩

end Mpp.Front
