import Verif.Data
/-!
# Two machines running the same calls

Used for re-initialisation (C28) and for determinism (C30).
-/
namespace Mpp

/-- Two running machines related by `R` apart from the errors `l1`, `l2` reported before. -/
def Abs.Pair (R : A → A → Prop) (l1 l2 : List Err) : Abs → Abs → Prop
  | .off m1, .off m2 => ∃ new, m1 = new ++ l1 ∧ m2 = new ++ l2
  | .on a, .on b => ∃ a0 b0, a = a0.app l1 ∧ b = b0.app l2 ∧ R a0 b0
  | _, _ => False

/-- What `R` has to satisfy to be kept by all calls in `ok`. -/
structure Kept (R : A → A → Prop) (ok : Call → Prop) : Prop where
  fresh : ∀ rand log, R (A.fresh rand log) (A.fresh rand log)
  log : ∀ a b, R a b → a.log = b.log
  value : ∀ a b c, ok c → R a b → a.value c = b.value c
  call : ∀ a b c, a.Settled → b.Settled → OkState a.dd a.ri → R a b → R (a.call c) (b.call c)

theorem Abs.Pair.value {R : A → A → Prop} {ok : Call → Prop} (K : Kept R ok) {l1 l2 : List Err}
    {s1 s2 : Abs} (h : Abs.Pair R l1 l2 s1 s2) (c : Call) (hc : ok c) :
    s1.value c = s2.value c := by
  match s1, s2, h with
  | .off _, .off _, _ => cases c <;> rfl
  | .on _, .on _, ⟨a0, b0, rfl, rfl, h⟩ =>
    have := K.value a0 b0 c hc h
    rw [← A.app_value l1, ← A.app_value l2 b0] at this
    cases c <;> first | exact this | rfl

theorem Abs.Pair.call {R : A → A → Prop} {ok : Call → Prop} (K : Kept R ok) {l1 l2 : List Err}
    {s1 s2 : Abs} (h : Abs.Pair R l1 l2 s1 s2) (c : Call) {p1 p2 : Phase} {h1 h2 : H}
    (d1 : Desc p1 h1 s1) (d2 : Desc p2 h2 s2) :
    Abs.Pair R l1 l2 (s1.call c) (s2.call c) := by
  match s1, s2, h, d1, d2 with
  | .off _, .off _, ⟨new, rfl, rfl⟩, _, _ =>
    cases c with
    | init rand => exact ⟨A.fresh rand new, A.fresh rand new, rfl, rfl, K.fresh rand new⟩
    | _ => exact ⟨new, rfl, rfl⟩
  | .on _, .on _, ⟨a0, b0, rfl, rfl, h⟩, d1, d2 =>
    have o1 : On h1 (a0.app l1) := d1.is
    have o2 : On h2 (b0.app l2) := d2.is
    have hr := K.call a0 b0 c o1.settled o2.settled o1.ok h
    have hl := K.log a0 b0 h
    cases c with
    | init rand =>
      refine ⟨A.fresh rand a0.log, A.fresh rand a0.log, rfl, ?_, K.fresh rand _⟩
      show A.fresh rand (b0.log ++ l2) = _
      rw [← hl]; rfl
    | shutdown =>
      refine ⟨a0.log, rfl, ?_⟩
      show b0.log ++ l2 = _
      rw [hl]
    | _ => exact ⟨_, _, A.app_call l1 a0 _, A.app_call l2 b0 _, hr⟩

/-- Both machines return the same values and report the same new errors. -/
theorem pair_calls {R : A → A → Prop} {ok : Call → Prop} (K : Kept R ok) {l1 l2 : List Err}
    (cs : List Call) : ∀ {s1 s2 : Abs} {p1 p2 q1 q2 : Phase} {h1 h2 : H},
    Abs.Pair R l1 l2 s1 s2 → Desc p1 h1 s1 → Desc p2 h2 s2 → Legal p1 cs q1 → Legal p2 cs q2 →
    (∀ c ∈ cs, ok c) →
    ∃ vs h1' h2' s1' s2', execAll cs h1 = some (vs, h1') ∧ execAll cs h2 = some (vs, h2') ∧
      Desc q1 h1' s1' ∧ Desc q2 h2' s2' ∧ Abs.Pair R l1 l2 s1' s2' := by
  induction cs with
  | nil =>
    intro s1 s2 p1 p2 q1 q2 h1 h2 h d1 d2 g1 g2 _
    cases g1; cases g2
    exact ⟨[], h1, h2, s1, s2, rfl, rfl, d1, d2, h⟩
  | cons c cs ih =>
    intro s1 s2 p1 p2 q1 q2 h1 h2 h d1 d2 g1 g2 hok
    obtain ⟨h1', e1, d1'⟩ := d1.call c g1.1
    obtain ⟨h2', e2, d2'⟩ := d2.call c g2.1
    rw [← h.value K c (hok c (by simp))] at e2
    obtain ⟨vs, h1'', h2'', s1', s2', e3, e4, d3, d4, h'⟩ :=
      ih (h.call K c d1 d2) d1' d2' g1.2 g2.2 (fun c hc => hok c (by simp [hc]))
    exact ⟨s1.value c :: vs, h1'', h2'', s1', s2',
      by simp only [execAll, e1, Option.bind_some, e3, Option.map_some],
      by simp only [execAll, e2, Option.bind_some, e4, Option.map_some], d3, d4, h'⟩

theorem Desc.log {p : Phase} {h : H} {s : Abs} (d : Desc p h s) : h.log = s.log := by
  cases s with
  | off l => exact d.is.2
  | on a => exact On.log d.is

theorem Abs.Pair.logs {R : A → A → Prop} {ok : Call → Prop} (K : Kept R ok) {l1 l2 : List Err}
    {s1 s2 : Abs} (h : Abs.Pair R l1 l2 s1 s2) :
    ∃ new, s1.log = new ++ l1 ∧ s2.log = new ++ l2 := by
  match s1, s2, h with
  | .off _, .off _, ⟨new, rfl, rfl⟩ => exact ⟨new, rfl, rfl⟩
  | .on _, .on _, ⟨a0, b0, rfl, rfl, h⟩ =>
    refine ⟨a0.log, rfl, ?_⟩
    show b0.log ++ l2 = _
    rw [K.log a0 b0 h]

/-! ## The relations used -/

theorem kept_eq : Kept Eq (fun _ => True) :=
  ⟨fun _ _ => rfl, fun _ _ h => by rw [h], fun _ _ _ _ h => by rw [h],
    fun _ _ _ _ _ _ h => by rw [h]⟩

/-- Calls that show the raw contents of an internal bus. -/
def Call.raw : Call → Bool
  | .getState => true
  | .getDataBus => true
  | .getMemoryDirBus => true
  | .getControlBit _ => true
  | .getControlSelalu => true
  | _ => false

theorem kept_m : Kept (fun a b => a.m = b.m) (fun c => c.raw = false) := by
  refine ⟨fun _ _ => rfl, fun a b h => congrArg (fun m : M => m.v.log) h, fun a b c hc h => ?_,
    fun a b c h1 h2 h3 h => ?_⟩
  · have e1 : a.view = b.view := congrArg M.v h
    have e2 : a.dd = b.dd := congrArg M.s h
    have e3 : a.mem = b.mem := congrArg V.mem e1
    cases c with
    | getRegisterValue t => simp only [A.value, e1]
    | getMemoryValue o => simp only [A.value, e3]
    | getNextState => simp only [A.value, e2]
    | _ => first | rfl | cases hc
  · have e2 : a.dd = b.dd := congrArg M.s h
    rw [a.m_call h1 h3.lt, b.m_call h2 (e2 ▸ h3.lt), h]

/-- Same visible state and same contents of the buses that have getters. -/
structure Alike (a b : A) : Prop where
  m : a.m = b.m
  q : a.q = b.q
  data : a.data = b.data
  dir2 : a.dir2 = b.dir2
  control : a.control = b.control

theorem kept_alike : Kept Alike (fun _ => True) := by
  refine ⟨fun _ _ => ⟨rfl, rfl, rfl, rfl, rfl⟩, fun a b h => congrArg (fun m : M => m.v.log) h.m,
    fun a b c _ h => ?_, fun a b c h1 h2 h3 h => ?_⟩
  · cases hr : c.raw with
    | false => exact kept_m.value a b c hr h.m
    | true =>
      cases c with
      | getState => simp only [A.value, h.q]
      | getDataBus => simp only [A.value, h.data]
      | getMemoryDirBus => simp only [A.value, h.dir2]
      | getControlBit k => simp only [A.value, h.control]
      | getControlSelalu => simp only [A.value, h.control]
      | _ => cases hr
  · have e1 : a.view = b.view := congrArg M.v h.m
    have e2 : a.dd = b.dd := congrArg M.s h.m
    have hm := kept_m.call a b c h1 h2 h3 h.m
    cases c with
    | runClockCycle u =>
      obtain ⟨c1, s1, c2, c3, c4, c5, c6⟩ := A.cycle_spec a h1 h3.lt
      obtain ⟨d1, s2, d2, d3, d4, d5, d6⟩ := A.cycle_spec b h2 (e2 ▸ h3.lt)
      refine ⟨hm, ?_, A.cycle_data a b h1 h2 h3.lt h.m h.data, ?_, ?_⟩
      · show a.cycle.q = b.cycle.q
        rw [c2, d2, e2]
      · show a.cycle.dir2 = b.cycle.dir2
        rw [c5, d5]
        have e3 : a.cycle.view = b.cycle.view := congrArg M.v hm
        have e4 : a.cycle.control = b.cycle.control := by rw [c4, d4, e2]
        unfold A.muxed A.cb
        rw [e4, c6, d6, s1.2.2.1, s2.2.2.1, s1.2.2.2.2.1, s2.2.2.2.2.1, s1.2.2.2.2.2.1,
          s2.2.2.2.2.2.1]
        have f1 : a.cycle.rh = b.cycle.rh := congrArg V.h e3
        have f2 : a.cycle.rl = b.cycle.rl := congrArg V.l e3
        have f3 : a.cycle.pc = b.cycle.pc := congrArg V.pc e3
        have f4 : a.cycle.sp = b.cycle.sp := congrArg V.sp e3
        rw [f1, f2, f3, f4]
      · show a.cycle.control = b.cycle.control
        rw [c4, d4, e2]
    | resetControl => exact ⟨hm, rfl, h.data, h.dir2, rfl⟩
    | _ => exact ⟨hm, h.q, h.data, h.dir2, h.control⟩

end Mpp
