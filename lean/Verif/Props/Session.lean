import Verif.Front.Session
import Verif.Props.Buttons
import Verif.Props.Drawer
import Verif.Props.Stored
/-!
# Property C59: the page while a program runs
-/
namespace Mpp.Front

/-! ## One function at a time -/

/-- The task waits for an answer, or has just got one. -/
def Task.patient : Task → Bool
  | .dialog _ _ => true
  | .dismissed _ _ => true
  | _ => false

/-- What goes with the functions that wait. -/
def Ui.Good (s : Ui) : List Task → Prop
  | [] => s.running = false ∧ s.current = false
  | [t] => s.running = true ∧ (s.current = false → t.patient = true)
  | _ => False

theorem cycle_inv {s s' : Ui} {u : Bool} (h : s.cycle u = some s') :
    ∃ r h', exec (.runClockCycle u) s.core = some (r, h') ∧
      s' = { s with core := h', shown := if u then some h' else s.shown } := by
  simp only [Ui.cycle, Option.map_eq_some_iff] at h
  obtain ⟨⟨r, h'⟩, h1, rfl⟩ := h
  exact ⟨r, h', h1, rfl⟩

theorem instructionLoop_inv {s : Ui} {pause : Value} {r : Ui × List Task}
    (h : s.instructionLoop pause = some r) :
    (s.current = false ∧ r = (s.ended, [])) ∨
    ∃ c h' x h'', s.current = true ∧ exec (.runClockCycle true) s.core = some (c, h') ∧
      exec .getNextState h' = some (x, h'') ∧
      ((x = 0 ∧ r = (Ui.ended { s with core := h', shown := some h' }, [])) ∨
       (x ≠ 0 ∧ r = ({ s with core := h', shown := some h' }, [.instruction pause]))) := by
  unfold Ui.instructionLoop at h
  by_cases hc : s.current = true
  · rw [if_pos hc] at h
    simp only [Option.bind_eq_some_iff, Option.map_eq_some_iff] at h
    obtain ⟨s1, h1, ⟨x, h''⟩, h2, h3⟩ := h
    obtain ⟨c, h', e1, rfl⟩ := cycle_inv h1
    right
    refine ⟨c, h', x, h'', hc, e1, h2, ?_⟩
    by_cases hx : x = 0
    · left
      refine ⟨hx, ?_⟩
      rw [if_pos hx] at h3
      exact h3.symm
    · right
      refine ⟨hx, ?_⟩
      rw [if_neg hx] at h3
      exact h3.symm
  · rw [if_neg hc] at h
    left
    exact ⟨by simpa using hc, (Option.some.inj h).symm⟩

theorem programLoop_inv {s : Ui} {imm stoping : Bool} {pause : Value} {r : Ui × List Task}
    (h : s.programLoop imm pause stoping = some r) :
    (s.current = false ∧ r = (s.programEnd imm, [])) ∨
    ∃ c h', s.current = true ∧ exec (.runClockCycle (!imm)) s.core = some (c, h') ∧
      ((stoping = true ∧
        r = (Ui.programEnd { s with core := h', shown := if imm then s.shown else some h' } imm, [])) ∨
       (stoping = false ∧ ∃ ri bits h1 h2, exec (.getRegisterValue .ri) h' = some (ri, h1) ∧
        exec .getMemoryValueSizeBits h' = some (bits, h2) ∧
        r = ({ s with core := h', shown := if imm then s.shown else some h' },
          [.program imm pause (decide (ri.toNat = 2 ^ bits.toNat - 1))]))) := by
  unfold Ui.programLoop at h
  by_cases hc : s.current = true
  · rw [if_pos hc] at h
    simp only [Option.bind_eq_some_iff] at h
    obtain ⟨s1, h1, h2⟩ := h
    obtain ⟨c, h', e1, rfl⟩ := cycle_inv h1
    have hs : (if (!imm) = true then some h' else s.shown) = if imm = true then s.shown else some h' := by
      cases imm <;> rfl
    rw [hs] at h2
    right
    refine ⟨c, h', hc, e1, ?_⟩
    cases stoping with
    | true =>
      left
      exact ⟨rfl, (Option.some.inj h2).symm⟩
    | false =>
      right
      rw [if_neg (by decide)] at h2
      simp only [Option.bind_eq_some_iff, Option.map_eq_some_iff] at h2
      obtain ⟨⟨ri, h1'⟩, e2, ⟨bits, h2'⟩, e3, rfl⟩ := h2
      exact ⟨rfl, ri, bits, h1', h2', e2, e3, rfl⟩
  · rw [if_neg hc] at h
    left
    exact ⟨by simpa using hc, (Option.some.inj h).symm⟩

theorem instructionLoop_good {s : Ui} {pause : Value} {r : Ui × List Task} (hr : s.running = true)
    (h : s.instructionLoop pause = some r) : r.1.Good r.2 := by
  rcases instructionLoop_inv h with ⟨_, rfl⟩ | ⟨_, _, _, _, hc, _, _, ⟨_, rfl⟩ | ⟨_, rfl⟩⟩
  · exact ⟨rfl, rfl⟩
  · exact ⟨rfl, rfl⟩
  · exact ⟨hr, fun h => by rw [show _ = _ from hc] at h; cases h⟩

theorem programLoop_good {s : Ui} {imm stoping : Bool} {pause : Value} {r : Ui × List Task}
    (hr : s.running = true) (h : s.programLoop imm pause stoping = some r) : r.1.Good r.2 := by
  rcases programLoop_inv h with ⟨_, rfl⟩ | ⟨_, _, hc, _, ⟨_, rfl⟩ | ⟨_, _, _, _, _, _, _, rfl⟩⟩
  · exact ⟨rfl, rfl⟩
  · exact ⟨rfl, rfl⟩
  · exact ⟨hr, fun h => by rw [show _ = _ from hc] at h; cases h⟩

theorem programStart_good {s : Ui} {imm : Bool} {r : Ui × List Task}
    (hr : s.running = true) (h : s.programStart imm = some r) : r.1.Good r.2 :=
  programLoop_good (by exact hr) h

theorem resume_good {s : Ui} {late : Bool} {t : Task} {r : Ui × List Task} (hr : s.running = true)
    (h : s.resume late t = some r) : r.1.Good r.2 := by
  cases t with
  | instruction pause => exact instructionLoop_good hr h
  | starting => exact programStart_good hr h
  | program imm pause stoping =>
    simp only [Ui.resume] at h
    split at h
    · cases h; exact ⟨hr, fun _ => rfl⟩
    · exact programLoop_good hr h
  | dialog pause stoping => cases h; exact ⟨hr, fun _ => rfl⟩
  | dismissed pause stoping => exact programLoop_good hr h

theorem press_good {s : Ui} {b : Button} {r : Ui × List Task} (hc : s.current = false)
    (h : s.press b = some r) : r.1.Good r.2 := by
  cases b with
  | state =>
    simp only [Ui.press, Option.map_eq_some_iff] at h
    obtain ⟨s1, h1, rfl⟩ := h
    obtain ⟨_, _, _, rfl⟩ := cycle_inv h1
    exact ⟨rfl, hc⟩
  | instruction => exact instructionLoop_good (by rfl) h
  | program =>
    simp only [Ui.press] at h
    split at h
    · cases h; exact ⟨rfl, fun h => by cases h⟩
    · exact programStart_good (by rfl) h

theorem good_nil {s : Ui} (g : s.Good s.tasks) (hr : s.running = false) :
    s.tasks = [] ∧ s.current = false := by
  generalize ht : s.tasks = ts at g
  match ts with
  | [] => exact ⟨rfl, g.2⟩
  | [t] => rw [show _ = _ from g.1] at hr; cases hr
  | _ :: _ :: _ => exact g.elim

theorem good_one {s : Ui} (g : s.Good s.tasks) {i : Nat} {t : Task} (ht : s.tasks[i]? = some t) :
    s.tasks = [t] ∧ i = 0 ∧ s.running = true ∧ (s.current = false → t.patient = true) := by
  generalize hs : s.tasks = ts at g ht
  match ts with
  | [] => simp at ht
  | [t'] =>
    cases i with
    | zero => simp at ht; subst ht; exact ⟨rfl, rfl, g⟩
    | succ i => simp at ht
  | _ :: _ :: _ => exact g.elim

theorem good_running {s : Ui} (g : s.Good s.tasks) (hr : s.running = true) :
    ∃ t, s.tasks = [t] ∧ (s.current = false → t.patient = true) := by
  generalize hs : s.tasks = ts at g
  match ts with
  | [] => rw [show _ = _ from g.1] at hr; cases hr
  | [t] => exact ⟨t, rfl, g.2⟩
  | _ :: _ :: _ => exact g.elim

/-! What each event does, when at most one function waits. -/

theorem press_step {s s' : Ui} {b : Button} (g : s.Good s.tasks) (h : s.step (.press b) = some s') :
    s.running = false ∧ s.tasks = [] ∧ s.current = false ∧
      ∃ r, s.press b = some r ∧ s' = { r.1 with tasks := r.2 } := by
  simp only [Ui.step] at h
  split at h
  · cases h
  · rename_i hn
    simp only [Bool.or_eq_true, not_or, Bool.not_eq_true] at hn
    obtain ⟨h1, h2⟩ := good_nil g hn.2
    simp only [Option.map_eq_some_iff] at h
    obtain ⟨r, h3, rfl⟩ := h
    exact ⟨hn.2, h1, h2, r, h3, by simp [Ui.waiting, h1]⟩

theorem stop_step {s s' : Ui} {late : Bool} (g : s.Good s.tasks) (h : s.step (.stop late) = some s') :
    s.running = true ∧ s.page.immediate = false ∧ ∃ t, s.tasks = [t] ∧
      ((t.sleeping = false ∧ s' = { s with current := false }) ∨
       (t.sleeping = true ∧ ∃ r, Ui.resume { s with current := false } late t = some r ∧
        s' = { r.1 with tasks := r.2 })) := by
  simp only [Ui.step] at h
  split at h
  · cases h
  · rename_i hn
    simp only [Bool.or_eq_true, not_or, Bool.not_eq_true, Bool.not_eq_eq_eq_not, Bool.not_true,
      Bool.not_eq_false] at hn
    obtain ⟨t, h1, _⟩ := good_running g hn.1.2
    refine ⟨hn.1.2, hn.2, t, h1, ?_⟩
    simp only [Option.map_eq_some_iff] at h
    obtain ⟨r, h3, rfl⟩ := h
    rw [h1] at h3
    simp only [Ui.resumeAll, Option.bind_eq_some_iff, Option.map_some, Option.some.injEq] at h3
    obtain ⟨q, h4, rfl⟩ := h3
    by_cases hs : t.sleeping = true
    · right
      rw [if_pos hs, ← h1] at h4
      exact ⟨hs, q, h4, by simp [Ui.waiting]⟩
    · left
      rw [if_neg hs] at h4
      cases h4
      refine ⟨by simpa using hs, ?_⟩
      simp [Ui.waiting, h1]

theorem wake_step {s s' : Ui} {i : Nat} {late : Bool} (g : s.Good s.tasks)
    (h : s.step (.wake i late) = some s') :
    s.running = true ∧ ∃ t, s.tasks = [t] ∧ i = 0 ∧ t.sleeping = true ∧
      (s.current = false → t.patient = true) ∧
      ∃ r, s.resume late t = some r ∧ s' = { r.1 with tasks := r.2 } := by
  simp only [Ui.step] at h
  split at h
  · cases h
  · rename_i t ht
    obtain ⟨h1, rfl, h2, h3⟩ := good_one g ht
    split at h
    · cases h
    · rename_i hn
      simp only [Bool.or_eq_true, not_or, Bool.not_eq_true, Bool.not_eq_eq_eq_not, Bool.not_true,
        Bool.not_eq_false] at hn
      simp only [Option.map_eq_some_iff] at h
      obtain ⟨r, h4, rfl⟩ := h
      exact ⟨h2, t, h1, rfl, hn.1, h3, r, h4, by simp [Ui.waiting, h1]⟩

theorem answer_step {s s' : Ui} {i : Nat} {go : Bool} (g : s.Good s.tasks)
    (h : s.step (.answer i go) = some s') :
    s.running = true ∧ ∃ pause stoping, s.tasks = [.dialog pause stoping] ∧ i = 0 ∧
      ((go = true ∧ s' = { s with tasks := [.dismissed pause stoping] }) ∨
       (go = false ∧ s' = { s.programEnd true with tasks := [] })) := by
  simp only [Ui.step] at h
  split at h
  · cases h
  · split at h
    · rename_i pause stoping ht
      obtain ⟨h1, rfl, h2, _⟩ := good_one g ht
      refine ⟨h2, pause, stoping, h1, rfl, ?_⟩
      cases h
      cases go with
      | true => left; exact ⟨rfl, by simp [Ui.waiting, h1]⟩
      | false => right; exact ⟨rfl, by simp [Ui.waiting, h1]⟩
    · cases h

/-- The events that leave the run buttons and the core alone. -/
theorem other_step {s s' : Ui} {e : Event}
    (he : match e with
      | .cycle _ => True
      | .tour _ => True
      | .drawer _ => True
      | _ => False)
    (h : s.step e = some s') : s'.core = s.core ∧ s'.shown = s.shown ∧ s'.running = s.running ∧
      s'.current = s.current ∧ s'.tasks = s.tasks := by
  cases e with
  | cycle v =>
    simp only [Ui.step] at h
    split at h
    · cases h
    · cases h; exact ⟨rfl, rfl, rfl, rfl, rfl⟩
  | tour b =>
    simp only [Ui.step] at h
    split at h
    · cases h
    · cases h; exact ⟨rfl, rfl, rfl, rfl, rfl⟩
  | drawer a =>
    simp only [Ui.step] at h
    split at h
    · cases h
    · simp only [Option.map_eq_some_iff] at h
      obtain ⟨e, _, rfl⟩ := h
      exact ⟨rfl, rfl, rfl, rfl, rfl⟩
  | _ => exact he.elim

theorem calls_rest {cs : List Call} {s s' : Ui} (h : s.calls cs = some s') :
    s'.running = s.running ∧ s'.current = s.current ∧ s'.tasks = s.tasks ∧ s'.page = s.page ∧
      s'.drawer = s.drawer := by
  induction cs generalizing s with
  | nil => cases h; exact ⟨rfl, rfl, rfl, rfl, rfl⟩
  | cons c cs ih =>
    simp only [Ui.calls, Option.bind_eq_some_iff] at h
    obtain ⟨r, _, h⟩ := h
    obtain ⟨h1, h2, h3, h4, h5⟩ := ih h
    exact ⟨h1, h2, h3, h4, h5⟩

theorem save_step {s s' : Ui} (h : s.step .save = some s') : s.calls s.drawer.saveCalls = some s' := by
  simp only [Ui.step] at h
  split at h
  · cases h
  · exact h

theorem setPc_step {s s' : Ui} (h : s.step .setPc = some s') : s.calls s.drawer.pcCalls = some s' := by
  simp only [Ui.step] at h
  split at h
  · cases h
  · exact h

theorem good_of {s s' : Ui} (g : s.Good s.tasks) (h1 : s'.running = s.running)
    (h2 : s'.current = s.current) (h3 : s'.tasks = s.tasks) : s'.Good s'.tasks := by
  rw [h3]
  unfold Ui.Good at g ⊢
  rw [h1, h2]
  exact g

theorem Ui.Good.step {s s' : Ui} {e : Event} (g : s.Good s.tasks) (h : s.step e = some s') :
    s'.Good s'.tasks := by
  cases e with
  | press b =>
    obtain ⟨_, _, hc, r, h1, rfl⟩ := press_step g h
    exact press_good hc h1
  | stop late =>
    obtain ⟨hr, _, t, ht, ⟨hs, rfl⟩ | ⟨hs, r, h1, rfl⟩⟩ := stop_step g h
    · show Ui.Good _ s.tasks
      rw [ht]
      refine ⟨hr, fun _ => ?_⟩
      cases t <;> first | rfl | cases hs
    · exact resume_good (s := { s with current := false }) hr h1
  | wake i late =>
    obtain ⟨hr, t, _, _, _, hc, r, h1, rfl⟩ := wake_step g h
    exact resume_good hr h1
  | answer i go =>
    obtain ⟨hr, pause, stoping, _, _, ⟨_, rfl⟩ | ⟨_, rfl⟩⟩ := answer_step g h
    · exact ⟨hr, fun _ => rfl⟩
    · exact ⟨rfl, rfl⟩
  | cycle v =>
    obtain ⟨_, _, h1, h2, h3⟩ := other_step trivial h
    exact good_of g h1 h2 h3
  | tour v =>
    obtain ⟨_, _, h1, h2, h3⟩ := other_step trivial h
    exact good_of g h1 h2 h3
  | drawer v =>
    obtain ⟨_, _, h1, h2, h3⟩ := other_step trivial h
    exact good_of g h1 h2 h3
  | save =>
    obtain ⟨h1, h2, h3, _⟩ := calls_rest (save_step h)
    exact good_of g h1 h2 h3
  | setPc =>
    obtain ⟨h1, h2, h3, _⟩ := calls_rest (setPc_step h)
    exact good_of g h1 h2 h3

theorem start_inv {h : H} {p : Page} {s : Ui} (e : Ui.start h p = some s) :
    s.core = h ∧ s.shown = none ∧ s.running = false ∧ s.current = false ∧ s.page = p ∧ s.tasks = [] ∧
      Editor.start.acts [.code p.code] = some s.drawer := by
  simp only [Ui.start, Option.map_eq_some_iff] at e
  obtain ⟨d, h1, rfl⟩ := e
  exact ⟨rfl, rfl, rfl, rfl, rfl, rfl, by simp [Editor.acts, h1]⟩

theorem start_good {h : H} {p : Page} {s : Ui} (e : Ui.start h p = some s) : s.Good s.tasks := by
  obtain ⟨_, _, h1, h2, _, h3, _⟩ := start_inv e
  rw [h3]
  exact ⟨h1, h2⟩

/-- An invariant of the single events is one of the histories. -/
theorem steps_keep {I : Ui → Prop} {ok : Event → Prop}
    (step : ∀ s e s', ok e → I s → s.step e = some s' → I s') {s s' : Ui} {es : List Event}
    (hok : ∀ e ∈ es, ok e) (i : I s) (h : s.steps es = some s') : I s' := by
  induction es generalizing s with
  | nil => cases h; exact i
  | cons e es ih =>
    simp only [Ui.steps, Option.bind_eq_some_iff] at h
    obtain ⟨s1, h1, h2⟩ := h
    exact ih (fun e he => hok e (List.mem_cons_of_mem _ he)) (step _ _ _ (hok e (by simp)) i h1) h2

theorem steps_good {s s' : Ui} {es : List Event} (g : s.Good s.tasks) (h : s.steps es = some s') :
    s'.Good s'.tasks :=
  steps_keep (I := fun s => s.Good s.tasks) (ok := fun _ => True) (fun _ _ _ _ g h => g.step h)
    (fun _ _ => trivial) g h

/-- **C59.** Whatever the user does, at most one function is running or waiting, and `running` says
whether there is one: the run buttons are enabled exactly when nothing runs. -/
theorem C59_one (h : H) (p : Page) (s0 s : Ui) (es : List Event) (h0 : Ui.start h p = some s0)
    (hs : s0.steps es = some s) :
    s.tasks.length ≤ 1 ∧ (s.running = true ↔ s.tasks ≠ []) ∧
      (s.running = true → ∀ b, s.step (.press b) = none) := by
  have g := steps_good (start_good h0) hs
  refine ⟨?_, ?_, ?_⟩
  · generalize ht : s.tasks = ts at g
    match ts with
    | [] => simp
    | [t] => simp
    | _ :: _ :: _ => exact g.elim
  · constructor
    · intro hr
      obtain ⟨t, ht, _⟩ := good_running g hr
      simp [ht]
    · intro hn
      by_cases hr : s.running = true
      · exact hr
      · exact absurd (good_nil g (by simpa using hr)).1 hn
  · intro hr b
    simp [Ui.step, hr]

/-! ## Stopping -/

/-- The function cannot go on: it ends as soon as it is woken. -/
def Ui.Halted (s : Ui) : Prop := s.Good s.tasks ∧ s.current = false

/-- The events that neither press a run button nor use the core from the code drawer. -/
def Event.calm : Event → Bool
  | .press _ => false
  | .save => false
  | .setPc => false
  | _ => true

theorem halted_step {s s' : Ui} {e : Event} (he : e.calm = true) (i : s.Halted) (h : s.step e = some s') : s'.Halted ∧ s'.core = s.core := by
  obtain ⟨g, hc⟩ := i
  refine ⟨⟨g.step h, ?_⟩, ?_⟩
  all_goals
    cases e with
    | press b => cases he
    | save => cases he
    | setPc => cases he
    | cycle v => have := other_step trivial h; simp [this, hc]
    | tour v => have := other_step trivial h; simp [this, hc]
    | drawer v => have := other_step trivial h; simp [this, hc]
    | answer i go =>
      obtain ⟨_, _, _, _, _, ⟨_, rfl⟩ | ⟨_, rfl⟩⟩ := answer_step g h
      · first | exact hc | rfl
      · rfl
    | wake i late =>
      obtain ⟨_, t, _, _, hsl, hp, r, h1, rfl⟩ := wake_step g h
      have hp := hp hc
      cases t with
      | dismissed pause stoping =>
        rcases programLoop_inv h1 with ⟨_, rfl⟩ | ⟨_, _, hc', _⟩
        · rfl
        · rw [hc] at hc'; cases hc'
      | dialog => cases hsl
      | _ => cases hp
    | stop late =>
      obtain ⟨hr, _, t, ht, ⟨_, rfl⟩ | ⟨hs, r, h1, rfl⟩⟩ := stop_step g h
      · rfl
      · obtain ⟨t', ht', hp⟩ := good_running g hr
        rw [ht] at ht'
        cases ht'
        have hp := hp hc
        cases t with
        | dismissed pause stoping =>
          rcases programLoop_inv h1 with ⟨_, rfl⟩ | ⟨_, _, hc', _⟩
          · rfl
          · cases hc'
        | dialog => cases hs
        | _ => cases hp

theorem halted_steps {s s' : Ui} {es : List Event} (he : ∀ e ∈ es, e.calm = true) (i : s.Halted)
    (h : s.steps es = some s') : s'.core = s.core :=
  (steps_keep (I := fun x => x.Halted ∧ x.core = s.core) (ok := fun e => e.calm = true)
    (fun s1 e s2 he i h => by
      obtain ⟨h1, h2⟩ := halted_step he i.1 h
      exact ⟨h1, h2.trans i.2⟩) he ⟨i, rfl⟩ h).2

theorem stop_halted {s s' : Ui} {late : Bool} (g : s.Good s.tasks) (hn : s.tasks ≠ [.starting])
    (h : s.step (.stop late) = some s') : s'.Halted ∧ s'.core = s.core ∧
      (s'.tasks = [] ∨ ∃ pause stoping, s'.tasks = [.dialog pause stoping]) := by
  have g' := g.step h
  obtain ⟨hr, _, t, ht, ⟨hs, rfl⟩ | ⟨hs, r, h1, rfl⟩⟩ := stop_step g h
  · refine ⟨⟨g', rfl⟩, rfl, .inr ?_⟩
    cases t with
    | dialog pause stoping => exact ⟨_, _, ht⟩
    | _ => cases hs
  · have key : ∀ imm pause stoping, Ui.programLoop { s with current := false } imm pause stoping = some r →
        r.1.current = false ∧ r.1.core = s.core ∧ r.2 = [] := by
      intro imm pause stoping h
      rcases programLoop_inv h with ⟨_, rfl⟩ | ⟨_, _, hc, _⟩
      · exact ⟨rfl, rfl, rfl⟩
      · cases hc
    cases t with
    | starting => exact absurd ht hn
    | dialog => cases hs
    | instruction pause =>
      rcases instructionLoop_inv h1 with ⟨_, rfl⟩ | ⟨_, _, _, _, hc, _⟩
      · exact ⟨⟨g', rfl⟩, rfl, .inl rfl⟩
      · cases hc
    | program imm pause stoping =>
      simp only [Ui.resume] at h1
      split at h1
      · cases h1; exact ⟨⟨g', rfl⟩, rfl, .inr ⟨_, _, rfl⟩⟩
      · obtain ⟨h2, h3, h4⟩ := key _ _ _ h1; exact ⟨⟨g', h2⟩, h3, .inl h4⟩
    | dismissed pause stoping => obtain ⟨h2, h3, h4⟩ := key _ _ _ h1; exact ⟨⟨g', h2⟩, h3, .inl h4⟩

/-- **C59.** The stop button stops: no clock cycle is run after it, until a run button is pressed again,
whatever else the user does (other than saving a program or setting PC, which change the core
themselves). The function has ended, or waits for the answer in the dialog. Missing: a function that
has not begun its loop, see `C59_stop_lost`. -/
theorem C59_stop_partial (h : H) (p : Page) (s0 s s' s'' : Ui) (es es' : List Event) (late : Bool)
    (h0 : Ui.start h p = some s0) (hs : s0.steps es = some s) (hn : s.tasks ≠ [.starting])
    (stop : s.step (.stop late) = some s') (he : ∀ e ∈ es', e.calm = true)
    (hs' : s'.steps es' = some s'') :
    s''.core = s.core ∧ (s'.running = false ∨ ∃ pause stoping, s'.tasks = [.dialog pause stoping]) := by
  have g := steps_good (start_good h0) hs
  obtain ⟨h1, h2, h3⟩ := stop_halted g hn stop
  refine ⟨(halted_steps he h1 hs').trans h2, ?_⟩
  rcases h3 with h3 | h3
  · left
    have g' := h1.1
    rw [h3] at g'
    exact g'.1
  · exact .inr h3

/-! ## What is run -/

/-- `n` clock cycles of the loop of run-program from `h` to `h'`, and the variable `stoping` then. -/
inductive Part (u : Bool) : Nat → H → H → Bool → Prop
  | none {h : H} : Part u 0 h h false
  | more {h h1 h' : H} {n : Nat} {r x bits : CInt} (first : Part u n h h1 false)
      (run : exec (.runClockCycle u) h1 = some (r, h'))
      (ri : exec (.getRegisterValue .ri) h' = some (x, h'))
      (max : exec .getMemoryValueSizeBits h' = some (bits, h')) :
      Part u (n + 1) h h' (decide (x.toNat = 2 ^ bits.toNat - 1))

theorem Part.then {u st : Bool} {n k : Nat} {h h1 h' : H} {e : Ended} (p : Part u n h h1 st)
    (l : ProgramButtonLoop u st k h1 h' e) : ProgramButtonLoop u false (n + k) h h' e := by
  induction p generalizing k with
  | none => rwa [Nat.zero_add]
  | @more h h1 h2 n r x bits first run ri max ih =>
    have := ih (.more run ri max l)
    rwa [show n + 1 + k = n + (k + 1) by omega]

theorem Part.stopped {u st : Bool} {n : Nat} {h h' : H} (p : Part u (n + 1) h h' st) :
    ProgramButton u (n + 1) h h' .stopped := by
  cases p with
  | more first run ri max => exact first.then (.stop run ri max)

theorem Part.done {u : Bool} {n : Nat} {h h1 h' : H} {r : CInt} (p : Part u n h h1 true)
    (run : exec (.runClockCycle u) h1 = some (r, h')) : ProgramButton u (n + 1) h h' .done :=
  p.then (.last run)

/-- What the function that waits has run so far, from `h` on. -/
def Task.Did : Task → H → H → Prop
  | .instruction _, h, h' => ∃ n, InstructionButton n h h' .stopped
  | .starting, h, h' => h' = h
  | .program imm _ st, h, h' => ∃ n, Part (!imm) (n + 1) h h' st
  | .dialog _ st, h, h' => ∃ n, Part false (n + 1) h h' st
  | .dismissed _ st, h, h' => ∃ n, Part false (n + 1) h h' st

theorem _root_.Mpp.Presses.append {n k : Nat} {h h1 h' : H} (a : Presses n h h1) (b : Presses k h1 h') :
    Presses (n + k) h h' := by
  induction a with
  | none => rwa [Nat.zero_add]
  | state first rest ih => rw [Nat.add_assoc]; exact .state first (ih b)
  | instruction first rest ih => rw [Nat.add_assoc]; exact .instruction first (ih b)
  | program u first rest ih => rw [Nat.add_assoc]; exact .program u first (ih b)

/-- The core is in use, the drawer has been used only as the page lets one use it, and so have the
settings. -/
structure Ui.Sound (p : Page) (s : Ui) : Prop where
  core : ∃ ph, Reach ph s.core ∧ ph.on = true ∧ ph.ui = true
  drawer : ∃ as, Editor.start.acts as = some s.drawer
  page : ∃ cs, s.page = p.steps cs

theorem steps_snoc (p : Page) (cs : List Change) (c : Change) :
    p.steps (cs ++ [c]) = (p.steps cs).step c := by
  induction cs generalizing p with
  | nil => rfl
  | cons d cs ih => exact ih _

/-- The offset shown as valid is an address, and the one at which programs are saved. -/
theorem acts_offset {e : Editor} {as : List Action} (h : Editor.start.acts as = some e) :
    e.offsetValid = true → 0 ≤ e.shownOffset ∧ e.shownOffset ≤ 65535 ∧ e.offset = e.shownOffset := by
  have act : ∀ (e e' : Editor) (a : Action), (e.offsetValid = true →
      0 ≤ e.shownOffset ∧ e.shownOffset ≤ 65535 ∧ e.offset = e.shownOffset) → e.act a = some e' →
      e'.offsetValid = true → 0 ≤ e'.shownOffset ∧ e'.shownOffset ≤ 65535 ∧ e'.offset = e'.shownOffset := by
    intro e e' a i h
    cases a with
    | code text =>
      simp only [Editor.act, Option.map_eq_some_iff] at h
      obtain ⟨t, _, rfl⟩ := h
      cases t <;> exact i
    | offset n =>
      simp only [Editor.act, Option.some.injEq] at h
      have hd : (decide ¬ (n < 0 ∨ n > 65536 - 1)) = decide (0 ≤ n ∧ n ≤ 65535) :=
        decide_eq_decide.2 (by omega)
      rw [hd] at h
      subst h
      by_cases hv : 0 ≤ n ∧ n ≤ 65535
      · rw [decide_eq_true hv, if_pos rfl]
        intro _
        unfold Editor.newOffset
        split
        · rename_i h; exact ⟨hv.1, hv.2, h.symm⟩
        · exact ⟨hv.1, hv.2, rfl⟩
      · rw [decide_eq_false hv, if_neg (by decide)]
        intro h
        cases h
  have all : ∀ as (e e' : Editor), (e.offsetValid = true →
      0 ≤ e.shownOffset ∧ e.shownOffset ≤ 65535 ∧ e.offset = e.shownOffset) → e.acts as = some e' →
      e'.offsetValid = true → 0 ≤ e'.shownOffset ∧ e'.shownOffset ≤ 65535 ∧ e'.offset = e'.shownOffset := by
    intro as
    induction as with
    | nil => intro e e' i h; cases h; exact i
    | cons a as ih =>
      intro e e' i h
      simp only [Editor.acts, Option.bind_eq_some_iff] at h
      obtain ⟨e1, h1, h2⟩ := h
      exact ih e1 e' (act e e1 a i h1) h2
  exact all as _ _ (fun _ => by decide) h

theorem ofInt_addr {n : Int} (h0 : 0 ≤ n) (h1 : n ≤ 65535) : IsAddr (BitVec.ofInt 32 n) := by
  have : (BitVec.ofInt 32 n).toInt = n := by
    rw [BitVec.toInt_ofInt]
    exact Int.bmod_eq_of_le (by omega) (by omega)
  unfold IsAddr
  omega

/-- The calls of the drawer are in range. -/
theorem drawer_allowed {e : Editor} {as : List Action} (h : Editor.start.acts as = some e) {ph : Phase}
    (on : ph.on = true) (ui : ph.ui = true) :
    (∀ c ∈ e.saveCalls, c.Allowed ph ∧ c.after ph = ph) ∧
      ∀ c ∈ e.pcCalls, c.Allowed ph ∧ c.after ph = ph := by
  constructor
  · intro c hc
    rcases C41_range as e h c hc with rfl | ⟨a, v, rfl, h1, h2, _⟩
    · exact ⟨on, rfl⟩
    · exact ⟨⟨on, ui, h1, h2⟩, rfl⟩
  · intro c hc
    unfold Editor.pcCalls at hc
    split at hc
    · rename_i hv
      obtain ⟨h1, h2, _⟩ := acts_offset h hv
      rw [List.mem_singleton.1 hc]
      exact ⟨⟨on, ui, ofInt_addr h1 h2⟩, rfl⟩
    · cases hc

theorem calls_reach {cs : List Call} {ph : Phase} (hc : ∀ c ∈ cs, c.Allowed ph ∧ c.after ph = ph)
    {s s' : Ui} (r : Reach ph s.core) (h : s.calls cs = some s') : Reach ph s'.core := by
  induction cs generalizing s with
  | nil => cases h; exact r
  | cons c cs ih =>
    simp only [Ui.calls, Option.bind_eq_some_iff] at h
    obtain ⟨⟨v, h1⟩, e, h⟩ := h
    obtain ⟨a1, a2⟩ := hc c (by simp)
    have r1 := r.step a1 e
    rw [a2] at r1
    exact ih (fun c hc' => hc c (List.mem_cons_of_mem _ hc')) (by exact r1) h

theorem calls_some {cs : List Call} {ph : Phase} (hc : ∀ c ∈ cs, c.Allowed ph ∧ c.after ph = ph)
    {s : Ui} (r : Reach ph s.core) : ∃ s', s.calls cs = some s' := by
  induction cs generalizing s with
  | nil => exact ⟨s, rfl⟩
  | cons c cs ih =>
    obtain ⟨a1, a2⟩ := hc c (by simp)
    obtain ⟨v, h1, e, _⟩ := r.inv.call c a1
    have r1 := r.step a1 e
    rw [a2] at r1
    simp only [Ui.calls, e, Option.bind_some]
    exact ih (fun c hc' => hc c (List.mem_cons_of_mem _ hc')) (by exact r1)

theorem sound_cycle {p : Page} {s : Ui} {u : Bool} {c : CInt} {h' : H} (i : s.Sound p)
    (run : exec (.runClockCycle u) s.core = some (c, h')) : ∃ ph, Reach ph h' ∧ ph.on = true ∧ ph.ui = true := by
  obtain ⟨ph, r, on, ui⟩ := i.core
  exact ⟨ph, r.cycle on ui run, on, ui⟩

theorem instructionLoop_sound {p : Page} {s : Ui} {pause : Value} {r : Ui × List Task}
    (h : s.instructionLoop pause = some r) (i : s.Sound p) : r.1.Sound p := by
  rcases instructionLoop_inv h with ⟨_, rfl⟩ | ⟨_, _, _, _, _, run, _, ⟨_, rfl⟩ | ⟨_, rfl⟩⟩
  · exact ⟨i.core, i.drawer, i.page⟩
  · exact ⟨sound_cycle i run, i.drawer, i.page⟩
  · exact ⟨sound_cycle i run, i.drawer, i.page⟩

theorem programLoop_sound {p : Page} {s : Ui} {imm stoping : Bool} {pause : Value} {r : Ui × List Task}
    (h : s.programLoop imm pause stoping = some r) (i : s.Sound p) : r.1.Sound p := by
  rcases programLoop_inv h with ⟨_, rfl⟩ | ⟨_, _, _, run, ⟨_, rfl⟩ | ⟨_, _, _, _, _, _, _, rfl⟩⟩
  · exact ⟨i.core, i.drawer, i.page⟩
  · exact ⟨sound_cycle i run, i.drawer, i.page⟩
  · exact ⟨sound_cycle i run, i.drawer, i.page⟩

theorem page_step {p q : Page} (h : ∃ cs, q = p.steps cs) (c : Change) : ∃ cs, q.step c = p.steps cs := by
  obtain ⟨cs, rfl⟩ := h
  exact ⟨cs ++ [c], (steps_snoc _ _ _).symm⟩

theorem programStart_sound {p : Page} {s : Ui} {imm : Bool} {r : Ui × List Task}
    (h : s.programStart imm = some r) (i : s.Sound p) : r.1.Sound p :=
  programLoop_sound h ⟨i.core, i.drawer, page_step i.page .run⟩

theorem resume_sound {p : Page} {s : Ui} {late : Bool} {t : Task} {r : Ui × List Task}
    (h : s.resume late t = some r) (i : s.Sound p) : r.1.Sound p := by
  cases t with
  | instruction pause => exact instructionLoop_sound h i
  | starting => exact programStart_sound h i
  | program imm pause stoping =>
    simp only [Ui.resume] at h
    split at h
    · cases h; exact ⟨i.core, i.drawer, i.page⟩
    · exact programLoop_sound h i
  | dialog pause stoping => cases h; exact i
  | dismissed pause stoping => exact programLoop_sound h i

theorem press_sound {p : Page} {s : Ui} {b : Button} {r : Ui × List Task}
    (h : s.press b = some r) (i : s.Sound p) : r.1.Sound p := by
  cases b with
  | state =>
    simp only [Ui.press, Option.map_eq_some_iff] at h
    obtain ⟨s1, h1, rfl⟩ := h
    obtain ⟨_, _, run, rfl⟩ := cycle_inv h1
    exact ⟨sound_cycle i run, i.drawer, i.page⟩
  | instruction => exact instructionLoop_sound h ⟨i.core, i.drawer, page_step i.page .run⟩
  | program =>
    simp only [Ui.press] at h
    split at h
    · cases h; exact ⟨i.core, i.drawer, i.page⟩
    · exact programStart_sound h ⟨i.core, i.drawer, i.page⟩

theorem Ui.Sound.step {p : Page} {s s' : Ui} {e : Event} (g : s.Good s.tasks) (i : s.Sound p)
    (h : s.step e = some s') : s'.Sound p := by
  cases e with
  | press b =>
    obtain ⟨_, _, _, r, h1, rfl⟩ := press_step g h
    have := press_sound h1 i
    exact ⟨this.core, this.drawer, this.page⟩
  | stop late =>
    obtain ⟨_, _, t, _, ⟨_, rfl⟩ | ⟨_, r, h1, rfl⟩⟩ := stop_step g h
    · exact ⟨i.core, i.drawer, i.page⟩
    · have := resume_sound h1 (p := p) ⟨i.core, i.drawer, i.page⟩
      exact ⟨this.core, this.drawer, this.page⟩
  | wake n late =>
    obtain ⟨_, t, _, _, _, _, r, h1, rfl⟩ := wake_step g h
    have := resume_sound h1 i
    exact ⟨this.core, this.drawer, this.page⟩
  | answer n go =>
    obtain ⟨_, _, _, _, _, ⟨_, rfl⟩ | ⟨_, rfl⟩⟩ := answer_step g h
    · exact ⟨i.core, i.drawer, i.page⟩
    · exact ⟨i.core, i.drawer, i.page⟩
  | cycle v =>
    simp only [Ui.step] at h
    split at h
    · cases h
    · cases h; exact ⟨i.core, i.drawer, page_step i.page (.cycle v)⟩
  | tour v =>
    simp only [Ui.step] at h
    split at h
    · cases h
    · cases h; exact ⟨i.core, i.drawer, page_step i.page (.tour v)⟩
  | drawer a =>
    simp only [Ui.step] at h
    split at h
    · cases h
    · simp only [Option.map_eq_some_iff] at h
      obtain ⟨e, he, rfl⟩ := h
      obtain ⟨as, ha⟩ := i.drawer
      refine ⟨i.core, ⟨as ++ [a], ?_⟩, ?_⟩
      · rw [Editor.acts_append, ha, Option.bind_some]
        simp [Editor.acts, he]
      · cases a with
        | code text => exact page_step i.page (.edit text)
        | offset n => exact i.page
  | save =>
    have h := save_step h
    obtain ⟨_, _, _, h4, h5⟩ := calls_rest h
    obtain ⟨ph, r, on, ui⟩ := i.core
    obtain ⟨as, ha⟩ := i.drawer
    exact ⟨⟨ph, calls_reach (drawer_allowed ha on ui).1 r h, on, ui⟩, h5 ▸ i.drawer, h4 ▸ i.page⟩
  | setPc =>
    have h := setPc_step h
    obtain ⟨_, _, _, h4, h5⟩ := calls_rest h
    obtain ⟨ph, r, on, ui⟩ := i.core
    obtain ⟨as, ha⟩ := i.drawer
    exact ⟨⟨ph, calls_reach (drawer_allowed ha on ui).2 r h, on, ui⟩, h5 ▸ i.drawer, h4 ▸ i.page⟩

theorem start_sound {h : H} {p : Page} {s : Ui} (e : Ui.start h p = some s)
    (hr : ∃ ph, Reach ph h ∧ ph.on = true ∧ ph.ui = true) : s.Sound p := by
  obtain ⟨h1, _, _, _, h2, _, h3⟩ := start_inv e
  exact ⟨h1 ▸ hr, ⟨_, h3⟩, ⟨[], h2⟩⟩

theorem steps_sound {p : Page} {s s' : Ui} {es : List Event} (g : s.Good s.tasks) (i : s.Sound p)
    (h : s.steps es = some s') : s'.Good s'.tasks ∧ s'.Sound p :=
  steps_keep (I := fun s => s.Good s.tasks ∧ s.Sound p) (ok := fun _ => True)
    (fun _ _ _ _ i h => ⟨i.1.step h, i.2.step i.1 h⟩) (fun _ _ => trivial) ⟨g, i⟩ h

/-! Nothing gets stuck and nothing is undefined. -/

theorem cycle_some {p : Page} {s : Ui} (i : s.Sound p) (u : Bool) : ∃ s', s.cycle u = some s' := by
  obtain ⟨ph, r, on, ui⟩ := i.core
  obtain ⟨v, h1, e, _⟩ := r.inv.call (.runClockCycle u) ⟨on, fun _ => ui⟩
  exact ⟨_, by rw [Ui.cycle, e]; rfl⟩

theorem next_some {s : Ui} {p : Page} (i : s.Sound p) : ∃ x, exec .getNextState s.core = some (x, s.core) := by
  obtain ⟨ph, r, on, ui⟩ := i.core
  obtain ⟨m, t⟩ := r.at on
  exact ⟨_, t.next⟩

theorem ri_some {s : Ui} {p : Page} (i : s.Sound p) :
    ∃ x, exec (.getRegisterValue .ri) s.core = some (x, s.core) := by
  obtain ⟨ph, r, on, ui⟩ := i.core
  obtain ⟨m, t⟩ := r.at on
  exact ⟨_, t.reg _⟩

theorem cycle_sound {p : Page} {s s' : Ui} {u : Bool} (i : s.Sound p) (h : s.cycle u = some s') :
    s'.Sound p := by
  obtain ⟨_, _, run, rfl⟩ := cycle_inv h
  exact ⟨sound_cycle i run, i.drawer, i.page⟩

theorem instructionLoop_some {p : Page} {s : Ui} (i : s.Sound p) (pause : Value) :
    ∃ r, s.instructionLoop pause = some r := by
  unfold Ui.instructionLoop
  split
  · obtain ⟨s1, h1⟩ := cycle_some i true
    obtain ⟨x, h2⟩ := next_some (cycle_sound i h1)
    exact ⟨_, by rw [h1, Option.bind_some, h2, Option.map_some]⟩
  · exact ⟨_, rfl⟩

theorem programLoop_some {p : Page} {s : Ui} (i : s.Sound p) (imm : Bool) (pause : Value) (st : Bool) :
    ∃ r, s.programLoop imm pause st = some r := by
  unfold Ui.programLoop
  split
  · obtain ⟨s1, h1⟩ := cycle_some i (!imm)
    obtain ⟨x, h2⟩ := ri_some (cycle_sound i h1)
    rw [h1, Option.bind_some]
    split
    · exact ⟨_, rfl⟩
    · exact ⟨_, by rw [h2, Option.bind_some]; rfl⟩
  · exact ⟨_, rfl⟩

theorem programStart_some {p : Page} {s : Ui} (i : s.Sound p) (imm : Bool) :
    ∃ r, s.programStart imm = some r :=
  programLoop_some (p := p) (s := { s with page := s.page.step .run, current := true })
    ⟨i.core, i.drawer, page_step i.page .run⟩ _ _ _

theorem resume_some {p : Page} {s : Ui} (i : s.Sound p) (late : Bool) (t : Task) :
    ∃ r, s.resume late t = some r := by
  cases t with
  | instruction pause => exact instructionLoop_some i pause
  | starting => exact programStart_some i _
  | program imm pause stoping =>
    simp only [Ui.resume]
    split
    · exact ⟨_, rfl⟩
    · exact programLoop_some i _ _ _
  | dialog pause stoping => exact ⟨_, rfl⟩
  | dismissed pause stoping => exact programLoop_some i _ _ _

theorem press_some {p : Page} {s : Ui} (i : s.Sound p) (b : Button) : ∃ r, s.press b = some r := by
  cases b with
  | state =>
    obtain ⟨s1, h1⟩ := cycle_some i true
    exact ⟨_, by rw [Ui.press, h1]; rfl⟩
  | instruction =>
    exact instructionLoop_some (p := p)
      (s := { s with page := s.page.step .run, current := true, running := true })
      ⟨i.core, i.drawer, page_step i.page .run⟩ _
  | program =>
    simp only [Ui.press]
    split
    · exact ⟨_, rfl⟩
    · exact programStart_some (p := p) (s := { s with running := true }) ⟨i.core, i.drawer, i.page⟩ _

/-- **C59.** Whatever the user does on the page of a core in use, the core is used only as its headers
allow, nothing undefined happens and nothing gets stuck: while nothing runs, each run button works; a
function that waits in `sleep` can go on; the dialog can be answered; and unless a function waits for
`sleep(0)`, the code drawer and the settings can be used. -/
theorem C59_defined (ph : Phase) (h : H) (p : Page) (hr : Reach ph h) (on : ph.on = true)
    (ui : ph.ui = true) : ∃ s0, Ui.start h p = some s0 ∧ ∀ es s, s0.steps es = some s →
      (∃ ph', Reach ph' s.core ∧ ph'.on = true ∧ ph'.ui = true) ∧
      (s.running = false → ∀ b, (s.step (.press b)).isSome) ∧
      (∀ t ∈ s.tasks, t.sleeping = true → ∀ late, (s.step (.wake 0 late)).isSome) ∧
      (∀ t ∈ s.tasks, t.sleeping = false → ∀ go, (s.step (.answer 0 go)).isSome) ∧
      ((∀ t ∈ s.tasks, t.urgent = false) → (s.step .save).isSome ∧ (s.step .setPc).isSome ∧
        (∀ a, (s.step (.drawer a)).isSome) ∧ (∀ v, (s.step (.cycle v)).isSome) ∧
        ∀ b, (s.step (.tour b)).isSome) := by
  have act : ∀ (e : Editor) a, ∃ e', e.act a = some e' := by
    intro e a
    cases a with
    | code text =>
      obtain ⟨t, ht⟩ := Option.isSome_iff_exists.1 (translation_total text)
      exact ⟨_, by rw [Editor.act, ht]; rfl⟩
    | offset n => exact ⟨_, rfl⟩
  obtain ⟨e0, he0⟩ := act Editor.start (.code p.code)
  refine ⟨_, by rw [Ui.start, he0]; rfl, ?_⟩
  intro es s hs
  have h0 : Ui.start h p = some ⟨h, none, false, false, p, e0, []⟩ := by rw [Ui.start, he0]; rfl
  obtain ⟨g, i⟩ := steps_sound (start_good h0) (start_sound h0 ⟨ph, hr, on, ui⟩) hs
  refine ⟨i.core, ?_, ?_, ?_, ?_⟩
  · intro hn b
    obtain ⟨h1, _⟩ := good_nil g hn
    obtain ⟨r, h2⟩ := press_some i b
    simp [Ui.step, h1, hn, h2]
  · intro t ht hsl late
    obtain ⟨n, hn⟩ := List.mem_iff_getElem?.1 ht
    obtain ⟨h1, rfl, _⟩ := good_one g hn
    obtain ⟨r, h2⟩ := resume_some i late t
    simp only [Ui.step, hn]
    rw [if_neg (by simp [h1, hsl])]
    simp [h2]
  · intro t ht hsl go
    obtain ⟨n, hn⟩ := List.mem_iff_getElem?.1 ht
    obtain ⟨h1, rfl, _⟩ := good_one g hn
    cases t with
    | dialog pause stoping => simp [Ui.step, h1, Task.urgent]
    | _ => cases hsl
  · intro hu
    have hu : s.tasks.any Task.urgent = false := by
      rw [List.any_eq_false]
      intro t ht
      simp [hu t ht]
    obtain ⟨ph, r, on, ui⟩ := i.core
    obtain ⟨as, ha⟩ := i.drawer
    obtain ⟨d1, d2⟩ := drawer_allowed ha on ui
    refine ⟨?_, ?_, ?_, ?_, ?_⟩
    · obtain ⟨s', h'⟩ := calls_some d1 r
      simp [Ui.step, hu, h']
    · obtain ⟨s', h'⟩ := calls_some d2 r
      simp [Ui.step, hu, h']
    · intro a
      obtain ⟨e', he'⟩ := act s.drawer a
      simp [Ui.step, hu, he']
    · intro v; simp [Ui.step, hu]
    · intro v; simp [Ui.step, hu]

/-- **C59.** The stop button is enabled exactly while something runs and the cycle time that is set is
not 0 (and no function waits for `sleep(0)`), whatever is stored when the page is loaded, provided a
stored cycle time is one that the page can have stored. -/
theorem C59_stop_enabled (ph : Phase) (h : H) (st : Store) (hst : SaneTime st) (url : Option Str)
    (s0 s : Ui) (es : List Event) (late : Bool) (hr : Reach ph h) (on : ph.on = true)
    (ui : ph.ui = true) (h0 : Ui.start h (load st url) = some s0) (hs : s0.steps es = some s) :
    (s.step (.stop late)).isSome = true ↔
      s.running = true ∧ s.page.cycleTime ≠ .int 0 ∧ ∀ t ∈ s.tasks, t.urgent = false := by
  obtain ⟨g, i⟩ := steps_sound (start_good h0) (start_sound h0 ⟨ph, hr, on, ui⟩) hs
  obtain ⟨cs, hcs⟩ := i.page
  obtain ⟨n, _, _, h1, h2⟩ := C58_immediate st hst url cs
  rw [← hcs] at h1 h2
  have hi : s.page.immediate = true ↔ s.page.cycleTime = .int 0 := by
    rw [h1, h2]; simp
  constructor
  · intro hsome
    obtain ⟨s', h'⟩ := Option.isSome_iff_exists.1 hsome
    obtain ⟨a, b, _⟩ := stop_step g h'
    refine ⟨a, fun hc => ?_, ?_⟩
    · rw [hi.2 hc] at b; cases b
    · intro t ht
      simp only [Ui.step] at h'
      split at h'
      · cases h'
      · rename_i hn
        simp only [Bool.or_eq_true, not_or, Bool.not_eq_true] at hn
        have := List.any_eq_false.1 hn.1.1 t ht
        simpa using this
  · rintro ⟨a, b, c⟩
    have hu : s.tasks.any Task.urgent = false := by
      rw [List.any_eq_false]
      intro t ht
      simp [c t ht]
    have him : s.page.immediate = false := by
      have := mt hi.1 b
      simpa using this
    obtain ⟨t, ht, _⟩ := good_running g a
    have i' : Ui.Sound (load st url) { s with current := false } := ⟨i.core, i.drawer, i.page⟩
    obtain ⟨r, h3⟩ := resume_some i' late t
    simp only [Ui.step]
    rw [if_neg (by simp [hu, a, him])]
    rw [ht] at h3 ⊢
    simp only [Ui.resumeAll]
    split
    · simp [h3]
    · simp

/-! Every run is one of `Buttons`. -/

theorem instruction_then {n k : Nat} {h h1 h' : H} {e : Ended} (a : InstructionButton n h h1 .stopped)
    (b : InstructionButton k h1 h' e) : InstructionButton (n + k) h h' e := by
  generalize he : Ended.stopped = e1 at a
  induction a with
  | last => cases he
  | stop run state ne => rw [Nat.add_comm]; exact .more run state ne b
  | @more h h2 h1 r x n e run state ne rest ih =>
    rw [show n + 1 + k = n + k + 1 by omega]
    exact .more run state ne (ih b he)

/-- What has been run since the machine was `h0`: presses of the run buttons that are over, and what the
function that waits has done. -/
def Ran (h0 core : H) (ts : List Task) : Prop :=
  ∃ n h1, Presses n h0 h1 ∧ match ts with
    | [] => h1 = core
    | t :: _ => t.Did h1 core

theorem ran_instruction {h0 h1 h' : H} {n k : Nat} {e : Ended} (a : Presses n h0 h1)
    (b : InstructionButton k h1 h' e) : Ran h0 h' [] :=
  ⟨_, _, a.append (.instruction b .none), rfl⟩

theorem ran_program {h0 h1 h' : H} {n k : Nat} {u : Bool} {e : Ended} (a : Presses n h0 h1)
    (b : ProgramButton u k h1 h' e) : Ran h0 h' [] :=
  ⟨_, _, a.append (.program u b .none), rfl⟩

theorem getter_next {p : Page} {s : Ui} {h' h'' : H} {u : Bool} {c x : CInt} (i : s.Sound p)
    (run : exec (.runClockCycle u) s.core = some (c, h'))
    (e : exec .getNextState h' = some (x, h'')) : NextState h' x := by
  obtain ⟨ph, r, on, ui⟩ := sound_cycle i run
  obtain ⟨m, t⟩ := r.at on
  have := t.next
  unfold NextState at this ⊢
  rw [this] at e
  cases e
  exact this

theorem getter_ri {p : Page} {s : Ui} {h' h'' : H} {u : Bool} {c x : CInt} (i : s.Sound p)
    (run : exec (.runClockCycle u) s.core = some (c, h'))
    (e : exec (.getRegisterValue .ri) h' = some (x, h'')) :
    exec (.getRegisterValue .ri) h' = some (x, h') := by
  obtain ⟨ph, r, on, ui⟩ := sound_cycle i run
  obtain ⟨m, t⟩ := r.at on
  have := t.reg .ri
  rw [this] at e
  cases e
  exact this

theorem instructionLoop_ran {p : Page} {s : Ui} {pause : Value} {r : Ui × List Task} {h0 h1 : H}
    {n : Nat} (i : s.Sound p) (a : Presses n h0 h1)
    (did : (s.core = h1 ∧ s.current = true) ∨ (Task.instruction pause).Did h1 s.core)
    (h : s.instructionLoop pause = some r) : Ran h0 r.1.core r.2 := by
  rcases instructionLoop_inv h with ⟨hc, rfl⟩ | ⟨_, _, _, _, _, run, e, hx⟩
  · rcases did with ⟨_, hc'⟩ | ⟨k, b⟩
    · rw [hc] at hc'; cases hc'
    · exact ran_instruction a b
  · have nx := getter_next i run e
    rcases did with ⟨rfl, _⟩ | ⟨k, b⟩
    · rcases hx with ⟨rfl, rfl⟩ | ⟨hx, rfl⟩
      · exact ran_instruction a (.last run nx)
      · exact ⟨_, _, a, _, .stop run nx hx⟩
    · rcases hx with ⟨rfl, rfl⟩ | ⟨hx, rfl⟩
      · exact ran_instruction a (instruction_then b (.last run nx))
      · exact ⟨_, _, a, _, instruction_then b (.stop run nx hx)⟩

theorem programLoop_ran {p : Page} {s : Ui} {imm st : Bool} {pause : Value} {r : Ui × List Task}
    {h0 h1 : H} {n k : Nat} (i : s.Sound p) (a : Presses n h0 h1)
    (did : Part (!imm) k h1 s.core st) (hk : s.current = false → k ≠ 0)
    (h : s.programLoop imm pause st = some r) : Ran h0 r.1.core r.2 := by
  rcases programLoop_inv h with ⟨hc, rfl⟩ | ⟨_, _, _, run, ⟨rfl, rfl⟩ | ⟨rfl, _, _, _, _, e, e', rfl⟩⟩
  · obtain ⟨k, rfl⟩ := Nat.exists_eq_succ_of_ne_zero (hk hc)
    exact ran_program a did.stopped
  · exact ran_program a (did.done run)
  · cases e'
    exact ⟨_, _, a, _, .more did run (getter_ri i run e) rfl⟩

theorem programStart_ran {p : Page} {s : Ui} {imm : Bool} {r : Ui × List Task}
    {h0 : H} {n : Nat} (i : s.Sound p) (a : Presses n h0 s.core)
    (h : s.programStart imm = some r) : Ran h0 r.1.core r.2 :=
  programLoop_ran (p := p) (k := 0)
    (s := { s with page := s.page.step .run, current := true }) ⟨i.core, i.drawer, page_step i.page .run⟩ a .none
    (fun h => by cases h) h

theorem resume_ran {p : Page} {s : Ui} {late : Bool} {t : Task} {r : Ui × List Task} {h0 h1 : H}
    {n : Nat} (i : s.Sound p) (a : Presses n h0 h1) (did : t.Did h1 s.core)
    (h : s.resume late t = some r) : Ran h0 r.1.core r.2 := by
  cases t with
  | instruction pause => exact instructionLoop_ran i a (.inr did) h
  | starting =>
    have did : s.core = h1 := did
    subst did
    exact programStart_ran i a h
  | program imm pause st =>
    obtain ⟨k, did⟩ := did
    simp only [Ui.resume] at h
    split at h
    · rename_i hl
      simp only [Bool.and_eq_true] at hl
      obtain ⟨rfl, _⟩ := hl
      cases h
      exact ⟨_, _, a, _, did⟩
    · exact programLoop_ran i a did (fun _ => by omega) h
  | dialog pause st => cases h; exact ⟨_, _, a, did⟩
  | dismissed pause st =>
    obtain ⟨k, did⟩ := did
    exact programLoop_ran (imm := true) i a did (fun _ => by omega) h

theorem press_ran {p : Page} {s : Ui} {b : Button} {r : Ui × List Task} {h0 : H} {n : Nat}
    (i : s.Sound p) (a : Presses n h0 s.core) (h : s.press b = some r) : Ran h0 r.1.core r.2 := by
  cases b with
  | state =>
    simp only [Ui.press, Option.map_eq_some_iff] at h
    obtain ⟨s1, h1, rfl⟩ := h
    obtain ⟨_, _, run, rfl⟩ := cycle_inv h1
    exact ⟨_, _, a.append (.state ⟨_, run⟩ .none), rfl⟩
  | instruction =>
    exact instructionLoop_ran (p := p)
      (s := { s with page := s.page.step .run, current := true, running := true })
      ⟨i.core, i.drawer, page_step i.page .run⟩ a (.inl ⟨rfl, rfl⟩) h
  | program =>
    simp only [Ui.press] at h
    split at h
    · cases h; exact ⟨_, _, a, rfl⟩
    · exact programStart_ran (p := p) (s := { s with running := true }) ⟨i.core, i.drawer, i.page⟩ a h

theorem ran_step {p : Page} {h0 : H} {s s' : Ui} {e : Event} (he : e ≠ .save ∧ e ≠ .setPc)
    (g : s.Good s.tasks) (i : s.Sound p) (ran : Ran h0 s.core s.tasks) (h : s.step e = some s') :
    Ran h0 s'.core s'.tasks := by
  obtain ⟨n, h1, a, did⟩ := ran
  cases e with
  | press b =>
    obtain ⟨_, ht, _, r, h2, rfl⟩ := press_step g h
    rw [ht] at did
    have did : h1 = s.core := did
    subst did
    exact press_ran i a h2
  | stop late =>
    obtain ⟨_, _, t, ht, ⟨_, rfl⟩ | ⟨_, r, h2, rfl⟩⟩ := stop_step g h
    · exact ⟨n, h1, a, did⟩
    · rw [ht] at did
      exact resume_ran (p := p) (s := { s with current := false }) ⟨i.core, i.drawer, i.page⟩ a did h2
  | wake j late =>
    obtain ⟨_, t, ht, _, _, _, r, h2, rfl⟩ := wake_step g h
    rw [ht] at did
    exact resume_ran i a did h2
  | answer j go =>
    obtain ⟨_, pause, st, ht, _, ⟨_, rfl⟩ | ⟨_, rfl⟩⟩ := answer_step g h
    · rw [ht] at did
      exact ⟨n, h1, a, did⟩
    · rw [ht] at did
      obtain ⟨k, did⟩ := did
      exact ran_program a did.stopped
  | save => exact absurd rfl he.1
  | setPc => exact absurd rfl he.2
  | cycle v =>
    obtain ⟨h2, _, _, _, h3⟩ := other_step trivial h
    rw [h2, h3]; exact ⟨n, h1, a, did⟩
  | tour v =>
    obtain ⟨h2, _, _, _, h3⟩ := other_step trivial h
    rw [h2, h3]; exact ⟨n, h1, a, did⟩
  | drawer v =>
    obtain ⟨h2, _, _, _, h3⟩ := other_step trivial h
    rw [h2, h3]; exact ⟨n, h1, a, did⟩

/-- **C59.** From any moment at which nothing runs, to any later one at which nothing runs, with no
program saved and PC not set in between, the core has gone through presses of the run buttons one after
the other, each over by itself or stopped, as C51 has them - however the user clicked, changed the
settings, answered or waited. -/
theorem C59_presses (ph : Phase) (h : H) (p : Page) (s0 s s' : Ui) (es es' : List Event)
    (hr : Reach ph h) (on : ph.on = true) (ui : ph.ui = true) (h0 : Ui.start h p = some s0)
    (hs : s0.steps es = some s) (idle : s.running = false)
    (he : ∀ e ∈ es', e ≠ .save ∧ e ≠ .setPc) (hs' : s.steps es' = some s') (idle' : s'.running = false) :
    ∃ n, Presses n s.core s'.core := by
  obtain ⟨g, i⟩ := steps_sound (start_good h0) (start_sound h0 ⟨ph, hr, on, ui⟩) hs
  have ran : Ran s.core s.core s.tasks := by
    rw [(good_nil g idle).1]
    exact ⟨0, _, .none, rfl⟩
  have := steps_keep
    (I := fun x => x.Good x.tasks ∧ x.Sound p ∧ Ran s.core x.core x.tasks)
    (ok := fun e => e ≠ .save ∧ e ≠ .setPc)
    (fun s1 e s2 he i h => ⟨i.1.step h, i.2.1.step i.1 h, ran_step he i.1 i.2.1 i.2.2 h⟩) he
    ⟨g, i, ran⟩ hs'
  obtain ⟨g', _, n, h1, a, did⟩ := this
  rw [(good_nil g' idle').1] at did
  have did : h1 = s'.core := did
  exact ⟨n, did ▸ a⟩

/-- **C59.** The button of the code drawer that sets PC: while the offset shown is valid, PC becomes that
offset; no other register, no cell and not the next microstate changes; a program that is running goes
on from there. While the offset is not valid nothing happens. -/
theorem C59_set_pc (ph : Phase) (h : H) (p : Page) (s0 s s' : Ui) (es : List Event) (hr : Reach ph h)
    (on : ph.on = true) (ui : ph.ui = true) (h0 : Ui.start h p = some s0) (hs : s0.steps es = some s)
    (set : s.step .setPc = some s') :
    s'.tasks = s.tasks ∧ s'.current = s.current ∧
    (s.drawer.offsetValid = false → s' = s) ∧
    (s.drawer.offsetValid = true → 0 ≤ s.drawer.shownOffset ∧ s.drawer.shownOffset ≤ 65535 ∧
      (∃ v, RegIs s'.core .pc v ∧ v.toInt = s.drawer.shownOffset) ∧
      (∀ t v, t ≠ .pc → RegIs s.core t v → RegIs s'.core t v) ∧
      (∀ i x, Cell s.core i x → Cell s'.core i x) ∧
      (∀ x, NextState s.core x → NextState s'.core x) ∧ s'.shown = some s'.core) := by
  obtain ⟨g, i⟩ := steps_sound (start_good h0) (start_sound h0 ⟨ph, hr, on, ui⟩) hs
  have h1 := setPc_step set
  obtain ⟨_, b, c, _⟩ := calls_rest h1
  refine ⟨c, b, ?_, ?_⟩
  · intro hv
    rw [Editor.pcCalls, if_neg (by simp [hv])] at h1
    cases h1; rfl
  · intro hv
    rw [Editor.pcCalls, if_pos hv] at h1
    obtain ⟨as, ha⟩ := i.drawer
    obtain ⟨n0, n1, _⟩ := acts_offset ha hv
    generalize s.drawer.shownOffset = n at h1 n0 n1 ⊢
    obtain ⟨ph', r, on', ui'⟩ := i.core
    obtain ⟨a, o⟩ := r.on on'
    have hn : BitVec.ofInt 32 n = (BitVec.ofNat 16 n.toNat).setWidth 32 := by
      apply BitVec.eq_of_toInt_eq
      rw [BitVec.toInt_ofInt, Int.bmod_eq_of_le (by omega) (by omega), BitVec.toInt_eq_toNat_cond]
      simp only [BitVec.toNat_setWidth, BitVec.toNat_ofNat]
      split <;> omega
    obtain ⟨h', e, o', _, _⟩ := o.setPc (r.inv.ui.trans ui') (BitVec.ofNat 16 n.toNat)
    rw [hn] at h1
    simp only [Ui.calls, e, Option.bind_some, Option.some.injEq] at h1
    subst h1
    refine ⟨n0, n1, ⟨_, o'.getReg .pc, ?_⟩, ?_, ?_, ?_, rfl⟩
    · show ((BitVec.ofNat 16 n.toNat).setWidth 32).toInt = n
      rw [BitVec.toInt_eq_toNat_cond]
      simp only [BitVec.toNat_setWidth, BitVec.toNat_ofNat]
      split <;> omega
    · intro t v ht hv
      have := some_inj (hv.symm.trans (o.getReg t))
      rw [this]
      have := o'.getReg t
      cases t <;> first | exact this | exact absurd rfl ht
    · intro i x hx
      have := some_inj (hx.symm.trans (o.getMemory i))
      unfold Cell
      rw [this]; exact o'.getMemory i
    · intro x hx
      have := some_inj (hx.symm.trans o.getNextState)
      unfold NextState
      rw [this]; exact o'.getNextState

/-! ## What is shown -/

/-- The last notification was made when the core was as it is now, or the core is still as it was when
the page was loaded (and when every box was read for the first time). -/
def Ui.Current (h0 : H) (s : Ui) : Prop := s.shown = some s.core ∨ s.shown = none ∧ s.core = h0

def Fresh (h0 : H) (s : Ui) (ts : List Task) : Prop :=
  (∃ pause st, ts = [.program true pause st]) ∨ s.Current h0

theorem instructionLoop_fresh {h0 : H} {s : Ui} {pause : Value} {r : Ui × List Task}
    (c : s.Current h0) (h : s.instructionLoop pause = some r) : Fresh h0 r.1 r.2 := by
  rcases instructionLoop_inv h with ⟨_, rfl⟩ | ⟨_, _, _, _, _, _, _, ⟨_, rfl⟩ | ⟨_, rfl⟩⟩
  · exact .inr c
  · exact .inr (.inl rfl)
  · exact .inr (.inl rfl)

theorem programLoop_fresh {h0 : H} {s : Ui} {imm st : Bool} {pause : Value} {r : Ui × List Task}
    (c : imm = false → s.Current h0) (h : s.programLoop imm pause st = some r) :
    Fresh h0 r.1 r.2 := by
  rcases programLoop_inv h with ⟨_, rfl⟩ | ⟨_, _, _, _, ⟨_, rfl⟩ | ⟨_, _, _, _, _, _, _, rfl⟩⟩
  · cases imm with
    | true => exact .inr (.inl rfl)
    | false => exact .inr (c rfl)
  · cases imm with
    | true => exact .inr (.inl rfl)
    | false => exact .inr (.inl rfl)
  · cases imm with
    | true => exact .inl ⟨_, _, rfl⟩
    | false => exact .inr (.inl rfl)

theorem programStart_fresh {h0 : H} {s : Ui} {imm : Bool} {r : Ui × List Task}
    (c : imm = false → s.Current h0) (h : s.programStart imm = some r) : Fresh h0 r.1 r.2 :=
  programLoop_fresh (s := { s with page := s.page.step .run, current := true }) c h

theorem resume_fresh {h0 : H} {s : Ui} {late : Bool} {t : Task} {r : Ui × List Task}
    (f : Fresh h0 s [t]) (h : s.resume late t = some r) : Fresh h0 r.1 r.2 := by
  cases t with
  | instruction pause =>
    rcases f with ⟨_, _, f⟩ | f
    · cases f
    · exact instructionLoop_fresh f h
  | starting => exact programStart_fresh (fun h => by cases h) h
  | program imm pause st =>
    simp only [Ui.resume] at h
    split at h
    · cases h; exact .inr (.inl rfl)
    · refine programLoop_fresh (fun hi => ?_) h
      subst hi
      rcases f with ⟨_, _, f⟩ | f
      · cases f
      · exact f
  | dialog pause st => cases h; exact f
  | dismissed pause st => exact programLoop_fresh (fun h => by cases h) h

theorem press_fresh {h0 : H} {s : Ui} {b : Button} {r : Ui × List Task} (c : s.Current h0)
    (h : s.press b = some r) : Fresh h0 r.1 r.2 := by
  cases b with
  | state =>
    simp only [Ui.press, Option.map_eq_some_iff] at h
    obtain ⟨s1, h1, rfl⟩ := h
    obtain ⟨_, _, run, rfl⟩ := cycle_inv h1
    exact .inr (.inl rfl)
  | instruction =>
    exact instructionLoop_fresh
      (s := { s with page := s.page.step .run, current := true, running := true }) c h
  | program =>
    simp only [Ui.press] at h
    split at h
    · cases h; exact .inr c
    · exact programStart_fresh (s := { s with running := true }) (fun _ => c) h

theorem calls_fresh {cs : List Call} {c : Call} (hc : Call.notifies c = true) {s s' : Ui}
    (h : s.calls (cs ++ [c]) = some s') : s'.shown = some s'.core := by
  induction cs generalizing s with
  | nil =>
    simp only [List.nil_append, Ui.calls, Option.bind_eq_some_iff] at h
    obtain ⟨r, _, h⟩ := h
    cases h
    simp [hc]
  | cons d cs ih =>
    simp only [List.cons_append, Ui.calls, Option.bind_eq_some_iff] at h
    obtain ⟨r, _, h⟩ := h
    exact ih h

theorem saveFrom_last (offset : Int) (i : Nat) (slots : List Str) (hs : slots ≠ []) :
    ∃ cs c, saveFrom offset i slots = cs ++ [c] ∧ Call.notifies c = true := by
  induction slots generalizing i with
  | nil => exact absurd rfl hs
  | cons slot slots ih =>
    cases slots with
    | nil => exact ⟨[], _, rfl, rfl⟩
    | cons s2 slots =>
      obtain ⟨cs, c, h1, h2⟩ := ih (i + 1) (by simp)
      exact ⟨_ :: cs, c, by rw [saveFrom, h1]; rfl, h2⟩

/-- There is something to save, or saving is not enabled. -/
def Something (e : Editor) : Prop := e.slots ≠ [] ∨ e.canSave = false

theorem something_act {e e' : Editor} {text : Str} (h : e.act (.code text) = some e') :
    Something e' := by
  simp only [Editor.act, Option.map_eq_some_iff] at h
  obtain ⟨t, ht, rfl⟩ := h
  cases t with
  | none => exact .inr rfl
  | some lines =>
    left
    simp only [translation, Option.map_eq_some_iff] at ht
    obtain ⟨res, _, ht⟩ := ht
    split at ht
    · cases ht
    · cases ht; exact split_ne_nil _ _

theorem instructionLoop_drawer {s : Ui} {pause : Value} {r : Ui × List Task}
    (h : s.instructionLoop pause = some r) : r.1.drawer = s.drawer := by
  rcases instructionLoop_inv h with ⟨_, rfl⟩ | ⟨_, _, _, _, _, _, _, ⟨_, rfl⟩ | ⟨_, rfl⟩⟩ <;> rfl

theorem programLoop_drawer {s : Ui} {imm st : Bool} {pause : Value} {r : Ui × List Task}
    (h : s.programLoop imm pause st = some r) : r.1.drawer = s.drawer := by
  rcases programLoop_inv h with ⟨_, rfl⟩ | ⟨_, _, _, _, ⟨_, rfl⟩ | ⟨_, _, _, _, _, _, _, rfl⟩⟩ <;> rfl

theorem resume_drawer {s : Ui} {late : Bool} {t : Task} {r : Ui × List Task}
    (h : s.resume late t = some r) : r.1.drawer = s.drawer := by
  cases t with
  | instruction pause => exact instructionLoop_drawer h
  | starting => exact programLoop_drawer (s := { s with page := _, current := true }) h
  | program imm pause st =>
    simp only [Ui.resume] at h
    split at h
    · cases h; rfl
    · exact programLoop_drawer h
  | dialog pause st => cases h; rfl
  | dismissed pause st => exact programLoop_drawer h

theorem press_drawer {s : Ui} {b : Button} {r : Ui × List Task} (h : s.press b = some r) :
    r.1.drawer = s.drawer := by
  cases b with
  | state =>
    simp only [Ui.press, Option.map_eq_some_iff] at h
    obtain ⟨s1, h1, rfl⟩ := h
    obtain ⟨_, _, run, rfl⟩ := cycle_inv h1
    rfl
  | instruction =>
    exact instructionLoop_drawer (s := { s with page := _, current := true, running := true }) h
  | program =>
    simp only [Ui.press] at h
    split at h
    · cases h; rfl
    · exact programLoop_drawer (s := { s with page := _, current := true, running := true }) h

/-- The input for the offset is disabled (`CodeEditor.tsx:186`). -/
def Event.offered (e : Event) : Prop := ∀ n, e ≠ .drawer (.offset n)

theorem fresh_step {h0 : H} {s s' : Ui} {e : Event} (he : e.offered) (g : s.Good s.tasks)
    (d : Something s.drawer) (f : Fresh h0 s s.tasks) (h : s.step e = some s') :
    Fresh h0 s' s'.tasks ∧ Something s'.drawer := by
  cases e with
  | press b =>
    obtain ⟨_, ht, _, r, h2, rfl⟩ := press_step g h
    rw [ht] at f
    rcases f with ⟨_, _, f⟩ | f
    · cases f
    · refine ⟨press_fresh f h2, ?_⟩
      rw [show ({ r.1 with tasks := r.2 } : Ui).drawer = s.drawer from press_drawer h2]
      exact d
  | stop late =>
    obtain ⟨_, _, t, ht, ⟨hs, rfl⟩ | ⟨_, r, h2, rfl⟩⟩ := stop_step g h
    · exact ⟨f, d⟩
    · rw [ht] at f
      refine ⟨resume_fresh (s := { s with current := false }) f h2, ?_⟩
      rw [show ({ r.1 with tasks := r.2 } : Ui).drawer = s.drawer from
        resume_drawer (s := { s with current := false }) h2]
      exact d
  | wake j late =>
    obtain ⟨_, t, ht, _, _, _, r, h2, rfl⟩ := wake_step g h
    rw [ht] at f
    refine ⟨resume_fresh f h2, ?_⟩
    rw [show ({ r.1 with tasks := r.2 } : Ui).drawer = s.drawer from resume_drawer h2]
    exact d
  | answer j go =>
    obtain ⟨_, pause, st, ht, _, ⟨_, rfl⟩ | ⟨_, rfl⟩⟩ := answer_step g h
    · rw [ht] at f
      rcases f with ⟨_, _, f⟩ | f
      · cases f
      · exact ⟨.inr f, d⟩
    · exact ⟨.inr (.inl rfl), d⟩
  | cycle v =>
    obtain ⟨h1, h2, _, _, h3⟩ := other_step trivial h
    refine ⟨by unfold Fresh Ui.Current; rw [h1, h2, h3]; exact f, ?_⟩
    simp only [Ui.step] at h
    split at h
    · cases h
    · cases h; exact d
  | tour v =>
    obtain ⟨h1, h2, _, _, h3⟩ := other_step trivial h
    refine ⟨by unfold Fresh Ui.Current; rw [h1, h2, h3]; exact f, ?_⟩
    simp only [Ui.step] at h
    split at h
    · cases h
    · cases h; exact d
  | drawer v =>
    obtain ⟨h1, h2, _, _, h3⟩ := other_step trivial h
    refine ⟨by unfold Fresh Ui.Current; rw [h1, h2, h3]; exact f, ?_⟩
    simp only [Ui.step] at h
    split at h
    · cases h
    · simp only [Option.map_eq_some_iff] at h
      obtain ⟨e, he', rfl⟩ := h
      cases v with
      | code text => exact something_act he'
      | offset n => exact absurd rfl (he n)
  | save =>
    have h := save_step h
    obtain ⟨_, _, h3, _, h5⟩ := calls_rest h
    refine ⟨?_, h5 ▸ d⟩
    unfold Editor.saveCalls at h
    split at h
    · rename_i hc
      rcases d with d | d
      · obtain ⟨cs, c, h1, h2⟩ := saveFrom_last s.drawer.offset 0 _ d
        rw [h1] at h
        exact .inr (.inl (calls_fresh (cs := .resetControl :: cs) h2 h))
      · rw [hc] at d; cases d
    · cases h; exact f
  | setPc =>
    have h := setPc_step h
    obtain ⟨_, _, h3, _, h5⟩ := calls_rest h
    refine ⟨?_, h5 ▸ d⟩
    unfold Editor.pcCalls at h
    split at h
    · exact .inr (.inl (calls_fresh (cs := []) (c := .setRegisterPc _) rfl h))
    · cases h; exact f

/-- **C59.** What the page has last been told is the core as it is now: whenever no run without
updates is under way, the last notification was made after the last change of the core. (Before the
first notification the core is as it was when the page was loaded.) -/
theorem C59_fresh (h : H) (p : Page) (s0 s : Ui) (es : List Event) (h0 : Ui.start h p = some s0)
    (he : ∀ e ∈ es, e.offered) (hs : s0.steps es = some s)
    (paced : ∀ pause st, s.tasks ≠ [.program true pause st]) :
    s.shown = some s.core ∨ s.shown = none ∧ s.core = h := by
  obtain ⟨h1, h2, _, _, _, _, h3⟩ := start_inv h0
  have d : Something s0.drawer := by
    simp only [Editor.acts, Option.bind_eq_some_iff] at h3
    obtain ⟨e, h4, h5⟩ := h3
    cases h5
    exact something_act h4
  have := steps_keep
    (I := fun x => x.Good x.tasks ∧ Fresh h x x.tasks ∧ Something x.drawer) (ok := Event.offered)
    (fun s1 e s2 he i h => ⟨i.1.step h, fresh_step he i.1 i.2.2 i.2.1 h⟩) he
    ⟨start_good h0, .inr (.inr ⟨h2, h1⟩), d⟩ hs
  rcases this.2.1 with ⟨_, _, f⟩ | f
  · exact absurd f (paced _ _)
  · exact f

/-! ## Stopping that fails -/

theorem cycle_page (p : Page) (n : Int) (h0 : 0 ≤ n) (h1 : n ≤ 5000) :
    (p.step (.cycle (some n))).immediate = decide (n = 0) ∧
      (p.step (.cycle (some n))).cycleTime = .int n := by
  have e : p.step (.cycle (some n)) =
      { p with store := p.store.set .cycleTime (.int n), cycleBox := .int n, immediate := n = 0 } := by
    simp only [Page.step]
    rw [if_neg (by omega), if_neg (by omega)]
  rw [e]
  exact ⟨rfl, by simp [Page.cycleTime, Store.get, Store.set, Value.stored]⟩

/-- Not always does the stop button stop: a press during the first tenth of a second of a run without
updates (possible when the cycle time has been changed meanwhile) is lost, because the handler sets
`_running.current` afterwards. Whatever the core and the page are. -/
theorem C59_stop_lost (ph : Phase) (h : H) (p : Page) (late : Bool) (hr : Reach ph h)
    (on : ph.on = true) (ui : ph.ui = true) :
    ∃ s0 s c st, Ui.start h p = some s0 ∧
      s0.steps [.cycle (some 0), .press .program, .cycle (some 500), .stop late] = some s ∧
      exec (.runClockCycle false) h = some (c, s.core) ∧ s.running = true ∧ s.current = true ∧
      s.tasks = [.program true (.int 500) st] := by
  obtain ⟨s0, h0, _⟩ := C59_defined ph h p hr on ui
  obtain ⟨a1, a2, a3, a4, a5, a6, a7⟩ := start_inv h0
  have i0 := start_sound h0 ⟨ph, hr, on, ui⟩
  obtain ⟨b1, _⟩ := cycle_page s0.page 0 (by decide) (by decide)
  obtain ⟨c1, c2⟩ := cycle_page (s0.page.step (.cycle (some 0))) 500 (by decide) (by decide)
  let s1 : Ui := { s0 with page := s0.page.step (.cycle (some 0)) }
  let s2 : Ui := { s1 with running := true, current := true, tasks := [.starting] }
  let s3 : Ui := { s2 with page := s2.page.step (.cycle (some 500)) }
  have e1 : s0.step (.cycle (some 0)) = some s1 := by simp [Ui.step, a6, s1]
  have e2 : s1.step (.press .program) = some s2 := by
    simp [Ui.step, Ui.press, Ui.waiting, s1, a6, a3, b1, s2]
  have e3 : s2.step (.cycle (some 500)) = some s3 := by simp [Ui.step, s2, s3, Task.urgent]
  let s4 : Ui := { s3 with page := s3.page.step .run, current := true }
  have i4 : s4.Sound p := ⟨i0.core, i0.drawer,
    page_step (page_step (page_step i0.page (.cycle (some 0))) (.cycle (some 500))) .run⟩
  obtain ⟨r, hl⟩ := programLoop_some i4 true (.int 500) false
  have hl' : Ui.programStart { s3 with current := false } true = some r := by
    have : ({ s3 with current := false } : Ui).page.cycleTime = .int 500 := c2
    rw [Ui.programStart, this]; exact hl
  have e4 : s3.step (.stop late) = some { r.1 with tasks := r.2 } := by
    simp only [Ui.step]
    rw [if_neg (by simp [s3, s2, s1, c1, Task.urgent])]
    show (Ui.resumeAll { s3 with current := false } late [.starting]).map _ = _
    simp [Ui.resumeAll, Task.sleeping, Ui.resume, hl', Ui.waiting]
  rcases programLoop_inv hl with ⟨hc, _⟩ | ⟨c, h', _, run, ⟨hc, _⟩ | ⟨_, x, bits, _, _, _, _, rfl⟩⟩
  · cases hc
  · cases hc
  · refine ⟨s0, _, c, _, h0, Eq.trans ?_ e4, ?_, rfl, rfl, rfl⟩
    · simp only [Ui.steps, e1, e2, e3, Option.bind_some]
      cases s3.step (.stop late) <;> rfl
    rw [← a1]
    exact run

/-- Not always can a run be stopped: when the cycle time is set to 0 while a program is running that
never ends by itself, every button is disabled and stays so, and no dialog appears. -/
theorem C59_stop_wrong (ph : Phase) (h : H) (p : Page) (hr : Reach ph h) (on : ph.on = true)
    (ui : ph.ui = true) (endless : ∀ n h', ¬ RunProgram true n h h') :
    ∃ s0 s1, Ui.start h p = some s0 ∧
      s0.steps [.cycle (some 500), .press .program, .cycle (some 0)] = some s1 ∧
      ∀ lates : List Bool, ∃ s, s1.steps (lates.map (.wake 0)) = some s ∧ s.running = true ∧
        s.tasks = [.program false (.int 500) false] ∧ (∀ b, s.step (.press b) = none) ∧ (∀ late, s.step (.stop late) = none) ∧
        ∀ j go, s.step (.answer j go) = none := by
  obtain ⟨s0, h0, _⟩ := C59_defined ph h p hr on ui
  obtain ⟨a1, a2, a3, a4, a5, a6, a7⟩ := start_inv h0
  have i0 := start_sound h0 ⟨ph, hr, on, ui⟩
  obtain ⟨b1, b2⟩ := cycle_page s0.page 500 (by decide) (by decide)
  have loop : ∀ (s : Ui) k, s.Sound p → s.current = true → s.running = true →
      Part true k h s.core false →
      ∃ r : Ui × List Task, s.programLoop false (.int 500) false = some r ∧
        r.1.Sound p ∧ r.1.current = true ∧ r.1.running = true ∧ r.1.page = s.page ∧
        Part true (k + 1) h r.1.core false ∧ r.2 = [.program false (.int 500) false] := by
    intro s k i hc hrun part
    obtain ⟨r, hl⟩ := programLoop_some i false (.int 500) false
    have i' := programLoop_sound hl i
    rcases programLoop_inv hl with ⟨hc', _⟩ | ⟨c, h', _, run, ⟨hc', _⟩ | ⟨_, x, bits, h1, h2, e, e', rfl⟩⟩
    · rw [hc] at hc'; cases hc'
    · cases hc'
    · cases e'
      have part' := Part.more part run (getter_ri i run e) rfl
      have hst : decide (x.toNat = 2 ^ (BitVec.ofInt 32 memValueSizeBits).toNat - 1) = false := by
        cases hd : decide (x.toNat = 2 ^ (BitVec.ofInt 32 memValueSizeBits).toNat - 1) with
        | false => rfl
        | true =>
          rw [hd] at part'
          obtain ⟨s2, hs2⟩ := cycle_some i' true
          obtain ⟨c2, h2, run2, _⟩ := cycle_inv hs2
          exact absurd ((C51_program_done _ _ _ _).1 (part'.done run2)) (endless _ _)
      rw [hst] at part' hl i'
      exact ⟨_, hl, i', hc, hrun, rfl, part', rfl⟩
  let s1 : Ui := { s0 with page := s0.page.step (.cycle (some 500)) }
  let s2 : Ui := { s1 with running := true, page := s1.page.step .run, current := true }
  have i2 : s2.Sound p := ⟨i0.core, i0.drawer, page_step (page_step i0.page (.cycle (some 500))) .run⟩
  have e1 : s0.step (.cycle (some 500)) = some s1 := by simp [Ui.step, a6, s1]
  obtain ⟨r, hl, c1, c2, c3, c4, c5, c6⟩ := loop s2 0 i2 rfl rfl
    (by rw [show s2.core = h from a1]; exact .none)
  have e2 : s1.step (.press .program) = some { r.1 with tasks := r.2 } := by
    simp only [Ui.step]
    rw [if_neg (by simp [s1, a6, a3])]
    simp only [Ui.press]
    rw [if_neg (by simp [s1, b1])]
    have : Ui.programStart { s1 with running := true } false = some r := by
      rw [Ui.programStart, show ({ s1 with running := true } : Ui).page.cycleTime = .int 500 from b2]
      exact hl
    rw [this]
    simp [Ui.waiting, s1, a6]
  have e3 : Ui.step { r.1 with tasks := r.2 } (.cycle (some 0)) =
      some { r.1 with tasks := r.2, page := r.1.page.step (.cycle (some 0)) } := by
    simp [Ui.step, c6, Task.urgent]
  obtain ⟨d1, _⟩ := cycle_page r.1.page 0 (by decide) (by decide)
  refine ⟨s0, _, h0, by simp only [Ui.steps, e1, e2, e3, Option.bind_some]; rfl, ?_⟩
  have all : ∀ (lates : List Bool) (s : Ui) k, s.Sound p → s.current = true → s.running = true →
      s.page.immediate = true → Part true k h s.core false →
      s.tasks = [.program false (.int 500) false] →
      ∃ s', s.steps (lates.map (.wake 0)) = some s' ∧ s'.running = true ∧ s'.page.immediate = true ∧
        s'.tasks = [.program false (.int 500) false] := by
    intro lates
    induction lates with
    | nil => intro s k _ _ hrun him _ ht; exact ⟨s, rfl, hrun, him, ht⟩
    | cons late lates ih =>
      intro s k i hc hrun him part ht
      obtain ⟨q, hl, f1, f2, f3, f4, f5, f6⟩ := loop s k i hc hrun part
      have e : s.step (.wake 0 late) = some { q.1 with tasks := q.2 } := by
        simp only [Ui.step]
        rw [ht]
        simp only [List.getElem?_cons_zero]
        rw [if_neg (by simp [Task.sleeping, Task.urgent])]
        simp [Ui.resume, hl, Ui.waiting]
      obtain ⟨s', h1, h2⟩ := ih { q.1 with tasks := q.2 } (k + 1) ⟨f1.core, f1.drawer, f1.page⟩ f2 f3
        (by rw [show ({ q.1 with tasks := q.2 } : Ui).page = s.page from f4]; exact him) f5 f6
      exact ⟨s', by simp only [List.map_cons, Ui.steps, e, Option.bind_some]; exact h1, h2⟩
  intro lates
  obtain ⟨s', h1, h2, h3, h4⟩ := all lates
    { r.1 with tasks := r.2, page := r.1.page.step (.cycle (some 0)) } 1
    ⟨c1.core, c1.drawer, page_step c1.page (.cycle (some 0))⟩ c2 c3 (by simpa using d1) c5 c6
  refine ⟨s', h1, h2, h4, ?_, ?_, ?_⟩
  · intro b; simp [Ui.step, h2]
  · intro late; simp [Ui.step, h2, h3]
  · intro j go
    simp only [Ui.step, h4]
    cases j with
    | zero => simp [Task.urgent]
    | succ j => simp [Task.urgent]

/-- `JMP 0` at address 0 is such a program. -/
theorem endless_jump : ∃ ph h, Reach ph h ∧ ph.on = true ∧ ph.ui = true ∧
    ∀ n h', ¬ RunProgram true n h h' := by
  let p : P := ⟨0, 0, 0, 0, 0, 0, 0, false, false, fun i => if i = 0 then 0x74 else 0, []⟩
  obtain ⟨h, r⟩ := ready_all p rfl
  have r0 := r
  obtain ⟨ph, hr, on, ui, _⟩ := r0
  refine ⟨ph, h, hr, on, ui, ?_⟩
  intro n h' run
  obtain ⟨k, h1, p1, nf, r1, hf, _⟩ := C18_only_at_fin true h h' n p r run
  have e : p.step = some p := by
    have hd : decode (p.mem p.pc) = some .jmp := by decide +kernel
    unfold P.step
    rw [hd]
    show (if Instr.jmp = .call ∧ p.pc = 0xFFFF then none else some (p.instr .jmp)) = some p
    rw [if_neg (by decide)]
    simp [P.instr, P.next, P.address, P.byte, p]
  have stay : ∀ k h h1, NoFin true k h h1 → Ready h p → Ready h1 p := by
    intro k h h1 nf
    induction nf with
    | none => exact id
    | step before ne first rest ih =>
      intro r
      obtain ⟨_, n', h'', i, r'⟩ := r.step (u := true) e
      obtain ⟨_, rfl⟩ := i.det first
      exact ih r'
  have r2 := stay k h h1 nf r
  have : p1 = p := r1.unique r2
  subst this
  exact absurd hf (by decide)

/-- An input that sets the offset, were it not disabled, would enable saving while there is nothing to
save; `reset_control` notifies nobody, so that the panel of microstates would not be told. -/
example : (Editor.start.acts [.code "FOO".toList, .offset 4]).map Editor.saveCalls =
    some [.resetControl] := by
  have : Editor.start.acts [.code "FOO".toList, .offset 4] = some ⟨true, [], 4, 4, true⟩ := by
    decide +kernel
  rw [this]
  rfl

/-- A page, a core in use, and a session: two clock cycles, and PC set; nothing is running. -/
example : ∃ ph h s0 s, Reach ph h ∧ ph.on = true ∧ ph.ui = true ∧
    Ui.start h (load emptyStore none) = some s0 ∧
    s0.steps [.press .state, .press .state, .setPc] = some s ∧ s.running = false ∧
    s.drawer.offsetValid = true ∧ RegIs s.core .pc 0 ∧ s.shown = some s.core := by
  obtain ⟨ph, h, hr, on, ui, _⟩ := endless_jump
  obtain ⟨s0, h0, hs⟩ := C59_defined ph h (load emptyStore none) hr on ui
  obtain ⟨s1, e1⟩ := Option.isSome_iff_exists.1
    ((hs [] s0 rfl).2.1 (start_inv h0).2.2.1 .state)
  have k : ∀ s s' : Ui, s.step (.press .state) = some s' → s.tasks = [] → s'.tasks = [] ∧
      s'.running = false ∧ s'.drawer = s.drawer := by
    intro s s' h ht
    simp only [Ui.step] at h
    split at h
    · cases h
    · simp only [Ui.press, Option.map_eq_some_iff] at h
      obtain ⟨r, ⟨s1, h1, rfl⟩, rfl⟩ := h
      obtain ⟨_, _, _, rfl⟩ := cycle_inv h1
      exact ⟨by simp [Ui.waiting, ht], rfl, rfl⟩
  obtain ⟨t1, r1, d1⟩ := k _ _ e1 (start_inv h0).2.2.2.2.2.1
  have st1 : s0.steps [.press .state] = some s1 := by simp [Ui.steps, e1]
  obtain ⟨s2, e2⟩ := Option.isSome_iff_exists.1 ((hs _ s1 st1).2.1 r1 .state)
  obtain ⟨t2, r2, d2⟩ := k _ _ e2 t1
  have st2 : s0.steps [.press .state, .press .state] = some s2 := by simp [Ui.steps, e1, e2]
  obtain ⟨s3, e3⟩ := Option.isSome_iff_exists.1
    ((hs _ s2 st2).2.2.2.2 (by rw [t2]; intro t ht; cases ht)).2.1
  have st3 : s0.steps [.press .state, .press .state, .setPc] = some s3 := by simp [Ui.steps, e1, e2, e3]
  obtain ⟨a1, _, _, a2⟩ := C59_set_pc ph h _ s0 s2 s3 _ hr on ui h0 st2 e3
  have dv : s2.drawer.offsetValid = true ∧ s2.drawer.shownOffset = 0 := by
    rw [d2, d1]
    have := (start_inv h0).2.2.2.2.2.2
    rw [show (load emptyStore none).code = [] by decide +kernel,
      show Editor.start.acts [.code []] = some ⟨false, [], 0, 0, true⟩ by decide +kernel] at this
    rw [← Option.some.inj this]
    exact ⟨rfl, rfl⟩
  obtain ⟨_, _, ⟨v, v1, v2⟩, _, _, _, sh⟩ := a2 dv.1
  obtain ⟨b1, _, _, _, b5⟩ := calls_rest (setPc_step e3)
  refine ⟨ph, h, s0, s3, hr, on, ui, h0, st3, b1.trans r2, by rw [b5]; exact dv.1, ?_, sh⟩
  rw [dv.2] at v2
  rw [show (0 : CInt) = v from BitVec.eq_of_toInt_eq v2.symm]
  exact v1

/-- A program that runs with pauses and is stopped: `C59_stop_partial` and both sides of
`C59_stop_enabled`. -/
example : ∃ ph h s0 s s' s'', Reach ph h ∧ ph.on = true ∧ ph.ui = true ∧
    Ui.start h (load emptyStore none) = some s0 ∧ SaneTime emptyStore ∧
    s0.steps [.cycle (some 500), .press .program, .cycle (some 0)] = some s ∧
    s.step (.stop false) = none ∧
    s.step (.cycle (some 700)) = some s' ∧ s'.tasks ≠ [.starting] ∧ s'.step (.stop false) = some s'' := by
  obtain ⟨ph, h, hr, on, ui, endless⟩ := endless_jump
  obtain ⟨s0, s, h0, e1, w⟩ := C59_stop_wrong ph h (load emptyStore none) hr on ui endless
  obtain ⟨s1, w0, w1, w2, w3, w4, w5⟩ := w []
  cases w0
  have e2 : s.step (.cycle (some 700)) = some { s with page := s.page.step (.cycle (some 700)) } := by
    simp [Ui.step, w2, Task.urgent]
  have e3 : s0.steps [.cycle (some 500), .press .program, .cycle (some 0), .cycle (some 700)] =
      some { s with page := s.page.step (.cycle (some 700)) } := by
    simp only [Ui.steps, Option.bind_eq_some_iff] at e1 ⊢
    obtain ⟨x1, y1, x2, y2, x3, y3, y4⟩ := e1
    cases y4
    exact ⟨x1, y1, x2, y2, _, y3, _, e2, rfl⟩
  have en := (C59_stop_enabled ph h emptyStore (.inl rfl) none s0 _ _ false hr on ui h0 e3).2
    ⟨w1, by rw [(cycle_page s.page 700 (by decide) (by decide)).2]; decide,
      by
        show ∀ t ∈ s.tasks, _
        rw [w2]; intro t ht; rw [List.mem_singleton.1 ht]; rfl⟩
  obtain ⟨s'', e4⟩ := Option.isSome_iff_exists.1 en
  exact ⟨ph, h, s0, s, _, s'', hr, on, ui, h0, .inl rfl, e1, w4 false, e2, by
    show s.tasks ≠ _
    rw [w2]; decide, e4⟩

end Mpp.Front
