import Verif.Props.Listing
import Verif.Props.Source
/-!
# C77: saving, setting PC and running a program on the page
-/
namespace Mpp.Front

/-- The event leaves a program that runs alone: it is neither stopped, nor is the core changed, nor is a run
button pressed. The pauses end, the dialog is answered with "continue", and the settings and the text in the
editor may change. -/
def Event.leaves : Event → Prop
  | .wake _ _ => True
  | .answer _ go => go = true
  | .cycle _ => True
  | .tour _ => True
  | .drawer _ => True
  | _ => False

/-- A pause is over, or the dialog is answered with "continue". -/
def Event.waits (e : Event) : Prop := e = .wake 0 false ∨ e = .answer 0 true

theorem Event.waits.leaves {e : Event} (h : e.waits) : e.leaves ∧ e.offered := by
  rcases h with rfl | rfl
  · exact ⟨trivial, fun _ h => by cases h⟩
  · exact ⟨rfl, fun _ h => by cases h⟩

/-- The function that waits is that of run-program. -/
def Task.isProgram : Task → Prop
  | .instruction _ => False
  | _ => True

/-- Since the machine was `h1`, run-program has been left alone. -/
def Alone (h1 : H) (s : Ui) (ts : List Task) : Prop :=
  match ts with
  | [] => ∃ u n, RunProgram u n h1 s.core
  | t :: _ => s.current = true ∧ t.isProgram ∧ t.Did h1 s.core

theorem programLoop_alone {p : Page} {s : Ui} {imm st : Bool} {pause : Value} {r : Ui × List Task}
    {h1 : H} {k : Nat} (i : s.Sound p) (did : Part (!imm) k h1 s.core st) (hc : s.current = true)
    (h : s.programLoop imm pause st = some r) : Alone h1 r.1 r.2 := by
  rcases programLoop_inv h with ⟨hn, _⟩ | ⟨_, _, _, run, ⟨rfl, rfl⟩ | ⟨rfl, _, _, _, _, e, e', rfl⟩⟩
  · rw [hc] at hn; cases hn
  · exact ⟨_, _, (C51_program_done _ _ _ _).1 (did.done run)⟩
  · cases e'
    exact ⟨hc, trivial, _, .more did run (getter_ri i run e) rfl⟩

theorem programStart_alone {p : Page} {s : Ui} {imm : Bool} {r : Ui × List Task} (i : s.Sound p)
    (h : s.programStart imm = some r) : Alone s.core r.1 r.2 :=
  programLoop_alone (p := p) (k := 0) (s := { s with page := s.page.step .run, current := true })
    ⟨i.core, i.drawer, page_step i.page .run⟩ .none rfl h

theorem resume_alone {p : Page} {s : Ui} {late : Bool} {t : Task} {r : Ui × List Task} {h1 : H}
    (i : s.Sound p) (hc : s.current = true) (hp : t.isProgram) (did : t.Did h1 s.core)
    (h : s.resume late t = some r) : Alone h1 r.1 r.2 := by
  cases t with
  | instruction pause => exact hp.elim
  | starting =>
    have did : s.core = h1 := did
    subst did
    exact programStart_alone i h
  | program imm pause st =>
    obtain ⟨k, did⟩ := did
    simp only [Ui.resume] at h
    split at h
    · rename_i hl
      simp only [Bool.and_eq_true] at hl
      obtain ⟨rfl, _⟩ := hl
      cases h
      exact ⟨hc, trivial, _, did⟩
    · exact programLoop_alone i did hc h
  | dialog pause st => cases h; exact ⟨hc, hp, did⟩
  | dismissed pause st =>
    obtain ⟨k, did⟩ := did
    exact programLoop_alone (imm := true) i did hc h

theorem alone_step {p : Page} {h1 : H} {s s' : Ui} {e : Event} (he : e.leaves)
    (g : s.Good s.tasks) (i : s.Sound p) (a : Alone h1 s s.tasks) (h : s.step e = some s') :
    Alone h1 s' s'.tasks := by
  cases e with
  | press b => exact he.elim
  | stop late => exact he.elim
  | save => exact he.elim
  | setPc => exact he.elim
  | wake j late =>
    obtain ⟨_, t, ht, _, _, _, r, h2, rfl⟩ := wake_step g h
    rw [ht] at a
    exact resume_alone i a.1 a.2.1 a.2.2 h2
  | answer j go =>
    have he : go = true := he
    obtain ⟨_, pause, st, ht, _, ⟨_, rfl⟩ | ⟨hn, _⟩⟩ := answer_step g h
    · rw [ht] at a
      exact ⟨a.1, trivial, a.2.2⟩
    · rw [he] at hn; cases hn
  | cycle v =>
    obtain ⟨h2, _, _, h4, h3⟩ := other_step trivial h
    unfold Alone at a ⊢
    rw [h2, h3, h4]; exact a
  | tour v =>
    obtain ⟨h2, _, _, h4, h3⟩ := other_step trivial h
    unfold Alone at a ⊢
    rw [h2, h3, h4]; exact a
  | drawer v =>
    obtain ⟨h2, _, _, h4, h3⟩ := other_step trivial h
    unfold Alone at a ⊢
    rw [h2, h3, h4]; exact a

theorem press_alone {p : Page} {s s' : Ui} (g : s.Good s.tasks) (i : s.Sound p)
    (h : s.step (.press .program) = some s') : Alone s.core s' s'.tasks := by
  obtain ⟨_, _, _, r, h2, rfl⟩ := press_step g h
  simp only [Ui.press] at h2
  split at h2
  · cases h2; exact ⟨rfl, trivial, rfl⟩
  · exact programStart_alone (s := { s with running := true }) ⟨i.core, i.drawer, i.page⟩ h2

theorem alone_steps {p : Page} {h1 : H} {s s' : Ui} {es : List Event} (he : ∀ e ∈ es, e.leaves)
    (g : s.Good s.tasks) (i : s.Sound p) (a : Alone h1 s s.tasks) (h : s.steps es = some s') :
    s'.Good s'.tasks ∧ s'.Sound p ∧ Alone h1 s' s'.tasks :=
  steps_keep (I := fun x => x.Good x.tasks ∧ x.Sound p ∧ Alone h1 x x.tasks) (ok := Event.leaves)
    (fun _ _ _ he i h => ⟨i.1.step h, i.2.1.step i.1 h, alone_step he i.1 i.2.1 i.2.2 h⟩) he ⟨g, i, a⟩ h

theorem steps_append {s s1 s2 : Ui} {es es' : List Event} (h : s.steps es = some s1)
    (h' : s1.steps es' = some s2) : s.steps (es ++ es') = some s2 := by
  induction es generalizing s with
  | nil => cases h; exact h'
  | cons e es ih =>
    simp only [Ui.steps, Option.bind_eq_some_iff, List.cons_append] at h ⊢
    obtain ⟨x, h1, h2⟩ := h
    exact ⟨x, h1, ih h2⟩

/-- On the page, run-program that is left alone is the loop of `RunProgram`: once it is over, however long the
pauses were and whatever was set or typed meanwhile, the machine is where that loop ends. -/
theorem C77_run (ph : Phase) (h : H) (p : Page) (s0 s s1 s' : Ui) (es es' : List Event) (hr : Reach ph h)
    (on : ph.on = true) (ui : ph.ui = true) (h0 : Ui.start h p = some s0) (hs : s0.steps es = some s)
    (press : s.step (.press .program) = some s1) (he : ∀ e ∈ es', e.leaves) (hs' : s1.steps es' = some s')
    (over : s'.running = false) : ∃ u n, RunProgram u n s.core s'.core := by
  obtain ⟨g, i⟩ := steps_sound (start_good h0) (start_sound h0 ⟨ph, hr, on, ui⟩) hs
  obtain ⟨g', _, a⟩ := alone_steps he (g.step press) (i.step g press) (press_alone g i press) hs'
  rw [(good_nil g' over).1] at a
  exact a

/-! ## It comes to an end -/

theorem part_rest {u st : Bool} {n N : Nat} {h1 h2 h' : H} (a : Part u n h1 h2 st) (b : RunProgram u N h1 h') :
    ∃ k, ProgramLoop u st k h2 h' := by
  induction a with
  | none => exact ⟨N, b⟩
  | more first run ri max ih =>
    obtain ⟨k, l⟩ := ih b
    cases l with
    | more run' ri' max' rest =>
      rw [run] at run'; cases run'
      rw [ri] at ri'; cases ri'
      rw [max] at max'; cases max'
      exact ⟨_, rest⟩

theorem wake_one {s : Ui} {t : Task} (ht : s.tasks = [t]) (hs : t.sleeping = true) (late : Bool) :
    s.step (.wake 0 late) = (s.resume late t).map fun r => { r.1 with tasks := r.2 } := by
  have : (s.tasks.any Task.urgent && !t.urgent) = false := by
    rw [ht]; cases h : t.urgent <;> simp [h]
  have hi : s.tasks[0]? = some t := by rw [ht]; rfl
  simp only [Ui.step, hi]
  rw [if_neg (by rw [hs, this]; decide)]
  congr 1
  funext r
  simp [Ui.waiting, ht]

theorem loop_ends {u st : Bool} {k : Nat} {h1 h' : H} (l : ProgramLoop u st k h1 h') {s : Ui} {pause : Value}
    (hcore : s.core = h1) (ht : s.tasks = [.program (!u) pause st]) (hc : s.current = true) :
    ∃ s', s.steps (List.replicate k (.wake 0 false)) = some s' ∧ s'.running = false ∧ s'.core = h' := by
  induction l generalizing s with
  | stop run =>
    have e := wake_one ht rfl false
    simp only [Ui.resume, Bool.and_false, Bool.false_eq_true, if_false, Ui.programLoop, hc, if_true, Ui.cycle,
      Bool.not_not, hcore, run, Option.map_some, Option.bind_some] at e
    exact ⟨_, by rw [List.replicate_one, Ui.steps, e]; rfl, rfl, rfl⟩
  | @more h1 h2 h' r x bits n run ri max rest ih =>
    let s1 : Ui := { s with
      core := h2
      shown := if u then some h2 else s.shown
      tasks := [.program (!u) pause (decide (x.toNat = 2 ^ bits.toNat - 1))] }
    have e : s.step (.wake 0 false) = some s1 := by
      rw [wake_one ht rfl]
      simp only [Ui.resume, Bool.and_false, Bool.false_eq_true, if_false, Ui.programLoop, hc, if_true, Ui.cycle,
        Bool.not_not, hcore, run, Option.map_some, Option.bind_some, ri, max, s1]
    obtain ⟨s', h3, h4⟩ := ih (s := s1) rfl rfl hc
    refine ⟨s', ?_, h4⟩
    rw [List.replicate_succ, Ui.steps, e]
    exact h3

/-- If the loop of run-program ends from here, the function on the page ends as well: at every moment of a run
that is left alone, finitely many ends of pauses and answers bring it to its end. -/
theorem C77_ends (ph : Phase) (h : H) (p : Page) (s0 s s1 s' : Ui) (es es' : List Event) (hr : Reach ph h)
    (on : ph.on = true) (ui : ph.ui = true) (h0 : Ui.start h p = some s0) (hs : s0.steps es = some s)
    (press : s.step (.press .program) = some s1) (he : ∀ e ∈ es', e.leaves) (hs' : s1.steps es' = some s')
    (ends : ∀ u, ∃ n h', RunProgram u n s.core h') :
    ∃ es'' s'', (∀ e ∈ es'', e.waits) ∧ s'.steps es'' = some s'' ∧ s''.running = false := by
  obtain ⟨g, i⟩ := steps_sound (start_good h0) (start_sound h0 ⟨ph, hr, on, ui⟩) hs
  obtain ⟨g', i', a⟩ := alone_steps he (g.step press) (i.step g press) (press_alone g i press) hs'
  have wakes : ∀ k, ∀ e ∈ List.replicate k (Event.wake 0 false), e.waits :=
    fun k e h => .inl (List.eq_of_mem_replicate h)
  have loop : ∀ {u st : Bool} {n : Nat} {x : Ui} {pause : Value}, Part u n s.core x.core st →
      x.tasks = [.program (!u) pause st] → x.current = true →
      ∃ es'' s'', (∀ e ∈ es'', e.waits) ∧ x.steps es'' = some s'' ∧ s''.running = false := by
    intro u st n x pause did ht hc
    obtain ⟨N, h', run⟩ := ends u
    obtain ⟨k, l⟩ := part_rest did run
    obtain ⟨s'', h1, h2, _⟩ := loop_ends l rfl ht hc
    exact ⟨_, s'', wakes k, h1, h2⟩
  -- a task that does a step of the loop
  have one : ∀ {x : Ui} {t : Task} {imm st : Bool} {n : Nat} {pause : Value}, x.tasks = [t] →
      t.sleeping = true → x.current = true → x.Sound p →
      (∃ page, x.resume false t = Ui.programLoop { x with page := page, current := true } imm pause st) →
      Part (!imm) n s.core x.core st →
      ∃ es'' s'', (∀ e ∈ es'', e.waits) ∧ x.steps es'' = some s'' ∧ s''.running = false := by
    intro x t imm st n pause ht hsl hc i ⟨page, hres⟩ did
    obtain ⟨r, hr⟩ := resume_some i false t
    have e := wake_one ht hsl false
    rw [hr] at e
    rw [hr] at hres
    rcases programLoop_inv hres.symm with ⟨hn, _⟩ | ⟨_, h2, _, run, ⟨rfl, rfl⟩ | ⟨rfl, _, _, _, _, e1, e2, rfl⟩⟩
    · cases hn
    · exact ⟨[.wake 0 false], _, wakes 1, by rw [Ui.steps, e]; rfl, rfl⟩
    · cases e2
      obtain ⟨es'', s'', l1, l2, l3⟩ := loop (x := { x with
          page := page
          current := true
          core := h2
          shown := if imm then x.shown else some h2
          tasks := [.program imm pause _] }) (.more did run (getter_ri i run e1) rfl) (by rw [Bool.not_not]) rfl
      refine ⟨.wake 0 false :: es'', s'', ?_, ?_, l3⟩
      · intro e h
        rcases List.mem_cons.1 h with rfl | h
        · exact .inl rfl
        · exact l1 e h
      · rw [Ui.steps, e]; exact l2
  match hts : s'.tasks with
  | [] =>
    rw [hts] at g'
    exact ⟨[], s', fun _ h => (by cases h), rfl, g'.1⟩
  | _ :: _ :: _ => rw [hts] at g'; exact g'.elim
  | [t] =>
    rw [hts] at a
    obtain ⟨hc, hp, did⟩ := a
    have same : ∀ y : Ui, y.current = true → ({ y with page := y.page, current := true } : Ui) = y := by
      intro y hy; rw [← hy]
    cases t with
    | instruction pause => exact hp.elim
    | starting =>
      have did : s'.core = s.core := did
      refine one (t := .starting) (imm := true) (n := 0) hts rfl hc i' ⟨_, rfl⟩ ?_
      rw [did]; exact .none
    | program imm pause st =>
      obtain ⟨n, did⟩ := did
      exact loop did (by rw [hts, Bool.not_not]) hc
    | dismissed pause st =>
      obtain ⟨n, did⟩ := did
      exact one (imm := true) hts rfl hc i' ⟨_, by rw [same _ hc]; rfl⟩ did
    | dialog pause st =>
      obtain ⟨n, did⟩ := did
      have e : s'.step (.answer 0 true) = some { s' with tasks := [.dismissed pause st] } := by
        have hi : s'.tasks[0]? = some (.dialog pause st) := by rw [hts]; rfl
        simp only [Ui.step, hi]
        rw [if_neg (by rw [hts]; simp [Task.urgent])]
        simp [Ui.waiting, hts]
      obtain ⟨es'', s'', l1, l2, l3⟩ := one (x := { s' with tasks := [.dismissed pause st] }) (imm := true)
        rfl rfl hc ⟨i'.core, i'.drawer, i'.page⟩ ⟨s'.page, by
          show Ui.programLoop _ _ _ _ = _
          rw [same { s' with tasks := [.dismissed pause st] } hc]⟩ did
      refine ⟨.answer 0 true :: es'', s'', ?_, ?_, l3⟩
      · intro e h
        rcases List.mem_cons.1 h with rfl | h
        · exact .inr rfl
        · exact l1 e h
      · rw [Ui.steps, e]; exact l2

/-! ## With a program in the editor -/

/-- Once the page has been told of the machine, it is told of every change. -/
theorem shown_later {h : H} {p : Page} {s0 s s' : Ui} {es es' : List Event} (h0 : Ui.start h p = some s0)
    (he : ∀ e ∈ es, e.offered) (hs : s0.steps es = some s) (sh : s.shown = some s.core)
    (he' : ∀ e ∈ es', e.offered) (hs' : s.steps es' = some s') (idle : s'.running = false) :
    s'.shown = some s'.core := by
  have d : Something s0.drawer := by
    have h3 := (start_inv h0).2.2.2.2.2.2
    simp only [Editor.acts, Option.bind_eq_some_iff] at h3
    obtain ⟨e, h4, h5⟩ := h3
    cases h5
    exact something_act h4
  have at_s := steps_keep
    (I := fun x => x.Good x.tasks ∧ Fresh h x x.tasks ∧ Something x.drawer) (ok := Event.offered)
    (fun s1 e s2 he i h => ⟨i.1.step h, fresh_step he i.1 i.2.2 i.2.1 h⟩) he
    ⟨start_good h0, .inr (.inr ⟨(start_inv h0).2.1, (start_inv h0).1⟩), d⟩ hs
  have any := fun x => steps_keep
    (I := fun y => y.Good y.tasks ∧ Fresh x y y.tasks ∧ Something y.drawer) (ok := Event.offered)
    (fun s1 e s2 he i h => ⟨i.1.step h, fresh_step he i.1 i.2.2 i.2.1 h⟩) he'
    ⟨at_s.1, .inr (.inl sh), at_s.2.2⟩ hs'
  obtain ⟨g, f, _⟩ := any { s'.core with ui := !s'.core.ui }
  rcases f with ⟨_, _, f⟩ | f | ⟨_, f⟩
  · rw [(good_nil g idle).1] at f; cases f
  · exact f
  · have := congrArg H.ui f
    revert this
    cases s'.core.ui <;> intro h <;> cases h

/-- Saving and setting PC on a page where nothing runs, with a program in the editor: the machine then does
what the program says (C75), whatever was done on the page before. -/
theorem C77_loaded (ph : Phase) (h : H) (p : Page) (s0 s : Ui) (es : List Event) (hr : Reach ph h)
    (on : ph.on = true) (ui : ph.ui = true) (h0 : Ui.start h p = some s0) (he : ∀ e ∈ es, e.offered)
    (hs : s0.steps es = some s) (idle : s.running = false) (prog : List Stmt)
    (hsrc : Source s.page.code prog) (hne : prog ≠ []) (hv : Valid prog) (ha : LabelsAreAddresses prog)
    (hsz : sizeOf prog < 65536) (q : P) (hq : Shows s.core q) :
    ∃ s1 bss m, s.steps [.save, .setPc] = some s1 ∧ s1.running = false ∧ s1.shown = some s1.core ∧ Code prog bss ∧
      Written q.mem 0 bss.flatten m ∧ ∀ u, Obeys u prog q.errs s1.core (.start q m) := by
  obtain ⟨g, i⟩ := steps_sound (start_good h0) (start_sound h0 ⟨ph, hr, on, ui⟩) hs
  have ht := (good_nil g idle).1
  obtain ⟨as, hc, hact⟩ := (steps_tracks h0 he hs).origin
  obtain ⟨ph', r', on', ui'⟩ := i.core
  obtain ⟨sa, e1⟩ := calls_some (drawer_allowed hact on' ui').1 r'
  obtain ⟨b1, _, b3, b4, b5⟩ := calls_rest e1
  have ra := calls_reach (drawer_allowed hact on' ui').1 r' e1
  obtain ⟨sb, e2⟩ := calls_some (s := sa) (drawer_allowed hact on' ui').2 ra
  obtain ⟨c1, _, c3, _, _⟩ := calls_rest e2
  have st : s.steps [.save, .setPc] = some sb := by
    have e1' : s.step .save = some sa := by simp [Ui.step, ht, e1]
    have e2' : sa.step .setPc = some sb := by simp [Ui.step, b3, ht, b5, e2]
    simp [Ui.steps, e1', e2']
  obtain ⟨e, vs, h1, bss, m, k1, _, k3, k4, k5, k6⟩ := C75_saved _ prog hsrc hne hv ha hsz as hc ph' s.core q
    r' on' ui' hq
  rw [hact] at k1
  cases k1
  have core : h1 = sb.core := by
    obtain ⟨vs1, x1⟩ := calls_execAll e1
    obtain ⟨vs2, x2⟩ := calls_execAll e2
    rw [execAll_append, x1] at k3
    simp only [Option.bind_some, x2, Option.map_some, Option.some.injEq, Prod.mk.injEq] at k3
    exact k3.2.symm
  have sh : sb.shown = some sb.core := by
    rw [Editor.pcCalls, if_pos (steps_tracks h0 he hs).valid] at e2
    exact calls_fresh (cs := []) rfl e2
  exact ⟨sb, bss, m, st, by rw [c1, b1, idle], sh, k4, k5, core ▸ k6⟩

/-- Saving, setting PC and pressing run-program with a program in the editor that leads to a FIN: as soon as
the run is over, registers and memory are those that the statements of the program lead to, and this is what the
page shows. It does not matter what was done on the page before, how long the pauses were and what was set or
typed during the run. -/
theorem C77_source (ph : Phase) (h : H) (p : Page) (s0 s : Ui) (es : List Event) (hr : Reach ph h)
    (on : ph.on = true) (ui : ph.ui = true) (h0 : Ui.start h p = some s0) (he : ∀ e ∈ es, e.offered)
    (hs : s0.steps es = some s) (idle : s.running = false) (prog : List Stmt)
    (hsrc : Source s.page.code prog) (hne : prog ≠ []) (hv : Valid prog) (ha : LabelsAreAddresses prog)
    (hsz : sizeOf prog < 65536) (q : P) (hq : Shows s.core q) :
    ∃ s1 bss m, s.steps [.save, .setPc, .press .program] = some s1 ∧ Code prog bss ∧
      Written q.mem 0 bss.flatten m ∧
      (∀ k x st, (Src.start q m).run prog k = some x → prog[x.pos]? = some st → st.instr = .fin →
        (∀ es' s', (∀ e ∈ es', e.leaves ∧ e.offered) → s1.steps es' = some s' → s'.running = false →
          Ready s'.core ({ x with pos := x.pos + 1 }.machine prog q.errs) ∧ s'.shown = some s'.core) ∧
        ∀ es' s', (∀ e ∈ es', e.leaves) → s1.steps es' = some s' →
          ∃ es'' s'', (∀ e ∈ es'', e.waits) ∧ s'.steps es'' = some s'' ∧ s''.running = false) ∧
      ((∀ k, (Src.start q m).run prog k ≠ none) →
        ∀ es' s', (∀ e ∈ es', e.leaves) → s1.steps es' = some s' → s'.running = true) := by
  obtain ⟨s1, bss, m, st, idle1, sh1, k1, k2, ob⟩ := C77_loaded ph h p s0 s es hr on ui h0 he hs idle prog hsrc hne hv ha
    hsz q hq
  have st1 := steps_append hs st
  obtain ⟨s0', hd, def'⟩ := C59_defined ph h p hr on ui
  rw [h0] at hd; cases hd
  obtain ⟨s2, e2⟩ := Option.isSome_iff_exists.1 ((def' _ s1 st1).2.1 idle1 .program)
  refine ⟨s2, bss, m, ?_, k1, k2, ?_, ?_⟩
  · exact steps_append (es := [.save, .setPc]) st (by simp [Ui.steps, e2])
  · intro k x stm hk hst hfin
    refine ⟨?_, ?_⟩
    · intro es' s' hl hs' over
      obtain ⟨u, n, run⟩ := C77_run ph h p s0 s1 s2 s' _ es' hr on ui h0 st1 e2 (fun e h => (hl e h).1) hs' over
      obtain ⟨n', h', run', ready⟩ := (ob u).ends k x stm hk hst hfin
      have := (ProgramLoop.det run run').2
      rw [this]
      refine ⟨ready, ?_⟩
      rw [← this]
      refine shown_later h0 (es := es ++ [.save, .setPc]) ?_ st1 sh1 (es' := .press .program :: es') ?_ ?_ over
      · intro e h
        rcases List.mem_append.1 h with h | h
        · exact he e h
        · rcases List.mem_pair.1 h with rfl | rfl <;> intro n h <;> cases h
      · intro e h
        rcases List.mem_cons.1 h with rfl | h
        · intro n h; cases h
        · exact (hl e h).2
      · rw [Ui.steps, e2]; exact hs'
    · intro es' s' hl hs'
      exact C77_ends ph h p s0 s1 s2 s' _ es' hr on ui h0 st1 e2 hl hs' fun u =>
        let ⟨n, h', a, _⟩ := (ob u).ends k x stm hk hst hfin
        ⟨n, h', a⟩
  · intro hk es' s' hl hs'
    cases hrun : s'.running with
    | true => rfl
    | false =>
      obtain ⟨u, n, run⟩ := C77_run ph h p s0 s1 s2 s' _ es' hr on ui h0 st1 e2 hl hs' hrun
      exact absurd run ((ob u).never hk n _)

/-- The counting sample, typed, saved and run on a page: the run comes to its end, with AC = 5 on the page. -/
example : ∃ ph h s0 s s1 s' es es' q, Reach ph h ∧ ph.on = true ∧ ph.ui = true ∧
    Ui.start h (load emptyStore none) = some s0 ∧ (∀ e ∈ es, e.offered) ∧ s0.steps es = some s ∧
    s.running = false ∧ Source s.page.code sampleProg ∧ Shows s.core q ∧
    s.steps [.save, .setPc, .press .program] = some s1 ∧ (∀ e ∈ es', e.leaves) ∧ s1.steps es' = some s' ∧
    s'.running = false ∧ ∃ p', Ready s'.core p' ∧ p'.ac = 5 := by
  obtain ⟨ph, h, s0, s, _, q, hr, on, ui, h0, st, hsrc, hne, hv, ha, hsz, hq, _, idle, _⟩ := sample_session
  have he : ∀ e ∈ [Event.drawer (.code sampleText)], e.offered := by
    intro e h; rw [List.mem_singleton.1 h]; intro n h; cases h
  obtain ⟨s1, bss, m, e1, _, _, k, _⟩ := C77_source ph h _ s0 s _ hr on ui h0 he st idle sampleProg hsrc hne hv ha
    (by rw [sample_valid.2.2.2]; decide) q hq
  have hrun : ∃ x st, (Src.start q m).run sampleProg 20 = some x ∧ sampleProg[x.pos]? = some st ∧
      st.instr = .fin ∧ x.ac = 5 := by
    obtain ⟨ac, b, c, d, e, pc, sp, fc, fz, mem, errs⟩ := q
    exact ⟨_, _, rfl, rfl, rfl, rfl⟩
  obtain ⟨x, stm, r1, r2, r3, r4⟩ := hrun
  obtain ⟨k1, k2⟩ := k 20 x stm r1 r2 r3
  obtain ⟨es'', s'', l1, l2, l3⟩ := k2 [] s1 (fun _ h => (by cases h)) rfl
  obtain ⟨m1, _⟩ := k1 es'' s'' (fun e h => (l1 e h).leaves) l2 l3
  exact ⟨ph, h, s0, s, s1, s'', _, es'', q, hr, on, ui, h0, he, st, idle, hsrc, hq, e1,
    fun e h => (l1 e h).leaves.1, l2, l3, _, m1, r4⟩

end Mpp.Front
