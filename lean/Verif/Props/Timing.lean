import Verif.Front.Timing
import Verif.Props.Stored
/-!
# The time that is shown after a run (C101) and the switch of the tour (C102)
-/
namespace Mpp.Front

/-! ## C101 -/

/-- The time the program ran. -/
def runningTime : List Span → Int
  | [] => 0
  | .run ms :: l => ms + runningTime l
  | .ask _ :: l => runningTime l

/-- The time that went by. -/
def wholeTime : List Span → Int
  | [] => 0
  | .run ms :: l => ms + wholeTime l
  | .ask ms :: l => ms + wholeTime l

/-- The time the program ran since the last question, or since the beginning. -/
def sinceAsked (l : List Span) : Int :=
  l.foldl (fun n s => match s with | .run ms => n + ms | .ask _ => 0) 0

theorem runningTime_append (a b : List Span) : runningTime (a ++ b) = runningTime a + runningTime b := by
  induction a with
  | nil => simp [runningTime]
  | cons s a ih => cases s <;> (simp only [List.cons_append, runningTime, ih]; try omega)

theorem wholeTime_append (a b : List Span) : wholeTime (a ++ b) = wholeTime a + wholeTime b := by
  induction a with
  | nil => simp [wholeTime]
  | cons s a ih => cases s <;> (simp only [List.cons_append, wholeTime, ih]; omega)

theorem turn_running (w : Watch) (imm : Bool) (t : Turn) :
    (w.turn imm t).1.clock - (w.turn imm t).1.start = w.clock - w.start + runningTime (w.turn imm t).2.1 ∧
    (w.turn imm t).1.clock = w.clock + wholeTime (w.turn imm t).2.1 := by
  unfold Watch.turn
  dsimp only
  split
  · split <;> simp only [runningTime, wholeTime] <;> omega
  · simp only [runningTime, wholeTime]; omega

theorem turns_running (w : Watch) (imm : Bool) (ts : List Turn) :
    (w.turns imm ts).1.clock - (w.turns imm ts).1.start = w.clock - w.start + runningTime (w.turns imm ts).2 ∧
    (w.turns imm ts).1.clock = w.clock + wholeTime (w.turns imm ts).2 := by
  induction ts generalizing w with
  | nil => simp [Watch.turns, runningTime, wholeTime]
  | cons t ts ih =>
    simp only [Watch.turns]
    have h := turn_running w imm t
    split
    · have k := ih (w.turn imm t).1
      simp only [runningTime_append, wholeTime_append]
      omega
    · exact h

/-- **C101.** The time shown at the end of a run is the time the program ran, without the time that the
questions took, however long everything took and whatever was answered, even if the clock of the
computer is changed meanwhile. All the rest of the time went into the questions. -/
theorem C101_time (imm : Bool) (begin : Int) (ts : List Turn) (last : Int) :
    shownTime imm begin ts last = runningTime (spans imm begin ts last) ∧
    wholeTime (spans imm begin ts last) =
      ((Watch.mk begin begin begin).turns imm ts).1.clock + last - begin := by
  have h := turns_running ⟨begin, begin, begin⟩ imm ts
  simp only [shownTime, spans, runningTime_append, wholeTime_append, runningTime, wholeTime] at *
  omega

theorem turn_work (w : Watch) (imm : Bool) (t : Turn) :
    (w.turn imm t).1.clock - (w.turn imm t).1.start = w.clock - w.start + t.work ∧
    ((w.turn imm t).2.2 = false → imm = true ∧ t.go = false) := by
  unfold Watch.turn
  dsimp only
  split
  · next h =>
    rw [Bool.and_eq_true] at h
    split
    · next hg => exact ⟨by dsimp only; omega, fun _ => ⟨h.2, by simpa using hg⟩⟩
    · exact ⟨by dsimp only; omega, fun e => by cases e⟩
  · exact ⟨by dsimp only; omega, fun e => by cases e⟩

theorem turns_work (w : Watch) (imm : Bool) (ts : List Turn) : ∃ done rest, ts = done ++ rest ∧
    (w.turns imm ts).1.clock - (w.turns imm ts).1.start = w.clock - w.start + (done.map (·.work)).sum ∧
    (rest ≠ [] → imm = true ∧ ∃ t, done.getLast? = some t ∧ t.go = false) := by
  induction ts generalizing w with
  | nil => exact ⟨[], [], rfl, by simp [Watch.turns], fun h => absurd rfl h⟩
  | cons t ts ih =>
    obtain ⟨h1, h2⟩ := turn_work w imm t
    simp only [Watch.turns]
    cases hg : (w.turn imm t).2.2 with
    | true =>
      obtain ⟨done, rest, e, k, l⟩ := ih (w.turn imm t).1
      refine ⟨t :: done, rest, by rw [e, List.cons_append], ?_, fun hr => ?_⟩
      · rw [if_pos rfl]
        simp only [List.map_cons, List.sum_cons]
        omega
      · obtain ⟨a, u, hu, b⟩ := l hr
        exact ⟨a, u, by rw [List.getLast?_cons, hu]; rfl, b⟩
    | false =>
      refine ⟨[t], ts, rfl, ?_, fun _ => ⟨(h2 hg).1, t, rfl, (h2 hg).2⟩⟩
      rw [if_neg (by decide)]
      simpa using h1

/-- **C101.** So the time shown is that of the turns made, one after the other, with their pauses, and of
the last one; and turns are left out only after a question that was answered with no. -/
theorem C101_turns (imm : Bool) (begin : Int) (ts : List Turn) (last : Int) :
    ∃ done rest, ts = done ++ rest ∧ shownTime imm begin ts last = (done.map (·.work)).sum + last ∧
      (rest ≠ [] → imm = true ∧ ∃ t, done.getLast? = some t ∧ t.go = false) := by
  obtain ⟨done, rest, h1, h2, h3⟩ := turns_work ⟨begin, begin, begin⟩ imm ts
  refine ⟨done, rest, h1, ?_, h3⟩
  simp only [shownTime] at *
  omega

/-- The question is answered with no, and the second turn is not made. -/
example : shownTime true 0 [⟨10001, 500, false, 0⟩, ⟨7, 0, true, 0⟩] 3 = 10004 := by decide

/-- Two cycles of six seconds, two seconds until the question is answered, one cycle more. -/
example : shownTime true 1000 [⟨6000, 0, true, 0⟩, ⟨6000, 2000, true, 100⟩, ⟨50, 9, false, 9⟩] 3 = 12053 ∧
    spans true 1000 [⟨6000, 0, true, 0⟩, ⟨6000, 2000, true, 100⟩, ⟨50, 9, false, 9⟩] 3 =
      [.run 6000, .run 6000, .ask 2100, .run 50, .run 3] := by decide

/-- **C101.** If the cycles are shown there are no questions, and the time shown is the whole time. -/
theorem C101_slow (begin : Int) (ts : List Turn) (last : Int) :
    spans false begin ts last = ts.map (fun t => .run t.work) ++ [.run last] ∧
    shownTime false begin ts last = wholeTime (spans false begin ts last) := by
  have k : ∀ (w : Watch), (w.turns false ts).2 = ts.map (fun t => .run t.work) := by
    induction ts with
    | nil => intro w; rfl
    | cons t ts ih => intro w; simp [Watch.turns, Watch.turn, ih]
  have h : spans false begin ts last = ts.map (fun t => .run t.work) ++ [.run last] := by
    rw [spans, k]
  refine ⟨h, ?_⟩
  rw [(C101_time false begin ts last).1, h, runningTime_append, wholeTime_append]
  have : runningTime (ts.map fun t => Span.run t.work) = wholeTime (ts.map fun t => Span.run t.work) := by
    clear h k
    induction ts with
    | nil => rfl
    | cons t ts ih => simp only [List.map, runningTime, wholeTime, ih]
  rw [this]
  rfl

theorem turns_head (w : Watch) (imm : Bool) (ts : List Turn) (a : Int) (q : List Span) :
    (w.turns imm ts).2 ≠ .ask a :: q := by
  cases ts with
  | nil => simp [Watch.turns]
  | cons t ts =>
    simp only [Watch.turns, Watch.turn]
    split <;> split <;> (try split) <;> simp_all

theorem turns_asked (ts : List Turn) : ∀ (w : Watch) (pre : List Span) (x : Int) (post : List Span),
    (w.turns true ts).2 = pre ++ .run x :: post →
    (10000 < (pre ++ [Span.run x]).foldl (fun n s => match s with | .run ms => n + ms | .ask _ => 0)
      (w.clock - w.lastCheck) ↔ ∃ a q, post = .ask a :: q) := by
  induction ts with
  | nil =>
    intro w pre x post h
    simp [Watch.turns] at h
  | cons t ts ih =>
    intro w pre x post h
    simp only [Watch.turns, Watch.turn, Bool.and_true] at h
    by_cases late : w.clock + t.work - w.lastCheck > 10 * 1000
    · simp only [late, decide_true, if_true] at h
      cases hg : t.go with
      | false =>
        simp only [hg, Bool.not_false, if_true, Bool.false_eq_true, if_false] at h
        match pre, h with
        | [], h =>
          cases h
          exact ⟨fun _ => ⟨_, _, rfl⟩, fun _ => by simp; omega⟩
        | [p], h => cases h
        | p :: p' :: pre, h => simp at h
      | true =>
        simp only [hg, Bool.not_true, if_true, Bool.false_eq_true, if_false] at h
        match pre, h with
        | [], h =>
          cases h
          exact ⟨fun _ => ⟨_, _, rfl⟩, fun _ => by simp; omega⟩
        | [p], h => cases h
        | p :: p' :: pre, h =>
          simp only [List.cons_append, List.nil_append, List.cons.injEq] at h
          obtain ⟨rfl, rfl, h⟩ := h
          have := ih _ pre x post h
          simpa using this
    · simp only [late, decide_false, if_false, Bool.false_eq_true, if_true] at h
      match pre, h with
      | [], h =>
        simp only [List.cons_append, List.nil_append, List.cons.injEq, Span.run.injEq] at h
        obtain ⟨rfl, h'⟩ := h
        constructor
        · intro k
          simp at k
          omega
        · rintro ⟨a, q, rfl⟩
          exact absurd h' (turns_head _ _ _ _ _)
      | p :: pre, h =>
        simp only [List.cons_append, List.nil_append, List.cons.injEq] at h
        obtain ⟨rfl, h⟩ := h
        have := ih _ pre x post h
        have e : w.clock + t.work - w.lastCheck = w.clock - w.lastCheck + t.work := by omega
        simpa [e] using this

/-- **C101.** When the cycles are not shown, the question is put at the end of a turn exactly if the program
has run for more than ten seconds since the last question, or since the beginning. -/
theorem C101_question (begin : Int) (ts : List Turn) (pre : List Span) (x : Int) (post : List Span)
    (h : ((Watch.mk begin begin begin).turns true ts).2 = pre ++ .run x :: post) :
    10000 < sinceAsked (pre ++ [.run x]) ↔ ∃ a q, post = .ask a :: q := by
  have := turns_asked ts ⟨begin, begin, begin⟩ pre x post h
  simpa [sinceAsked] using this

theorem getCell_value (c : Option Value) (d : Value) (hd : d.stored ≠ .null) :
    ∃ v, (getCell c d).2 = some v ∧ v ≠ .null ∧ (v = (getCell c d).1 ∨ v = d.stored ∧ (getCell c d).1 = d) := by
  unfold getCell
  dsimp only
  split
  · exact ⟨_, rfl, hd, .inr ⟨rfl, rfl⟩⟩
  · rename_i h
    cases c with
    | none => exact absurd rfl h
    | some v => exact ⟨v, rfl, h, .inl rfl⟩

/-- The state of the switch is stored. -/
def Measure.Same (m : Measure) : Prop :=
  ∃ v, m.stored = some v ∧ v ≠ .null ∧ v.truthy = m.switch.truthy

theorem Measure.Same.load (s : Option Value) : (Measure.load s).Same := by
  obtain ⟨v, h1, h2, h3⟩ := getCell_value s (.int 1) (by decide)
  refine ⟨v, h1, h2, ?_⟩
  show v.truthy = (getCell s (.int 1)).1.truthy
  rcases h3 with h3 | ⟨h3, h4⟩
  · rw [h3]
  · rw [h3, h4]; rfl

theorem Measure.Same.get {m : Measure} (h : m.Same) :
    (getCell m.stored (.int 1)).1.truthy = m.switch.truthy ∧ (getCell m.stored (.int 1)).2 = m.stored := by
  obtain ⟨v, h1, h2, h3⟩ := h
  simp [getCell, h1, h2, h3]

theorem Measure.Same.step {m : Measure} (h : m.Same) (e : MeasureEvent) :
    (m.step e).Same ∧ (m.step e).switch.truthy =
      match e with | .click => !m.switch.truthy | _ => m.switch.truthy := by
  cases e with
  | click => exact ⟨⟨_, rfl, by simp [Value.stored], rfl⟩, rfl⟩
  | ran =>
    obtain ⟨v, h1, h2, h3⟩ := h
    refine ⟨⟨v, ?_, h2, h3⟩, rfl⟩
    show (getCell m.stored (.int 1)).2 = some v
    rw [(Measure.Same.get ⟨v, h1, h2, h3⟩).2, h1]
  | reload => exact ⟨.load _, h.get.1⟩

def MeasureEvent.isClick : MeasureEvent → Bool
  | .click => true
  | _ => false

/-- **C101.** In every sequence of visits, runs and clicks on the switch, the time is shown at the end of a
run exactly if the switch is on; it is what it was in the beginning, or the opposite if it was clicked
an odd number of times. In the beginning it is on if nothing is stored, or nothing that counts as false. -/
theorem C101_switch (s : Option Value) (es : List MeasureEvent) :
    let m := (Measure.load s).steps es
    (m.shows = true ↔ ¬ Falsy m.switch) ∧
    m.shows = ((Measure.load s).shows ^^ decide ((es.filter MeasureEvent.isClick).length % 2 = 1)) ∧
    ((Measure.load s).shows = true ↔ ∀ v, s = some v → v = .null ∨ ¬ Falsy v) := by
  have key : ∀ (es : List MeasureEvent) (m : Measure), m.Same →
      (m.steps es).Same ∧ (m.steps es).switch.truthy =
        (m.switch.truthy ^^ decide ((es.filter MeasureEvent.isClick).length % 2 = 1)) := by
    intro es
    induction es with
    | nil => intro m h; exact ⟨h, by simp [Measure.steps]⟩
    | cons e es ih =>
      intro m h
      obtain ⟨h1, h2⟩ := h.step e
      obtain ⟨k1, k2⟩ := ih _ h1
      refine ⟨k1, ?_⟩
      show ((m.step e).steps es).switch.truthy = _
      rw [k2, h2]
      cases e with
      | click =>
        simp only [List.filter_cons, MeasureEvent.isClick, if_true, List.length_cons]
        rcases Nat.mod_two_eq_zero_or_one (es.filter MeasureEvent.isClick).length with p | p
        · have : ((es.filter MeasureEvent.isClick).length + 1) % 2 = 1 := by omega
          rw [p, this]; cases m.switch.truthy <;> rfl
        · have : ((es.filter MeasureEvent.isClick).length + 1) % 2 = 0 := by omega
          rw [p, this]; cases m.switch.truthy <;> rfl
      | _ => simp [MeasureEvent.isClick]
  obtain ⟨h1, h2⟩ := key es _ (.load s)
  have h3 := h1.get.1
  have h4 := (Measure.Same.load s).get.1
  refine ⟨by rw [← truthy_true, ← h3]; rfl, ?_, ?_⟩
  · show (getCell _ _).1.truthy = ((getCell _ _).1.truthy ^^ _)
    rw [h3, h2, h4]
  · show (getCell _ _).1.truthy = true ↔ _
    rw [h4]
    show (getCell s (.int 1)).1.truthy = true ↔ _
    have one : ¬ Falsy (.int 1) := by simp [Falsy]
    rw [truthy_true]
    unfold getCell
    cases s with
    | none => simp [one]
    | some v =>
      by_cases hv : v = .null
      · simp [hv, one]
      · simp [hv]

example : ((Measure.load none).steps [.ran, .click, .reload, .ran]).shows = false := by decide

/-! ## C102 -/

/-- What holds in every visit. -/
structure Tour.Ok (t : Tour) : Prop where
  stored : ∃ v, t.stored = some v ∧ v ≠ .null ∧ v.truthy = false

theorem Tour.Ok.load (s : Option Value) : (Tour.load s).Ok := by
  obtain ⟨v, h1, h2, _⟩ := getCell_value (getCell s (.int 1)).2 (.int 1) (by decide)
  constructor
  simp only [Tour.load]
  split
  · rename_i h
    refine ⟨.bool false, ?_, by decide, rfl⟩
    rw [Value.not, h]; rfl
  · rename_i h
    refine ⟨v, h1, h2, ?_⟩
    obtain ⟨w, k1, k2, _⟩ := getCell_value s (.int 1) (by decide)
    rw [k1] at h h1
    simp only [getCell, Option.getD_some, if_neg k2] at h h1
    cases h1
    simpa using h

theorem Tour.Ok.step {t : Tour} (h : t.Ok) (e : TourEvent) : (t.step e).Ok := by
  cases e with
  | settings => exact ⟨h.stored⟩
  | closeSettings => exact ⟨h.stored⟩
  | closeTour => exact ⟨h.stored⟩
  | reload => exact .load _
  | click =>
    simp only [Tour.step]
    split
    · constructor
      cases t.switch.truthy with
      | true => exact ⟨.bool false, rfl, by decide, rfl⟩
      | false => exact ⟨.bool false, rfl, by decide, rfl⟩
    · exact h

theorem Tour.Ok.steps {t : Tour} (h : t.Ok) (es : List TourEvent) : (t.steps es).Ok := by
  induction es generalizing t with
  | nil => exact h
  | cons e es ih => exact ih (h.step e)

theorem Tour.load_switch (s : Option Value) : (Tour.load s).switch.truthy = (Tour.load s).isOpen := by
  obtain ⟨v, h1, h2, h3⟩ := getCell_value s (.int 1) (by decide)
  have e : (getCell (getCell s (.int 1)).2 (.int 1)).1 = v := by rw [h1]; simp [getCell, h2]
  show (getCell s (.int 1)).1.truthy = (getCell (getCell s (.int 1)).2 (.int 1)).1.truthy
  rw [e]
  rcases h3 with h3 | ⟨h3, h4⟩
  · rw [h3]
  · rw [h3, h4]; rfl

theorem Tour.Ok.reload {t : Tour} (h : t.Ok) : (Tour.load t.stored).isOpen = false := by
  obtain ⟨v, h1, h2, h3⟩ := h.stored
  rw [h1]
  simp [Tour.load, getCell, h2, h3]

theorem Store.get_cell (s : Store) (k : Key) (d : Value) :
    (s.get k d).1 = (getCell (s k) d).1 ∧ (s.get k d).2 k = (getCell (s k) d).2 := by
  refine ⟨rfl, ?_⟩
  by_cases h : (s k).getD .null = .null
  · have e : (s.get k d).2 = s.set k d := if_pos h
    have e' : (getCell (s k) d).2 = some d.stored := if_pos h
    rw [e, e']
    exact if_pos rfl
  · have e : (s.get k d).2 = s := if_neg h
    have e' : (getCell (s k) d).2 = s k := if_neg h
    rw [e, e']

theorem Store.get_other (s : Store) (k k' : Key) (d : Value) (hk : k' ≠ k) : (s.get k d).2 k' = s k' := by
  by_cases h : (s k).getD .null = .null
  · have e : (s.get k d).2 = s.set k d := if_pos h
    rw [e]
    exact if_neg hk
  · have e : (s.get k d).2 = s := if_neg h
    rw [e]

/-- This is the tour of `Front/Stored`. -/
theorem Tour.load_eq (s : Store) (url : Option Str) :
    (Front.load s url).tour = (Tour.load (s .onboarding)).isOpen ∧
    (Front.load s url).store .onboarding = (Tour.load (s .onboarding)).stored := by
  have a := Store.get_other s .cycleTime .onboarding (.int 500) (by decide)
  generalize hs : (s.get .cycleTime (.int 500)).2 = s1 at a
  have b := Store.get_cell s1 .onboarding (.int 1)
  generalize hs2 : (s1.get .onboarding (.int 1)).2 = s2 at b
  have c := Store.get_cell s2 .onboarding (.int 1)
  rw [a] at b
  rw [b.2] at c
  have e : ∀ (x : Store) (v : Value), (x.set .code v) .onboarding = x .onboarding :=
    fun x v => if_neg (by decide)
  constructor
  · show ((s.get .cycleTime (.int 500)).2.get .onboarding (.int 1)).2.get .onboarding (.int 1) |>.1.truthy = _
    rw [hs, hs2, c.1]; rfl
  · simp only [Front.load, hs, hs2]
    rw [e, Store.get_other _ .code .onboarding _ (by decide), c.1]
    simp only [Tour.load]
    split
    · exact if_pos rfl
    · exact c.2

/-- The user clicks on the switch, which takes the settings to be open. -/
def Tour.clicked : Tour → List TourEvent → Bool
  | _, [] => false
  | t, .click :: es => t.drawer || (t.step .click).clicked es
  | t, e :: es => (t.step e).clicked es

theorem Tour.steps_cons (t : Tour) (e : TourEvent) (es : List TourEvent) :
    t.steps (e :: es) = (t.step e).steps es := rfl

theorem Tour.stays_off (es : List TourEvent) : ∀ (t : Tour), t.Ok → t.switch.truthy = false →
    (t.steps es).switch.truthy = false := by
  induction es with
  | nil => intro t _ h; exact h
  | cons e es ih =>
    intro t ok h
    refine ih _ (ok.step e) ?_
    cases e with
    | click =>
      simp only [Tour.step]
      split
      · rw [h]; rfl
      · exact h
    | reload => exact (Tour.load_switch _).trans ok.reload
    | _ => exact h

theorem Tour.on_iff (es : List TourEvent) : ∀ (t : Tour), t.Ok →
    ((t.steps es).switch.truthy = true ↔
      t.switch.truthy = true ∧ TourEvent.reload ∉ es ∧ t.clicked es = false) := by
  induction es with
  | nil => intro t _; simp [Tour.steps, Tour.clicked]
  | cons e es ih =>
    intro t ok
    rw [Tour.steps_cons]
    cases e with
    | reload =>
      have := Tour.stays_off es _ (ok.step .reload) ((Tour.load_switch _).trans ok.reload)
      simp [this]
    | click =>
      rw [ih _ (ok.step .click)]
      cases hd : t.drawer with
      | false => simp [Tour.step, Tour.clicked, hd]
      | true =>
        simp only [Tour.step, hd, if_true, Tour.clicked, Bool.true_or]
        cases ht : t.switch.truthy <;> simp [Tour.set, Value.truthy]
    | _ => rw [ih _ (ok.step _)]; simp [Tour.step, Tour.clicked]

/-- **C102**, as much as is true: the switch for the tour is on exactly as long as a visit goes on in which
the page opened the tour by itself and the switch was not clicked. At every later visit the tour stays
closed and the switch is off. -/
theorem C102_switch_partial (s : Option Value) (es : List TourEvent) :
    (¬ Falsy ((Tour.load s).steps es).switch ↔
      (Tour.load s).isOpen = true ∧ TourEvent.reload ∉ es ∧ (Tour.load s).clicked es = false) ∧
    (((Tour.load s).steps es).step .reload).isOpen = false ∧
    Falsy (((Tour.load s).steps es).step .reload).switch := by
  rw [← truthy_true, ← truthy_false]
  have ok := (Tour.Ok.load s).steps es
  refine ⟨?_, ok.reload, (Tour.load_switch _).trans ok.reload⟩
  rw [Tour.on_iff es _ (.load s), Tour.load_switch]

/-- **C102.** In the settings, a click on the switch opens the tour and closes the settings if the switch is
off; if it is on, it closes the tour and the settings stay open, and only a second click opens the tour
again. In both cases the switch is off afterwards. -/
theorem C102_click (s : Option Value) (es : List TourEvent) :
    let t := ((Tour.load s).steps es).step .settings
    (Falsy t.switch → (t.step .click).isOpen = true ∧ (t.step .click).drawer = false) ∧
    (¬ Falsy t.switch → (t.step .click).isOpen = false ∧ (t.step .click).drawer = true ∧
      ((t.step .click).step .click).isOpen = true) ∧
    Falsy (t.step .click).switch := by
  intro t
  rw [← truthy_true, ← truthy_false, ← truthy_false]
  have k : t.step .click = t.set (!t.switch.truthy) := rfl
  rw [k]
  cases t.switch.truthy
  · exact ⟨fun _ => ⟨rfl, rfl⟩, fun e => (by cases e), rfl⟩
  · exact ⟨fun e => (by cases e), fun _ => ⟨rfl, rfl, rfl⟩, rfl⟩

/-- The first visit. -/
example : (Tour.load none).isOpen = true ∧ (Tour.load none).switch.truthy = true ∧
    ((Tour.load none).steps [.closeTour, .settings, .click]).isOpen = false ∧
    ((Tour.load none).steps [.closeTour, .settings, .click, .click]).isOpen = true := by decide

/-- The switch does not show whether the page will open the tour the next time: at the first visit it is
on, and the tour will stay closed. -/
theorem C102_next_wrong : ¬ ∀ (s : Option Value) (es : List TourEvent),
    ((Tour.load s).steps es).switch.truthy = (((Tour.load s).steps es).step .reload).isOpen :=
  fun h => absurd (h none []) (by decide)

/-- Nor does it show whether the tour is open: it is off when it has just opened the tour. -/
theorem C102_open_wrong : ¬ ∀ (s : Option Value) (es : List TourEvent),
    ((Tour.load s).steps es).switch.truthy = ((Tour.load s).steps es).isOpen :=
  fun h => absurd (h (some (.bool false)) [.settings, .click]) (by decide)

end Mpp.Front
