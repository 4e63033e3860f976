import Verif.Front.Stored
/-!
# The time that is shown after a run, and the switches of the settings

Model of the stop-watch in `handleRunProgram` (`RunButtons.tsx:107-205`), of the switch that turns it
off (`Settings.tsx:76-81`, `131-134`) and of the switch for the tour (`Settings.tsx:72-74`, `121-129`,
`CPUTable/index.tsx:73-81`).

`Front/Session` leaves out the time; here only the time is looked at, and what the program does is left
out: how long things take and what is answered is arbitrary.
-/
namespace Mpp.Front

/-! ## The stop-watch -/

/-- The variables `start` and `lastCheck` (`RunButtons.tsx:107`, `118`) and the clock of the computer, in
milliseconds. -/
structure Watch where
  clock : Int
  start : Int
  lastCheck : Int
  deriving DecidableEq

/-- How the time of one turn of the loop is spent (`RunButtons.tsx:119-184`). The clock may be set
while the program runs, so nothing is known of the numbers. -/
structure Turn where
  /-- the clock cycle and the pause after it (lines 120-125) -/
  work : Int
  /-- if the question is put: until it is answered (lines 128-172) -/
  answer : Int
  /-- `shouldContinue` -/
  go : Bool
  /-- if the program is to go on: until the question has disappeared (line 180); the two readings of the
  clock in lines 181 and 182 are taken to be the same -/
  gone : Int

/-- What the page is doing, and for how long: it runs the program, or it puts the question whether it
should go on. -/
inductive Span
  | run (ms : Int)
  | ask (ms : Int)
  deriving DecidableEq

/-- One turn of the loop: the variables, how the time was spent, and whether the loop goes on
(`RunButtons.tsx:120-183`; `maxTimeInmediate` is in line 24). -/
def Watch.turn (w : Watch) (immediate : Bool) (t : Turn) : Watch × List Span × Bool :=
  let now := w.clock + t.work
  if now - w.lastCheck > 10 * 1000 && immediate then
    if !t.go then
      let c := now + t.answer
      (⟨c, w.start + (c - now), w.lastCheck⟩, [.run t.work, .ask t.answer], false)
    else
      let c := now + t.answer + t.gone
      (⟨c, w.start + (c - now), c⟩, [.run t.work, .ask (t.answer + t.gone)], true)
  else (⟨now, w.start, w.lastCheck⟩, [.run t.work], true)

/-- The loop (`RunButtons.tsx:119-184`). That it ends because of `FIN` or because the stop button was
pressed is the end of the list. -/
def Watch.turns (w : Watch) (immediate : Bool) : List Turn → Watch × List Span
  | [] => (w, [])
  | t :: ts =>
    let r := w.turn immediate t
    if r.2.2 then
      let q := r.1.turns immediate ts
      (q.1, r.2.1 ++ q.2)
    else (r.1, r.2.1)

/-- `time` (`RunButtons.tsx:107`, `118`, `191`, `201`): the loop is entered at the time `begin`; `last` is
the time from its end, or from the beginning of the turn that is cut short in line 121, to the reading
of the clock in line 191. -/
def shownTime (immediate : Bool) (begin : Int) (ts : List Turn) (last : Int) : Int :=
  let w := ((Watch.mk begin begin begin).turns immediate ts).1
  (w.clock + last) - w.start

/-- How the time was spent from line 107 to line 191. -/
def spans (immediate : Bool) (begin : Int) (ts : List Turn) (last : Int) : List Span :=
  ((Watch.mk begin begin begin).turns immediate ts).2 ++ [.run last]

/-! ## The switch of the stop-watch -/

/-- The value stored under `"settings::measureRunTime"` and the state of the switch
(`Settings.tsx:76-81`). -/
structure Measure where
  stored : Option Value
  switch : Value

/-- `getStoredValue` (`lib/storage.ts:12-17`) for one key: the value and what is stored afterwards. -/
def getCell (c : Option Value) (default : Value) : Value × Option Value :=
  let value := c.getD .null
  (if value = .null then default else value, if value = .null then some default.stored else c)

/-- Loading the page (`Settings.tsx:76-81`; the default is in line 29). -/
def Measure.load (stored : Option Value) : Measure :=
  let r := getCell stored (.int 1)
  ⟨r.2, r.1⟩

/-- What the user does. -/
inductive MeasureEvent
  /-- a click on the switch (`Settings.tsx:131-134`), which asks for the opposite of what it shows -/
  | click
  /-- the end of a run, where the setting is read (`RunButtons.tsx:195-198`) -/
  | ran
  | reload

/-- Whether the time would be shown at the end of a run (`RunButtons.tsx:195-200`). -/
def Measure.shows (m : Measure) : Bool := (getCell m.stored (.int 1)).1.truthy

def Measure.step (m : Measure) : MeasureEvent → Measure
  | .click => ⟨some (Value.bool !m.switch.truthy).stored, .bool !m.switch.truthy⟩
  | .ran => { m with stored := (getCell m.stored (.int 1)).2 }
  | .reload => .load m.stored

def Measure.steps (m : Measure) (es : List MeasureEvent) : Measure := es.foldl .step m

/-! ## The switch of the tour -/

/-- The page as far as the tour is concerned. -/
structure Tour where
  stored : Option Value
  /-- the state of the switch, `onboarding` (`Settings.tsx:72-74`) -/
  switch : Value
  /-- the settings are open, `visible` (`Settings.tsx:56`) -/
  drawer : Bool
  /-- the tour is open (`setIsOpen`) -/
  isOpen : Bool

/-- Loading the page: the settings are mounted while the page is still hidden (`App.tsx:62-66`,
`Settings.tsx:72-74`), and the effect of `CPUTable/index.tsx:73-81` runs when it is shown. -/
def Tour.load (stored : Option Value) : Tour :=
  let a := getCell stored (.int 1)
  let b := getCell a.2 (.int 1)
  ⟨if b.1.truthy then some b.1.not.stored else b.2, a.1, false, b.1.truthy⟩

/-- What the user does. -/
inductive TourEvent
  /-- the button of the settings (`Settings.tsx:85-87`) -/
  | settings
  /-- closing the settings (`Settings.tsx:89-91`) -/
  | closeSettings
  /-- a click on the switch, which is in the settings -/
  | click
  /-- closing the tour -/
  | closeTour
  | reload

/-- `handleOnboardingChange` (`Settings.tsx:121-129`). Nothing listens to the change. -/
def Tour.set (t : Tour) (checked : Bool) : Tour :=
  let t := { t with stored := some (Value.bool checked).stored, switch := .bool checked,
                    drawer := !checked, isOpen := checked }
  if checked then { t with stored := some (Value.bool !checked).stored, switch := .bool !checked } else t

def Tour.step (t : Tour) : TourEvent → Tour
  | .settings => { t with drawer := true }
  | .closeSettings => { t with drawer := false }
  | .click => if t.drawer then t.set (!t.switch.truthy) else t
  | .closeTour => { t with isOpen := false }
  | .reload => .load t.stored

def Tour.steps (t : Tour) (es : List TourEvent) : Tour := es.foldl .step t

end Mpp.Front
