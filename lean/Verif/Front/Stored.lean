import Verif.Front.Layout
/-!
# What the front end keeps between visits

Model of `mpp-front/src/lib/storage.ts` and of the parts of the page that use it: the code of the
editor (`CodeEditor.tsx`, with the code in the address of the page, `Coder/index.tsx`), the cycle time
(`Settings.tsx`, `RunButtons.tsx`) and the guided tour (`CPUTable/index.tsx`).

Simplifications: the local storage keeps values rather than their JSON texts, so
`JSON.parse(JSON.stringify(v))` is `v`, with the exception of `NaN`, which comes back as `null`; only
this page writes to it; of the numbers, `NaN` and the integers are modelled.
-/
namespace Mpp.Front

/-- A JavaScript value, as far as it is stored. -/
inductive Value
  | null
  | nan
  | int (n : Int)
  | bool (b : Bool)
  | str (s : Str)
  deriving DecidableEq

/-- `JSON.parse(JSON.stringify(v))` (`storage.ts:6`, `14`). -/
def Value.stored : Value → Value
  | .nan => .null
  | v => v

/-- The keys in use: `"code"` (`CodeEditor.tsx:37`) and two of `SettingType` (`Settings.tsx:16-22`). -/
inductive Key
  | code
  | cycleTime
  | onboarding
  deriving DecidableEq

/-- The local storage of the browser; `none` for a key that is not there. -/
def Store := Key → Option Value

/-- `setStoredValue` (`storage.ts:1-10`) without `updateState`. -/
def Store.set (s : Store) (k : Key) (v : Value) : Store :=
  fun k' => if k' = k then some v.stored else s k'

/-- `getStoredValue` (`storage.ts:12-17`): the value and the storage afterwards. The text of a stored
value is never empty, so `r ?` only asks whether the key is there. -/
def Store.get (s : Store) (k : Key) (default : Value) : Value × Store :=
  let value := (s k).getD .null
  (if value = .null then default else value, if value = .null then s.set k default else s)

/-! ## The editor -/

/-- `/FIN(\s)$/i.test(s)` (`CodeEditor.tsx:41`); without the flag `m`, `$` is the end of the string. -/
def endsFin (s : Str) : Bool :=
  match s.reverse with
  | w :: n :: i :: f :: _ => isWs w && eqCI 'N' n && eqCI 'I' i && eqCI 'F' f
  | _ => false

/-- The text the editor starts with and the variable `appended` (`CodeEditor.tsx:36-46`). `url` is the
parameter `code` of the address; when it is missing or empty, `initialCode` is the empty string
(`Coder/index.tsx:13`). What is stored under `"code"` is always a string. -/
def startCode (s : Store) (url : Option Str) : Str × Bool :=
  let stored := match (s.get .code (.str [])).1 with
    | .str t => t
    | _ => []
  let initial := url.getD []
  if initial.length > 0 then
    if endsFin initial then (initial, false) else (initial ++ "\nFIN".toList, true)
  else (stored, false)

/-- The page, as far as it depends on the storage. -/
structure Page where
  store : Store
  /-- `code` of the editor (`CodeEditor.tsx:47`) -/
  code : Str
  /-- `appended` (`CodeEditor.tsx:36`): whether the note on the added `FIN` is shown -/
  appended : Bool
  /-- `cycleTime` of the settings (`Settings.tsx:57-59`) -/
  cycleBox : Value
  /-- `isRuningInmediate` of the run buttons (`RunButtons.tsx:65`) -/
  immediate : Bool
  /-- whether loading the page has opened the tour (`CPUTable/index.tsx:77`) -/
  tour : Bool

/-- The value is true as a condition. -/
def Value.truthy : Value → Bool
  | .null => false
  | .nan => false
  | .int n => n ≠ 0
  | .bool b => b
  | .str s => s ≠ []

/-- `!value` -/
def Value.not (v : Value) : Value := .bool (!v.truthy)

/-- Loading the page with the parameter `url`. The effects run once: `Settings.tsx:57-59` and `72-74`,
`RunButtons.tsx:219-224`, `CPUTable/index.tsx:76-78`. The editor is mounted when its drawer is first
opened; the effect of `CodeEditor.tsx:60-61` stores the code at once. Nothing else writes the code, so
it does not matter when this happens. -/
def load (s : Store) (url : Option Str) : Page :=
  let (cycle, s) := s.get .cycleTime (.int 500)
  let (_, s) := s.get .onboarding (.int 1)
  let (tour, s) := s.get .onboarding (.int 1)
  let s := if tour.truthy then s.set .onboarding tour.not else s
  let (code, appended) := startCode s url
  ⟨(s.get .code (.str [])).2.set .code (.str code), code, appended, cycle, cycle = .int 0,
    tour.truthy⟩

/-- What the user does. -/
inductive Change
  /-- any change of the text (typing, opening a file, an example) -/
  | edit (text : Str)
  /-- a change of the box for the cycle time; `NaN` when it is empty -/
  | cycle (v : Option Int)
  /-- the switch for the tour -/
  | tour (checked : Bool)
  /-- a run button, which reads the cycle time (`RunButtons.tsx:75-78`, `109-112`) -/
  | run
  /-- loading the page again -/
  | reload (url : Option Str)

/-- The cycle time a run button reads. -/
def Page.cycleTime (p : Page) : Value := (p.store.get .cycleTime (.int 500)).1

/-- One change: `CodeEditor.tsx:61`, `handleCycleTimeChange` (`Settings.tsx:91-104`; the comparisons are
false for `NaN`) with the listener of `RunButtons.tsx:225-228`, `handleOnboardingChange`
(`Settings.tsx:121-129`). -/
def Page.step (p : Page) : Change → Page
  | .edit t => { p with code := t, store := p.store.set .code (.str t) }
  | .cycle none => { p with store := p.store.set .cycleTime .nan, cycleBox := .nan, immediate := false }
  | .cycle (some n) =>
    if n > 5000 then p
    else if n < 0 then p
    else { p with store := p.store.set .cycleTime (.int n), cycleBox := .int n, immediate := n = 0 }
  | .tour checked =>
    let s := p.store.set .onboarding (.bool checked)
    { p with store := if checked then s.set .onboarding (.bool !checked) else s }
  | .run => { p with store := (p.store.get .cycleTime (.int 500)).2 }
  | .reload url => load p.store url

def Page.steps (p : Page) : List Change → Page
  | [] => p
  | c :: cs => (p.step c).steps cs

end Mpp.Front
