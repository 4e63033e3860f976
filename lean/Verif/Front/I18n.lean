import Verif.Front.Texts
/-!
# Languages

Model of `mpp-front/src/lib/i18n/index.ts`, of the component `I18n` and the hook `useI18n`
(`components/i18n.tsx`) and of the language in the settings (`Settings.tsx`).

Simplifications: a table is a list of entries, so the properties that every JavaScript object has
(`constructor` and so on) are not in it; no component asks for them. `options` is left out, no component
gives it; `format` and `capitalize` change a text after it was looked up. The effects of a component run
before the next event.
-/
namespace Mpp.Front

/-- `getLanguageData` (`lib/i18n/index.ts:29-40`). -/
def languageData (lang : String) : List (String × String) :=
  if lang = "eu" then euTable
  else if lang = "en" then enTable
  else if lang = "es" then esTable
  else enTable

/-- `translations[key]` for an object literal without repeated keys. -/
def entry : List (String × String) → String → Option String
  | [], _ => none
  | (k, v) :: rest, key => if k = key then some v else entry rest key

/-- `loc` (`lib/i18n/index.ts:42-45`); `none` is `undefined`. The empty text is false as a condition. -/
def loc (lang key : String) : Option String :=
  match entry (languageData lang) key with
  | some "" => none
  | r => r

/-- `availableLanguages` (`lib/i18n/index.ts:15`), the choices in the settings (`Settings.tsx:209`). -/
def availableLanguages : List String := ["eu", "es", "en"]

/-! ## The texts on the page -/

/-- A mounted component. `first` is the key that it was mounted with: the listener is made by an effect
without dependencies (`components/i18n.tsx:12-20`, `41-49`), so it uses the first `k` for ever. -/
structure Label where
  /-- the identity of its listener -/
  id : Nat
  first : String
  key : String
  /-- `text`; `none` is `undefined`, shown as nothing -/
  text : Option String
  deriving DecidableEq

/-- The module `lib/i18n` and the mounted components. -/
structure Texts where
  /-- `activeLang` (line 18) -/
  lang : String
  /-- `languageChangeListeners` (line 13) -/
  listeners : List Nat
  labels : List Label
  /-- the next identity -/
  next : Nat

/-- What happens to the texts. -/
inductive TextEvent
  /-- a component is shown for the first time -/
  | mount (key : String)
  /-- a component is rendered with another key: two elements of the same type in the same place, as in
  `RunButtons.tsx:282` and `MemoryNode.tsx:175`, are one component for React -/
  | rekey (id : Nat) (key : String)
  | unmount (id : Nat)
  /-- `setLanguage` -/
  | language (lang : String)

/-- `listeners.splice(listeners.indexOf(cb), 1)` (line 54): when `cb` is not there, `indexOf` is -1 and
the last one is removed. -/
def spliceOut (ids : List Nat) (id : Nat) : List Nat :=
  if id ∈ ids then ids.erase id else ids.dropLast

/-- The callback of `components/i18n.tsx:13-16` and `42-45`, made by the component with this listener. -/
def Label.told (lang : String) (id : Nat) (l : Label) : Label :=
  if l.id = id then { l with text := loc lang l.first } else l

/-- `languageChangeListeners.forEach` (line 22). -/
def tellAll (lang : String) : List Nat → List Label → List Label
  | [], ls => ls
  | id :: ids, ls => tellAll lang ids (ls.map (Label.told lang id))

def Texts.step (t : Texts) : TextEvent → Texts
  | .mount key =>
    { t with listeners := t.listeners ++ [t.next], next := t.next + 1,
             labels := t.labels ++ [⟨t.next, key, key, loc t.lang key⟩] }
  | .rekey id key =>
    { t with labels := t.labels.map fun l =>
      if l.id = id ∧ l.key ≠ key then { l with key := key, text := loc t.lang key } else l }
  | .unmount id =>
    if t.labels.any (fun l => l.id = id) then
      { t with listeners := spliceOut t.listeners id,
               labels := t.labels.filter fun l => ¬ (l.id = id) }
    else t
  | .language lang => { t with lang := lang, labels := tellAll lang t.listeners t.labels }

def Texts.steps (t : Texts) : List TextEvent → Texts
  | [] => t
  | e :: es => (t.step e).steps es

/-- Before anything is mounted. -/
def Texts.start (lang : String) : Texts := ⟨lang, [], [], 0⟩

/-! ## The language in the settings -/

/-- `navigator.language.split("-")[0]` (line 17). -/
def navigatorLang (language : String) : String := String.ofList (language.toList.takeWhile (· ≠ '-'))

/-- The language of the texts, the one that the settings show (`Settings.tsx:68-70`), and what is stored
under `settings::language`. -/
structure Language where
  stored : Option String
  active : String
  box : String

/-- `getStoredValue` (`lib/storage.ts:12-17`) for this key. -/
def getStored (stored : Option String) (default : String) : String × Option String :=
  match stored with
  | some v => (v, some v)
  | none => (default, some default)

/-- Loading the page: the module `lib/i18n` is evaluated before anything is rendered. -/
def Language.load (stored : Option String) (navigator : String) : Language :=
  let a := getStored stored (navigatorLang navigator)
  let b := getStored a.2 "es"
  ⟨b.2, a.1, b.1⟩

/-- The user loads the page with a browser, or chooses a language (`handleLanguageChange`,
`Settings.tsx:112-119`). -/
inductive Visit
  | load (navigator : String)
  | choose (lang : String)

def Language.step (l : Language) : Visit → Language
  | .load navigator => Language.load l.stored navigator
  | .choose lang => ⟨some lang, lang, lang⟩

def Language.steps (l : Language) : List Visit → Language
  | [] => l
  | v :: vs => (l.step v).steps vs

end Mpp.Front
