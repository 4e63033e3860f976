import Verif.Front.Link
/-!
# The page of the transpiler

Model of `docs/src/components/Transpiler.tsx`, the experiment at the end of the documentation: a program in
another small language on the left, its translation for M++ on the right, below it the tables of the
variables and of the labels. The translation itself, `parseCode` of `docs/src/lib/mpp-compiler`, is a
submodule that is not part of the repository; it is an arbitrary function here, which either throws an
`Error` or returns instructions. Not modelled: a thrown value that is no `Error`, the colours of the code
(`Front/Colours`), CodeMirror (it calls `onChange` with the whole text after each change).
-/
namespace Mpp.Front

/-- What the page reads of `destignatesVariable` of an instruction (`Transpiler.tsx:48-69`). -/
structure TrVar where
  name : Str
  address : Option Nat
  deriving DecidableEq

/-- What the page reads of `labeled` (`Transpiler.tsx:85-98`). -/
structure TrLabel where
  name : Str
  user : Bool
  address : Option Nat
  deriving DecidableEq

/-- What the page reads of an instruction: `format()`, `destignatesVariable`, `labeled`
(`Transpiler.tsx:37,48,85`). -/
structure TrIns where
  text : Str
  var : Option TrVar := none
  label : Option TrLabel := none
  deriving DecidableEq

/-- `parseCode(value, 0)` (`Transpiler.tsx:23`): the message of the error or the instructions. -/
abbrev TrParser := Str → Except Str (List TrIns)

/-- The state of the component (`Transpiler.tsx:7-8`): `result`, and the message of `error`. -/
structure TrPage where
  result : List TrIns
  error : Option Str
  deriving DecidableEq

/-- The first rendering (`Transpiler.tsx:7-8`): an error of `parseCode` is not caught here. -/
def TrPage.open (p : TrParser) (code : Str) : Option TrPage :=
  match p code with
  | .ok r => some ⟨r, none⟩
  | .error _ => none

/-- `onChange` (`Transpiler.tsx:20-29`). Each later rendering evaluates `parseCode(code, 0)` of the first code
once more (`Transpiler.tsx:7`) and forgets the value. -/
def TrPage.type (p : TrParser) (s : TrPage) (value : Str) : TrPage :=
  match p value with
  | .ok r => { result := r, error := none }
  | .error e => { s with error := some e }

/-- `self.filter((a, index, self) => index === self.findIndex((t) => key t === key a))`
(`Transpiler.tsx:50-58,86-92`). -/
def firstOnly {α κ : Type} [DecidableEq κ] (key : α → κ) (self : List α) : List α :=
  (self.zipIdx.filter fun a => self.findIdx? (fun t => key t = key a.1) == some a.2).map (·.1)

/-- `address?.toString(16).toUpperCase()` (`Transpiler.tsx:63-65,97`). -/
def trAddress (a : Option Nat) : Str := (a.map fun n => (toHex n).map Char.toUpper).getD []

/-- The rows of the table of variables (`Transpiler.tsx:47-69`). Instructions without a variable have been
left out before the names are compared. -/
def trVariables (result : List TrIns) : List (Str × Str) :=
  (firstOnly (fun a => a.var.map TrVar.name) (result.filter fun a => a.var.isSome)).map
    fun a => ((a.var.map TrVar.name).getD [], trAddress (a.var.bind TrVar.address))

/-- The rows of the table of labels (`Transpiler.tsx:84-99`). -/
def trLabels (result : List TrIns) : List (Str × Str) :=
  (firstOnly (fun a => a.label.map TrLabel.name)
      (result.filter fun a => (a.label.map TrLabel.user).getD false)).map
    fun a => ((a.label.map TrLabel.name).getD [], trAddress (a.label.bind TrLabel.address))

/-- `result?.map((i) => i.format()).join("\n")` (`Transpiler.tsx:37`). -/
def trCode (result : List TrIns) : Str := List.intercalate ['\n'] (result.map TrIns.text)

/-- What is on the page (`Transpiler.tsx:10-105`). -/
inductive TrView
  /-- The red box with the message; nothing to the right of the editor. -/
  | error (message : Str)
  /-- The code with its button, the variables and the labels. -/
  | translated (code : Str) (vars labels : List (Str × Str))
  deriving DecidableEq

/-- `Transpiler.tsx:10-105` -/
def TrPage.view (s : TrPage) : TrView :=
  match s.error with
  | some e => .error e
  | none => .translated (trCode s.result) (trVariables s.result) (trLabels s.result)

/-- The button above the code (`Transpiler.tsx:36-39`, `Code/Code.tsx:69-74`): the query of the address that
is opened; there is no button beside an error. -/
def TrPage.run (s : TrPage) : Option Str :=
  match s.view with
  | .error _ => none
  | .translated code _ _ => some (openCode code)

end Mpp.Front
