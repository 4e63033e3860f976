import Verif.Front.Session
/-!
# The machine code beside the text

Model of `mpp-front/src/pages/Coder/components/TranslatedEditor.tsx`, the read-only editor under the text
in the code drawer, and of the string that `CodeEditor.tsx` gives to it. Left out: while the drawer is
maximised the listing is not drawn (`CodeEditor.tsx:265-267`).
-/
namespace Mpp.Front

/-- The string `traslated` for a text (`CodeEditor.tsx:66-69`); it is set also when there are errors.
`none` when `parseInput` does not return. -/
def listing (text : Str) : Option Str :=
  (parseInput text 0).map fun res => join '\n' (res.results.map fun r => join '\n' r.result)

/-- The rows that Ace draws of a text, each with the number beside it (`TranslatedEditor.tsx:17-31`): the
numbers begin with `firstLineNumber`. -/
def gutterRows (first : Int) (text : Str) : List (Int × Str) :=
  (split '\n' text).mapIdx fun i row => (first + i, row)

/-- The listing in the code drawer, by numbered rows (`CodeEditor.tsx:266`). The effect on `[code]`
(`CodeEditor.tsx:60-87`) sets it before the next event. -/
def Ui.listing (s : Ui) : Option (List (Int × Str)) :=
  (Front.listing s.page.code).map (gutterRows s.drawer.shownOffset)

end Mpp.Front
