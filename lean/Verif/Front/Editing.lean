import Verif.Front.Assembler
/-!
# What the editor suggests and how it colours a line

Model of `mpp-front/src/pages/Coder/Completer.js` and of the rules in
`mpp-front/src/pages/Coder/MppMode.js`. The popup of Ace, which looks through the suggestions once
more, and its theme, which turns the names of the classes into colours, are not modelled. Ace reads
the rules of a state as one pattern `(rule)|(rule)|…|($)` and looks for it again and again; a rule with
`caseInsensitive` makes the whole pattern ignore case. Ace stops colouring a line after 2000 matches;
here it goes on.
-/
namespace Mpp.Front

/-! ## Suggestions -/

/-- `[...new Set(a)]`: the elements in the order in which they come first. -/
def distinct [DecidableEq α] (a : List α) : List α :=
  a.foldl (fun seen x => if x ∈ seen then seen else seen ++ [x]) []

/-- `[...new Set(operations.map(s => s.NEMO.split(" ")[0]))]` (`Completer.js:5`, `MppMode.js:11`). -/
def allInstructions : List Str :=
  distinct (operations.map fun s => (split ' ' s.NEMO).headD [])

/-- `Completer.js:6` -/
def allRegisters : List Str :=
  ["AC".toList, "RB".toList, "RC".toList, "RD".toList, "RE".toList]

/-- `Array.from(Array(0xFFFF+1).keys()).map(i => i.toString(16).toUpperCase())` (`Completer.js:7`). -/
def allConstants : List Str := (List.range (0xFFFF + 1)).map fun i => (toHex i).map Char.toUpper

/-- `Completer.js:8` -/
def allCompletions : List Str := distinct (allInstructions ++ allRegisters ++ allConstants)

/-- `c.startsWith(prefix)` -/
def startsWith (p c : Str) : Bool := p.isPrefixOf c

/-- `getCompletions` (`Completer.js:4-21`): the captions, which are also the values. -/
def getCompletions (p : Str) : List Str := allCompletions.filter (startsWith p)

/-! ## Colours -/

/-- The classes of `MppMode.js:15-36`; `text` is what Ace gives to the rest. -/
inductive Tint
  | text
  /-- `entity.name.function.assembly` -/
  | label
  /-- `keyword.control.assembly` -/
  | instruction
  /-- `variable.parameter.register.assembly` -/
  | register
  /-- `constant.character.hexadecimal.assembly` -/
  | number
  /-- `comment.assembly` -/
  | comment
  deriving DecidableEq, Repr

/-- `\b` between the character before and the one after. -/
def bound (before after : Option Char) : Bool := before.any isWord != after.any isWord

/-- `T\S*`, ignoring case (`MppMode.js:15-19`): the number of characters matched. -/
def matchLabel : Str → Option Nat
  | [] => none
  | c :: s => if eqCI 'T' c then some (1 + (s.takeWhile fun x => !isWs x).length) else none

/-- `\b(?:A|B|…)`, ignoring case: the first of the words that is there, provided that `fit` holds of
the last letter and what follows. -/
def matchOne (words : List Str) (fit : Option Char → Str → Bool) (before : Option Char) (s : Str) :
    Option Nat :=
  if bound before s.head? then
    words.findSome? fun m =>
      match takeLit m s with
      | some (t, r) => if fit (t.getLast?.or before) r then some t.length else none
      | none => none
  else none

/-- `\b(?:${allInstructions})\b` (`MppMode.js:20-24`). -/
def matchInstruction (before : Option Char) (s : Str) : Option Nat :=
  matchOne allInstructions (fun last r => bound last r.head?) before s

/-- `\b(?:AC|RB|RC|RD|RE)` (`MppMode.js:24-28`). -/
def matchRegister (before : Option Char) (s : Str) : Option Nat :=
  matchOne ["AC".toList, "RB".toList, "RC".toList, "RD".toList, "RE".toList] (fun _ _ => true) before s

/-- `[0-9A-F]`, ignoring case. -/
def isHexLetter (c : Char) : Bool := c.isDigit || ('A' ≤ c.toUpper && c.toUpper ≤ 'F')

/-- `[0-9A-F]+` (`MppMode.js:28-32`). -/
def matchNumber (s : Str) : Option Nat :=
  match (s.takeWhile isHexLetter).length with
  | 0 => none
  | n => some n

/-- `#.*$` (`MppMode.js:33-36`): without the flag `m`, `$` is the end of the line that Ace gives, and
`.` is no line terminator. -/
def matchComment : Str → Option Nat
  | '#' :: s => if s.any isTerm then none else some (1 + s.length)
  | _ => none

/-- The rules in their order (`MppMode.js:13-37`): the first that matches here. -/
def firstRule (before : Option Char) (s : Str) : Option (Nat × Tint) :=
  ((matchLabel s).map (·, Tint.label)).or <|
  ((matchInstruction before s).map (·, Tint.instruction)).or <|
  ((matchRegister before s).map (·, Tint.register)).or <|
  ((matchNumber s).map (·, Tint.number)).or <|
  ((matchComment s).map (·, Tint.comment))

/-- The class of every character. `left` characters of class `t` are still to come from the last
match; `before` is the character before this one. No rule matches the empty text, so a match has at
least the character at which it begins. -/
def tintsFrom (before : Option Char) (left : Nat) (t : Tint) : Str → List Tint
  | [] => []
  | c :: s =>
    match left with
    | n + 1 => t :: tintsFrom (some c) n t s
    | 0 =>
      match firstRule before (c :: s) with
      | some (n, t) => t :: tintsFrom (some c) (n - 1) t s
      | none => .text :: tintsFrom (some c) 0 .text s

/-- The classes of the characters of a line. -/
def tints (line : Str) : List Tint := tintsFrom none 0 .text line

end Mpp.Front
