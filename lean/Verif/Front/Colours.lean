import Verif.Front.Editing
/-!
# How the documentation colours a program

Model of the rules in `docs/src/components/Code/Code.tsx`. The list of operations beside them has the
same entries as the one of the page, so `allInstructions` serves for both. highlight.js reads the rules
as one pattern `(rule)|(rule)|…` under the flags `i` and `m` and looks for it again and again in the
whole text. What it marks inside a comment (`TODO:` and the like) is not modelled: such a mark is inside
that of the comment.
-/
namespace Mpp.Front

/-- `AC|RB|RC|RD|RE` (`docs/src/components/Code/Code.tsx:27-30`), ignoring case. -/
def docRegister (s : Str) : Option Nat :=
  ["AC".toList, "RB".toList, "RC".toList, "RD".toList, "RE".toList].findSome? fun m =>
    (takeLit m s).map fun p => p.1.length

/-- `hljs.HASH_COMMENT_MODE` (`docs/src/components/Code/Code.tsx:13-15,31`): from `#` to `$`, which under
the flag `m` is the end of the line. -/
def docComment : Str → Option Nat
  | '#' :: s => some (1 + (s.takeWhile fun x => !isTerm x).length)
  | _ => none

/-- `[#$=]?[0-9a-f]+` (`docs/src/components/Code/Code.tsx:32-41`), ignoring case. -/
def docNumber : Str → Option Nat
  | [] => none
  | c :: s =>
    if c = '#' ∨ c = '$' ∨ c = '=' then (matchNumber s).map (1 + ·) else matchNumber (c :: s)

/-- The rules in their order (`docs/src/components/Code/Code.tsx:22-51`); the keyword is that of
`docs/src/components/Code/Code.tsx:8-10,23-26` and the symbol `T\S*` that of lines 42-50. -/
def docRule (before : Option Char) (s : Str) : Option (Nat × Tint) :=
  ((matchInstruction before s).map (·, Tint.instruction)).or <|
  ((docRegister s).map (·, Tint.register)).or <|
  ((docComment s).map (·, Tint.comment)).or <|
  ((docNumber s).map (·, Tint.number)).or <|
  ((matchLabel s).map (·, Tint.label))

/-- `hljs.highlight` (`docs/src/components/Code/Code.tsx:67`): the class of every character. `left`
characters of class `t` are still to come from the last match; `before` is the character before. -/
def docTintsFrom (before : Option Char) (left : Nat) (t : Tint) : Str → List Tint
  | [] => []
  | c :: s =>
    match left with
    | n + 1 => t :: docTintsFrom (some c) n t s
    | 0 =>
      match docRule before (c :: s) with
      | some (n, t) => t :: docTintsFrom (some c) (n - 1) t s
      | none => .text :: docTintsFrom (some c) 0 .text s

/-- The classes of the characters of a program shown in the documentation. -/
def docTints (code : Str) : List Tint := docTintsFrom none 0 .text code

end Mpp.Front
