import Verif.Front.Ops
/-!
# The assembler

Model of `mpp-front/src/lib/traslator/index.ts`, function by function. The text of an error message,
always the same, is left out. The list `comments` and the branch that fills it (`index.ts:73-86`) are
left out too: `checkCommentLine` has already removed every `#`, see `clean_no_hash`.
-/
namespace Mpp.Front

/-! ## JavaScript strings and regular expressions -/

/-- `\s` and the characters removed by `trim`: WhiteSpace and LineTerminator of ECMAScript. -/
def isWs (c : Char) : Bool :=
  (9 ≤ c.toNat && c.toNat ≤ 13) || c.toNat == 0x20 || c.toNat == 0xA0 || c.toNat == 0x1680 ||
  (0x2000 ≤ c.toNat && c.toNat ≤ 0x200A) || c.toNat == 0x2028 || c.toNat == 0x2029 ||
  c.toNat == 0x202F || c.toNat == 0x205F || c.toNat == 0x3000 || c.toNat == 0xFEFF

/-- LineTerminator of ECMAScript: what `^` and `$` look for under the flag `m`. -/
def isTerm (c : Char) : Bool :=
  c.toNat == 10 || c.toNat == 13 || c.toNat == 0x2028 || c.toNat == 0x2029

/-- `\w` -/
def isWord (c : Char) : Bool := c.isAlphanum || c == '_'

/-- Equality under the flag `i`. Without the flag `u` a character outside ASCII never equals one
inside, so for the ASCII letters of the patterns this is ASCII upper case. -/
def eqCI (a b : Char) : Bool := a.toUpper == b.toUpper

/-- `s.split(c)` for a one-character `c`. -/
def split (c : Char) : Str → List Str
  | [] => [[]]
  | x :: xs =>
    if x = c then [] :: split c xs
    else match split c xs with
      | [] => [[x]]
      | w :: ws => (x :: w) :: ws

/-- `a.join(c)` for a one-character `c`. -/
def join (c : Char) : List Str → Str
  | [] => []
  | [w] => w
  | w :: ws => w ++ c :: join c ws

/-- `trimStart` -/
def trimStart (s : Str) : Str := s.dropWhile isWs

/-- `trimEnd` -/
def trimEnd (s : Str) : Str := (s.reverse.dropWhile isWs).reverse

/-- `trim` -/
def trim (s : Str) : Str := trimEnd (trimStart s)

/-- Elements of the patterns in `operations.json`. `lit` and `word` are in parentheses, so they
capture; the others do not. -/
inductive Item
  /-- `(XYZ)` -/
  | lit (s : Str)
  /-- `\s` -/
  | ws
  /-- `,` -/
  | comma
  /-- `\s?` -/
  | optWs
  /-- `(\w{1,})` -/
  | word
  deriving DecidableEq

/-- Reader of the patterns, after `^`. The first argument holds the letters read so far of an open
group `(XYZ)`. `none` for a pattern that uses anything else; `Row.regex` shows that this does not
happen. -/
def parseItems : Option Str → Str → Option (List Item)
  | none, ['$'] => some []
  | none, '\\' :: 's' :: '?' :: r => (parseItems none r).map (.optWs :: ·)
  | none, '\\' :: 's' :: r => (parseItems none r).map (.ws :: ·)
  | none, ',' :: r => (parseItems none r).map (.comma :: ·)
  | none, '(' :: '\\' :: 'w' :: '{' :: '1' :: ',' :: '}' :: ')' :: r =>
    (parseItems none r).map (.word :: ·)
  | none, '(' :: r => parseItems (some []) r
  | some l, ')' :: r => (parseItems none r).map (.lit l :: ·)
  | some l, c :: r => if c.isAlpha then parseItems (some (l ++ [c])) r else none
  | _, _ => none

/-- A whole pattern; all of them begin with `^`. -/
def parseRegex : Str → Option (List Item)
  | '^' :: r => parseItems none r
  | _ => none

/-- Match the letters `l` at the start of `s`, ignoring case: the matched text and the rest. -/
def takeLit : Str → Str → Option (Str × Str)
  | [], s => some ([], s)
  | a :: l, c :: s => if eqCI a c then (takeLit l s).map fun p => (c :: p.1, p.2) else none
  | _ :: _, [] => none

/-- `\w{1,}`, greedy, giving back one character at a time when the continuation `k` fails. `pre` is
what has been matched so far. -/
def takeWord (k : Str → Option (List Str)) (pre : Str) : Str → Option (List Str)
  | [] => none
  | c :: s =>
    if isWord c then
      (takeWord k (pre ++ [c]) s).or ((k s).map ((pre ++ [c]) :: ·))
    else none

/-- Match at the start of `s`; the captures. -/
def matchHere : List Item → Str → Option (List Str)
  | [], s =>
    match s with
    | [] => some []
    | c :: _ => if isTerm c then some [] else none
  | .lit l :: is, s =>
    match takeLit l s with
    | some (t, r) => (matchHere is r).map (t :: ·)
    | none => none
  | .ws :: is, s =>
    match s with
    | c :: r => if isWs c then matchHere is r else none
    | [] => none
  | .comma :: is, s =>
    match s with
    | c :: r => if c = ',' then matchHere is r else none
    | [] => none
  | .optWs :: is, s =>
    match s with
    | c :: r => if isWs c then (matchHere is r).or (matchHere is s) else matchHere is s
    | [] => matchHere is []
  | .word :: is, s => takeWord (matchHere is) [] s

/-- Try every position; `bol` says whether `^` holds at this one. -/
def searchFrom (is : List Item) (bol : Bool) (s : Str) : Option (List Str) :=
  (if bol then matchHere is s else none).or
    (match s with
    | [] => none
    | c :: r => searchFrom is (isTerm c) r)

/-- `new RegExp(pattern, "gim").exec(s)`: the captures (`result.slice(1)`) of the first match. -/
def regexExec (pattern s : Str) : Option (List Str) :=
  (parseRegex pattern).bind fun is => searchFrom is true s

/-- Value of a character as a hexadecimal digit, as `parseInt(l, 16)` reads it. -/
def hexDigit (c : Char) : Option Nat :=
  if '0' ≤ c ∧ c ≤ '9' then some (c.toNat - 48)
  else if 'a' ≤ c ∧ c ≤ 'f' then some (c.toNat - 87)
  else if 'A' ≤ c ∧ c ≤ 'F' then some (c.toNat - 55)
  else none

/-- `parseInt(s, 16)` of a string of hexadecimal digits (a `0x` prefix, a sign or blanks do not
occur: every use is behind `checkIsHex` or on emitted code). JavaScript rounds large values; they
are only compared with `0xffff` and `0xff`, which rounding does not change. The reader stops at the
first character that is not a digit; `none` is `NaN`. -/
def parseHexFrom (acc : Nat) : Str → Nat
  | [] => acc
  | c :: s => match hexDigit c with
    | some d => parseHexFrom (16 * acc + d) s
    | none => acc
def parseHex (s : Str) : Option Nat :=
  match s with
  | [] => none
  | c :: s => (hexDigit c).map fun d => parseHexFrom d s

/-- `n.toString(16)` -/
def toHex (n : Nat) : Str := Nat.toDigits 16 n

/-- `s.padStart(n, "0")` -/
def padStart (n : Nat) (s : Str) : Str := List.replicate (n - s.length) '0' ++ s

/-- `s.includes(t)` -/
def includes (t : Str) : Str → Bool
  | [] => t.isEmpty
  | c :: s => t.isPrefixOf (c :: s) || includes t s

/-! ## `index.ts` -/

/-- `checkCommentLine` (`index.ts:49-55`). -/
def checkCommentLine (line : Str) : Str :=
  if '#' ∈ line then trimEnd (line.takeWhile (· ≠ '#')) else line

/-- `checkIsHex` (`index.ts:198-205`). -/
def checkIsHex (word : Str) : Bool := word.all fun c => (hexDigit c).isSome

/-- `eti.startsWith(ETI_START_NAME)` (`index.ts:39`, `181`, `224`). -/
def startsT (s : Str) : Bool := s.head? == some 'T'

/-- The operand part of `translate` (`index.ts:218-243`, and again `index.ts:249-272`). -/
def translateOperand (labels : List Str) (op : Operation) (arg : Str) : List Str :=
  let isDir := includes "dir".toList op.NEMO
  let isInm := includes "inm".toList op.NEMO
  if arg = [] then []
  else if startsT arg then
    if arg ∈ labels then [op.HEX, arg] else []
  else if ¬ checkIsHex arg then []
  else match parseHex arg with
    | none => []
    | some hex =>
      if isDir ∧ hex > 0xffff then []
      else if isInm ∧ hex > 0xff then []
      else if isDir then
        let newHex := padStart 4 (toHex hex)
        [op.HEX, newHex.take 2, newHex.drop 2]
      else
        let newHex := padStart 2 (toHex hex)
        [op.HEX, newHex.take 2]

/-- `translate` (`index.ts:207-274`); `labels` is the global `setEtiquetas`. -/
def translate (labels : List Str) (op : Operation) (ops : List Str) : List Str :=
  match ops with
  | [_] => [op.HEX]
  | [_, arg] => if op.GRUPO < 4 then [op.HEX] else translateOperand labels op arg
  | [_, arg, _] => if op.GRUPO < 4 then [op.HEX] else translateOperand labels op arg
  | _ => []

/-- `words[0]` and `words.slice(1).join(" ")` of `line.split(" ")` (`index.ts:120-122`,
`174-176`). -/
def firstWord (line : Str) : Str := (split ' ' line).headD []
def restWords (line : Str) : Str := join ' ' (split ' ' line).tail

/-- `RegexResponse` together with `originalOffset` (`index.ts:160-167`). -/
structure Result where
  line : Str
  result : List Str
  eti : Str
  instruction : Operation
  originalOffset : Nat

/-- The loop of `executeRegex` (`index.ts:169-196`): the translated codes, the label, the row. -/
def executeRegexFrom (labels : List Str) (line : Str) :
    List Operation → Option (List Str × Str × Operation)
  | [] => none
  | op :: ops =>
    match regexExec op.REGEX line with
    | some caps =>
      if caps.length ≥ 1 then some (translate labels op caps, [], op)
      else executeRegexFrom labels line ops
    | none =>
      match regexExec op.REGEX (restWords line) with
      | some caps =>
        if caps.length ≥ 1 then
          if startsT (firstWord line) then some (translate labels op caps, firstWord line, op)
          else none
        else executeRegexFrom labels line ops
      | none => executeRegexFrom labels line ops

/-- `executeRegex` (`index.ts:169-196`). -/
def executeRegex (labels : List Str) (line : Str) : Option (List Str × Str × Operation) :=
  executeRegexFrom labels line operations

/-- `pre` (`index.ts:114-130`): the value of `setEtiquetas` afterwards. -/
def pre (lines : List Str) : List Str :=
  lines.flatMap fun line =>
    (operations.filter fun op =>
      match regexExec op.REGEX (restWords line) with
      | some caps => caps.length ≥ 1
      | none => false).map fun _ => firstWord line

/-- `s.length`: the number of UTF-16 code units. -/
def units (s : Str) : Nat := (s.map fun c => if c.toNat < 0x10000 then 1 else 2).sum

/-- `s.indexOf(pat)`, where `s` begins at position `k` of the whole string. -/
def indexOf (pat : Str) (k : Nat) : Str → Int
  | [] => if pat.isPrefixOf [] then k else -1
  | c :: s => if pat.isPrefixOf (c :: s) then k else indexOf pat (k + units [c]) s

/-- `Marker` (`index.ts:32-37`). In every marker `lineFrom` and `lineTo` are the same number. -/
structure Mark where
  line : Nat
  startCol : Int
  endCol : Int
  deriving DecidableEq

/-- The marker of a labelled result (`index.ts:303-307`). -/
def Result.mark (r : Result) : Mark :=
  ⟨r.originalOffset, indexOf r.eti 0 r.line, indexOf r.eti 0 r.line + units r.eti⟩

/-- `calculateEtiquetasPos` (`index.ts:281-311`): label, address, marker. The code adds up `ALLOC`
over the elements before the one that is identical (`===`) to the labelled one, which is a running
sum. `[]` is the empty string, which `filter` takes for false. -/
def etiPos (dir : Nat) : List Result → List (Str × Nat × Mark)
  | [] => []
  | r :: rs =>
    let rest := etiPos (dir + r.instruction.ALLOC) rs
    if r.eti = [] then rest else (r.eti, dir, r.mark) :: rest

/-- The two-character pieces of a string (`index.ts:150-152`). -/
def pieces : Str → List Str
  | [] => []
  | [c] => [[c]]
  | c :: d :: s => [c, d] :: pieces s

/-- `Number(eti.dir).toString(16).toUpperCase().padStart(4, "0")` (`index.ts:145-148`). -/
def dirHex (dir : Nat) : Str := padStart 4 ((toHex dir).map Char.toUpper)

/-- Inner loop of `post` (`index.ts:139-157`). `i` and `j` are the loop variables, `res` the array
`result.result`. `live` says whether `result` is still element `i` of `results`, that is, whether
writing to its array is seen there. The code changes the arrays it runs over, so `none`, running out
of `fuel`, stands for a loop that goes on; `post_total` shows that this does not happen. -/
def postInner (pos : List (Str × Nat × Mark)) (i : Nat) :
    Nat → Nat → List Str → Bool → List Result → Option (List Result)
  | 0, _, _, _, _ => none
  | fuel + 1, j, res, live, results =>
    match res[j]? with
    | none => some results
    | some r =>
      match pos.find? fun s => s.1 = r with
      | some eti =>
        let res' := res.eraseIdx j ++ pieces (dirHex eti.2.1)
        postInner pos i fuel (j + 1) res' live
          (if live then results.modify i fun x => { x with result := res' } else results)
      | none =>
        if checkIsHex r then postInner pos i fuel (j + 1) res live results
        else postInner pos i fuel (j + 1) res false (results.eraseIdx i)

/-- Outer loop of `post` (`index.ts:135-158`). -/
def postOuter (pos : List (Str × Nat × Mark)) (fuel : Nat) :
    Nat → Nat → List Result → Option (List Result)
  | 0, _, _ => none
  | n + 1, i, results =>
    match results[i]? with
    | none => some results
    | some r =>
      match postInner pos i fuel 1 r.result true results with
      | none => none
      | some results => postOuter pos fuel n (i + 1) results

/-- `post` (`index.ts:132-159`). The fuel is more than the loops need: the outer one advances `i` at
each step, the inner one visits the two or three elements of a result and the pieces of an
address. -/
def post (results : List Result) (initDir : Nat) : Option (List Result) :=
  let pos := etiPos initDir results
  postOuter pos (10 + initDir + (results.map (·.instruction.ALLOC)).sum) (results.length + 1) 0
    results

/-- What `parseInput` returns. -/
structure Output where
  errors : List Mark
  results : List Result
  etiPositions : List (Str × Nat × Mark)

/-- The lines of a text, trimmed and without comments (`index.ts:62-65`). -/
def cleanLines (text : Str) : List Str := (split '\n' text).map fun l => checkCommentLine (trim l)

/-- The loop of `parseInput` (`index.ts:69-103`) from line `i` on: errors and results. -/
def parseLines (labels : List Str) (i : Nat) : List Str → List Mark × List Result
  | [] => ([], [])
  | line :: ls =>
    let rest := parseLines labels (i + 1) ls
    if line = [] then rest
    else match executeRegex labels line with
      | none => (⟨i, 0, units line⟩ :: rest.1, rest.2)
      | some (codes, eti, op) =>
        if codes = [] then (⟨i, 0, units line⟩ :: rest.1, rest.2)
        else (rest.1, ⟨line, codes, eti, op, i⟩ :: rest.2)

/-- `parseInput` (`index.ts:57-112`). -/
def parseInput (text : Str) (initDir : Nat) : Option Output :=
  let lines := cleanLines text
  let labels := pre lines
  let (errors, results) := parseLines labels 0 lines
  let etiPositions := etiPos initDir results
  (post results initDir).map fun results => ⟨errors, results, etiPositions⟩

/-- What `CodeEditor.tsx:60-87` hands to `onNewTranslation` for a text: `none` when `parseInput`
does not return, `some none` for `null`. -/
def translation (text : Str) : Option (Option (List Str)) :=
  (parseInput text 0).map fun res =>
    let str := join '\n' (res.results.map fun r => join '\n' r.result)
    if res.errors.length > 0 ∨ str.length = 0 then none else some (split '\n' str)

end Mpp.Front
