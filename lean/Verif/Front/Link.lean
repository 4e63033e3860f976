import Verif.Front.Stored
/-!
# Code in links and in files

Model of the way a program takes from the documentation into the editor, through the address of the
page (`docs/src/components/Code/Code.tsx:69-74`, `mpp-front/src/pages/Coder/index.tsx:12-15`), and of
the way through a file (`mpp-front/src/lib/utils.ts:21-56`, `CodeEditor.tsx:131-146`).

What the browser does with the address and the file is modelled after the standards that define it:
the URL standard (`application/x-www-form-urlencoded` serializer and parser, query state), the Encoding
standard (UTF-8) and the File API (`readAsText`). Bytes are numbers below 256.
-/
namespace Mpp.Front

/-! ## UTF-8 -/

/-- The bytes of one character (Encoding standard, UTF-8 encoder). -/
def utf8Char (c : Char) : List Nat :=
  let n := c.toNat
  if n < 0x80 then [n]
  else if n < 0x800 then [0xC0 + n / 64, 0x80 + n % 64]
  else if n < 0x10000 then [0xE0 + n / 4096, 0x80 + n / 64 % 64, 0x80 + n % 64]
  else [0xF0 + n / 262144, 0x80 + n / 4096 % 64, 0x80 + n / 64 % 64, 0x80 + n % 64]

/-- UTF-8 encode. -/
def utf8 (s : Str) : List Nat := s.flatMap utf8Char

/-- The state of the UTF-8 decoder: code point, bytes still needed, lower and upper boundary. (The
standard counts the bytes needed and those seen.) -/
structure Utf8 where
  point : Nat
  needed : Nat
  lower : Nat
  upper : Nat

def Utf8.start : Utf8 := ⟨0, 0, 0x80, 0xBF⟩

/-- U+FFFD, for what cannot be decoded. -/
def replacement : Char := Char.ofNat 0xFFFD

/-- A byte when none is needed. The standard's `byte & 0x1F`, `& 0xF` and `& 0x7` are remainders. -/
def utf8First (b : Nat) : Str × Utf8 :=
  if b < 0x80 then ([Char.ofNat b], .start)
  else if 0xC2 ≤ b ∧ b ≤ 0xDF then ([], ⟨b % 32, 1, 0x80, 0xBF⟩)
  else if 0xE0 ≤ b ∧ b ≤ 0xEF then
    ([], ⟨b % 16, 2, if b = 0xE0 then 0xA0 else 0x80, if b = 0xED then 0x9F else 0xBF⟩)
  else if 0xF0 ≤ b ∧ b ≤ 0xF4 then
    ([], ⟨b % 8, 3, if b = 0xF0 then 0x90 else 0x80, if b = 0xF4 then 0x8F else 0xBF⟩)
  else ([replacement], .start)

/-- The handler of the UTF-8 decoder: what it emits for one byte, and its state afterwards. A byte that
does not continue the character is read again after the error. -/
def utf8Step (d : Utf8) (b : Nat) : Str × Utf8 :=
  if d.needed = 0 then utf8First b
  else if b < d.lower ∨ d.upper < b then (replacement :: (utf8First b).1, (utf8First b).2)
  else
    let point := d.point * 64 + b % 64
    if d.needed = 1 then ([Char.ofNat point], .start) else ([], ⟨point, d.needed - 1, 0x80, 0xBF⟩)

/-- UTF-8 decode without BOM. -/
def utf8Decode : Utf8 → List Nat → Str
  | d, [] => if d.needed = 0 then [] else [replacement]
  | d, b :: bs => (utf8Step d b).1 ++ utf8Decode (utf8Step d b).2 bs

/-! ## Links -/

/-- Letters, digits and `*-._` (the complement of the `application/x-www-form-urlencoded`
percent-encode set). -/
def urlPlain (b : Nat) : Bool :=
  (48 ≤ b ∧ b ≤ 57) || (65 ≤ b ∧ b ≤ 90) || (97 ≤ b ∧ b ≤ 122) || b = 42 || b = 45 || b = 46 || b = 95

/-- A digit of a percent-encoded byte. -/
def urlDigit (n : Nat) : Char := if n < 10 then Char.ofNat (48 + n) else Char.ofNat (55 + n)

/-- Percent-encode a byte. -/
def percent (b : Nat) : Str := ['%', urlDigit (b / 16), urlDigit (b % 16)]

/-- Percent-encode after encoding, with `spaceAsPlus`. -/
def urlEncode (s : Str) : Str :=
  (utf8 s).flatMap fun b => if b = 32 then ['+'] else if urlPlain b then [Char.ofNat b] else percent b

/-- The query of `url.href` in `openCode` (`Code.tsx:71-73`): `searchParams.set` on an address without
parameters leaves this one. -/
def openCode (code : Str) : Str := urlEncode "code".toList ++ "=".toList ++ urlEncode code

/-- What the URL parser leaves of the query of an opened address: tabs and line ends are removed, `#`
ends it, and the characters of the special-query percent-encode set are encoded. -/
def queryState (q : Str) : Str :=
  ((q.filter fun c => c ≠ '\t' ∧ c ≠ '\n' ∧ c ≠ '\r').takeWhile (· ≠ '#')).flatMap fun c =>
    if c.toNat ≤ 32 ∨ 126 < c.toNat ∨ c = '"' ∨ c = '<' ∨ c = '>' ∨ c = '\'' then (utf8Char c).flatMap percent
    else [c]

/-- `window.location.search` after the address is opened. -/
def locationSearch (q : Str) : Str := if queryState q = [] then [] else '?' :: queryState q

/-- The value of a hexadecimal digit, as a byte. -/
def hexByte (b : Nat) : Option Nat :=
  if 48 ≤ b ∧ b ≤ 57 then some (b - 48)
  else if 65 ≤ b ∧ b ≤ 70 then some (b - 55)
  else if 97 ≤ b ∧ b ≤ 102 then some (b - 87)
  else none

/-- Percent-decode. -/
def percentDecode : List Nat → List Nat
  | 37 :: x :: y :: bs =>
    match hexByte x, hexByte y with
    | some u, some v => (u * 16 + v) :: percentDecode bs
    | _, _ => 37 :: percentDecode (x :: y :: bs)
  | b :: bs => b :: percentDecode bs
  | [] => []

/-- The name or value of a parameter: `+` is a blank, then percent-decode, then UTF-8 decode. -/
def urlDecode (bs : List Nat) : Str :=
  utf8Decode .start (percentDecode (bs.map fun b => if b = 43 then 32 else b))

/-- Split at every `&`. -/
def splitAmp : List Nat → List (List Nat)
  | [] => [[]]
  | b :: bs =>
    match splitAmp bs with
    | [] => [[b]]
    | p :: ps => if b = 38 then [] :: p :: ps else (b :: p) :: ps

/-- One parameter: name and value are separated by the first `=`; without one the value is empty. -/
def urlParam (bs : List Nat) : Str × Str :=
  (urlDecode (bs.takeWhile (· ≠ 61)), urlDecode ((bs.dropWhile (· ≠ 61)).drop 1))

/-- `new URLSearchParams(search)`: a leading `?` is left out; empty sequences are skipped. -/
def searchParams (search : Str) : List (Str × Str) :=
  let s := if search.head? = some '?' then search.drop 1 else search
  ((splitAmp (utf8 s)).filter (· ≠ [])).map urlParam

/-- `searchParams.get("code")` (`Coder/index.tsx:12-13`). -/
def codeParam (search : Str) : Option Str :=
  ((searchParams search).find? fun p => p.1 = "code".toList).map (·.2)

/-- `visible` of the drawer of the editor at the beginning (`Coder/index.tsx:13-15`):
`Boolean(get("code") || "")`. -/
def opensDrawer (search : Str) : Bool := (codeParam search).getD [] ≠ []

/-! ## Files -/

/-- The contents of the downloaded file (`utils.ts:44-48`, called by `CodeEditor.tsx:131-139`):
`new Blob([code])`. `useTextFile` is called without argument (`CodeEditor.tsx:58`). -/
def downloadFile (code : Str) : List Nat := utf8 code

/-- `reader.readAsText(file)` (`utils.ts:33-39`), which becomes the code (`CodeEditor.tsx:141-145`): a
byte order mark decides the encoding and is left out; `none` stands for the two UTF-16 marks, whose
decoders are not modelled. -/
def openFile (bs : List Nat) : Option Str :=
  match bs with
  | 0xEF :: 0xBB :: 0xBF :: bs => some (utf8Decode .start bs)
  | 0xFE :: 0xFF :: _ => none
  | 0xFF :: 0xFE :: _ => none
  | bs => some (utf8Decode .start bs)

end Mpp.Front
