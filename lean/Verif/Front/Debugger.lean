import Verif.Front.Assembler
/-!
# The debugger's disassembler

Model of `mpp-front/src/lib/debugger/index.ts` and of the part of
`mpp-front/src/pages/CPUTable/components/DebuggerNode/index.tsx` that decides what is shown.

The calls of `get_memory_value` have no effect and return an `int`, so the memory is a function
`get` from offsets to integers here; `Verif/Front/Shown.lean` connects it with the machine.
-/
namespace Mpp.Front

/-- `s.replace(p, r)` with a string pattern: the first occurrence (`r` without `$`). -/
def replaceFirst (p r : Str) : Str → Str
  | [] => if p = [] then r else []
  | c :: s => if p.isPrefixOf (c :: s) then r ++ (c :: s).drop p.length else c :: replaceFirst p r s

/-- `n.toString(16).toUpperCase()` -/
def upperHex (n : Int) : Str :=
  if n < 0 then '-' :: (toHex n.natAbs).map Char.toUpper else (toHex n.natAbs).map Char.toUpper

/-- `interface FindOperationValue` (`debugger/index.ts:4-7`). -/
structure Found where
  operation : Str
  first : Nat
  last : Nat
  deriving DecidableEq

/-- `NO_OP_NAME` (`debugger/index.ts:12`) -/
def noOpName : Str := "-".toList

/-- `replaceInm` (`debugger/index.ts:64-69`) -/
def replaceInm (get : Nat → Int) (offset : Nat) (operation : Str) : Str :=
  replaceFirst "inm".toList (upperHex (get (offset + 1))) operation

/-- `replaceDir` (`debugger/index.ts:71-75`) -/
def replaceDir (get : Nat → Int) (offset : Nat) (operation : Str) : Str :=
  replaceFirst "dir".toList (upperHex (get (offset + 1)) ++ upperHex (get (offset + 2))) operation

/-- `doReplacements` (`debugger/index.ts:60-62`): `replaceInm`, then `replaceDir`. -/
def doReplacements (get : Nat → Int) (offset : Nat) (operation : Str) : Str :=
  replaceDir get offset (replaceInm get offset operation)

/-- `findOperation` (`debugger/index.ts:46-58`). `FILL_NO_OP` is true, so it never returns `null`.
`ALLOC` is at least 1 in the table, so the subtraction does not go below zero. -/
def findOperation (get : Nat → Int) (initOffset : Nat) (memValue : Int) : Found :=
  match operations.find? fun o => (parseHex o.HEX).map Int.ofNat = some memValue with
  | none => ⟨noOpName, initOffset, initOffset⟩
  | some op => ⟨doReplacements get initOffset op.NEMO, initOffset, initOffset + op.ALLOC - 1⟩

/-- The `do … while` loop of `deductOperationOf` (`debugger/index.ts:32-43`). It runs the body at
least once; `none` when the fuel does not suffice. -/
def deductLoop (get : Nat → Int) (toMemOffset : Int) : Nat → Nat → Option (List Found)
  | 0, _ => none
  | fuel + 1, initOffset =>
    let operation := findOperation get initOffset (get initOffset)
    if ((operation.last + 1 : Nat) : Int) < toMemOffset then
      (deductLoop get toMemOffset fuel (operation.last + 1)).map (operation :: ·)
    else some [operation]

/-- `deductOperationOf` (`debugger/index.ts:18-44`): `some none` when it throws. `memSize` is
`get_memory_size()`, 65536. -/
def deductOperationOf (get : Nat → Int) (fromMemOffset toMemOffset : Int) :
    Option (Option (List Found)) :=
  if toMemOffset < fromMemOffset then some none
  else
    let fromMemOffset := if fromMemOffset < 0 then 0 else fromMemOffset
    let toMemOffset := if toMemOffset > 65536 then 65536 else toMemOffset
    (deductLoop get toMemOffset ((toMemOffset - fromMemOffset).toNat + 1) fromMemOffset.toNat).map some

/-- `result` and `pointIndex` of `DebuggerComponent` (`DebuggerNode/index.tsx:59-66`): the rows and
the highlighted row, none for -1. -/
def debuggerRows (get : Nat → Int) (memOffset offsetPadding : Nat) :
    Option (Option (List Found × Option Nat)) :=
  (deductOperationOf get ((memOffset : Int) - offsetPadding) (memOffset + offsetPadding)).map
    fun result => result.map fun rows =>
      (rows, rows.findIdx? fun row => row.first ≤ memOffset ∧ row.last ≥ memOffset)

end Mpp.Front
