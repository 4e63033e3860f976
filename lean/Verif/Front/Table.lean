import Verif.Front.Lex
/-!
# The operation table against the instruction set

Facts about `operations.json`, decided on the whole table.
-/
namespace Mpp.Front

/-- Slots that agree with the kind of operand: the value, if there is one, comes first. -/
def slotsOk (i : Instr) : Bool :=
  match kindOf i, (syntaxOf i).2 with
  | .none, [] => true
  | .none, [.name _] => true
  | .none, [.name _, .name _] => true
  | .byte, [.value] => true
  | .byte, [.value, .name _] => true
  | .addr, [.value] => true
  | _, _ => false

/-- What every row of the table satisfies; `c` is the opcode and instruction it stands for. -/
def RowFacts (o : Operation) (c : BitVec 8 × Instr) : Prop :=
  parseRegex o.REGEX = some (itemsOf (syntaxOf c.2).1 (syntaxOf c.2).2) ∧
  o.HEX.length = 2 ∧ checkIsHex o.HEX = true ∧ parseHex o.HEX = some c.1.toNat ∧
  o.ALLOC = c.2.size ∧
  (kindOf c.2 = .none ∨ 4 ≤ o.GRUPO) ∧
  (kindOf c.2 ≠ .none ∨ o.GRUPO < 4 ∨ (syntaxOf c.2).2 = []) ∧
  includes "dir".toList o.NEMO = decide (kindOf c.2 = .addr) ∧
  includes "inm".toList o.NEMO = decide (kindOf c.2 = .byte) ∧
  slotsOk c.2 = true ∧
  decode c.1 = some c.2 ∧
  (∀ a ∈ (syntaxOf c.2).1, isWord a = true) ∧ (∀ x ∈ (syntaxOf c.2).2, x.Good) ∧
  (syntaxOf c.2).2.length ≤ 2 ∧
  (syntaxOf c.2).1 ≠ [] ∧ ((syntaxOf c.2).1.map Char.toUpper).head? ≠ some 'T'

instance (o : Operation) (c : BitVec 8 × Instr) : Decidable (RowFacts o c) := by
  unfold RowFacts; infer_instance

/-- The rows with what they stand for. -/
def rows : List (Operation × BitVec 8 × Instr) := operations.zip opcodes

theorem rows_facts : ∀ r ∈ rows, RowFacts r.1 r.2 := by decide +kernel

theorem rows_fst : rows.map (·.1) = operations := by decide +kernel

theorem rows_snd : rows.map (·.2) = opcodes := by decide +kernel

/-- Can some tokens fit `a` and also `b`, supposing that a byte value in `b` is not the name of a
register? -/
def slotMeets (byte : Bool) : Slot → Slot → Bool
  | .name n, .name k => sameCI n k
  | .name n, .value => !byte || !(n ∈ [acName, G.name .b, G.name .c, G.name .d, G.name .e])
  | .value, _ => true

def meets (a b : Instr) : Bool :=
  sameCI (syntaxOf a).1 (syntaxOf b).1 &&
  match (syntaxOf a).2, (syntaxOf b).2 with
  | [], [] => true
  | [x], [y] => slotMeets (kindOf b = .byte) x y
  | [x, x'], [y, y'] => slotMeets (kindOf b = .byte) x y && slotMeets (kindOf b = .byte) x' y'
  | _, _ => false

/-- No row is shadowed by an earlier one. -/
theorem rows_apart : rows.Pairwise fun a b => meets a.2.2 b.2.2 = false := by decide +kernel

/-- The slots of an instruction with AC in place of the value. -/
def withAc : List Slot → List Slot
  | .value :: r => .name acName :: r
  | r => r

/-- Walk through the rows; each one with a byte value comes after the same one with AC. -/
def shadowed : List Instr → List Instr → Bool
  | _, [] => true
  | seen, i :: is =>
    (kindOf i ≠ .byte ||
      seen.any fun j => (syntaxOf j).1 = (syntaxOf i).1 && (syntaxOf j).2 = withAc (syntaxOf i).2) &&
    shadowed (seen ++ [i]) is

theorem rows_shadowed : shadowed [] (rows.map (·.2.2)) = true := by decide +kernel

/-- A zero-operand mnemonic is neither a register name nor a hexadecimal number. -/
theorem rows_bare : ∀ r ∈ rows, (syntaxOf r.2.2).2 = [] →
    checkIsHex ((syntaxOf r.2.2).1.map Char.toUpper) = false ∧
    ∀ n ∈ [acName, G.name .b, G.name .c, G.name .d, G.name .e], sameCI (syntaxOf r.2.2).1 n = false := by
  decide +kernel

/-- The names in slots are register names. -/
theorem rows_names : ∀ r ∈ rows, ∀ x ∈ (syntaxOf r.2.2).2,
    x = .value ∨ x ∈ [acName, G.name .b, G.name .c, G.name .d, G.name .e].map Slot.name := by
  decide +kernel

theorem instr_row (i : Instr) : ∃ r ∈ rows, r.2.2 = i := by
  have h : ∀ i, i ∈ rows.map (·.2.2) → ∃ r ∈ rows, r.2.2 = i := by
    intro i hi
    obtain ⟨r, h1, h2⟩ := List.mem_map.1 hi
    exact ⟨r, h1, h2⟩
  apply h
  cases i with
  | mov src dst =>
    rcases src with (_ | _ | _ | _) | _ | _ <;> rcases dst with (_ | _ | _ | _) | _ <;> decide +kernel
  | alu op src => cases op <;> rcases src with (_ | _ | _ | _) | _ | _ <;> decide +kernel
  | inc dst => rcases dst with (_ | _ | _ | _) | _ <;> decide +kernel
  | _ => decide +kernel

/-! ## Consequences -/

section
variable {r : Operation × BitVec 8 × Instr} (hr : r ∈ rows)
include hr

theorem Row.regex : parseRegex r.1.REGEX = some (itemsOf (syntaxOf r.2.2).1 (syntaxOf r.2.2).2) :=
  (rows_facts r hr).1
theorem Row.hexLen : r.1.HEX.length = 2 := (rows_facts r hr).2.1
theorem Row.isHex : checkIsHex r.1.HEX = true := (rows_facts r hr).2.2.1
theorem Row.hex : parseHex r.1.HEX = some r.2.1.toNat := (rows_facts r hr).2.2.2.1
theorem Row.alloc : r.1.ALLOC = r.2.2.size := (rows_facts r hr).2.2.2.2.1
theorem Row.value : kindOf r.2.2 = .none ∨ 4 ≤ r.1.GRUPO := (rows_facts r hr).2.2.2.2.2.1
theorem Row.noValue : kindOf r.2.2 ≠ .none ∨ r.1.GRUPO < 4 ∨ (syntaxOf r.2.2).2 = [] :=
  (rows_facts r hr).2.2.2.2.2.2.1
theorem Row.dir : includes "dir".toList r.1.NEMO = decide (kindOf r.2.2 = .addr) :=
  (rows_facts r hr).2.2.2.2.2.2.2.1
theorem Row.inm : includes "inm".toList r.1.NEMO = decide (kindOf r.2.2 = .byte) :=
  (rows_facts r hr).2.2.2.2.2.2.2.2.1
theorem Row.slotsOk : slotsOk r.2.2 = true := (rows_facts r hr).2.2.2.2.2.2.2.2.2.1
theorem Row.decode : decode r.2.1 = some r.2.2 := (rows_facts r hr).2.2.2.2.2.2.2.2.2.2.1
theorem Row.mword : ∀ a ∈ (syntaxOf r.2.2).1, isWord a = true :=
  (rows_facts r hr).2.2.2.2.2.2.2.2.2.2.2.1
theorem Row.good : ∀ x ∈ (syntaxOf r.2.2).2, x.Good := (rows_facts r hr).2.2.2.2.2.2.2.2.2.2.2.2.1
theorem Row.slots2 : (syntaxOf r.2.2).2.length ≤ 2 := (rows_facts r hr).2.2.2.2.2.2.2.2.2.2.2.2.2.1
theorem Row.mne : (syntaxOf r.2.2).1 ≠ [] := (rows_facts r hr).2.2.2.2.2.2.2.2.2.2.2.2.2.2.1
theorem Row.noT : ((syntaxOf r.2.2).1.map Char.toUpper).head? ≠ some 'T' :=
  (rows_facts r hr).2.2.2.2.2.2.2.2.2.2.2.2.2.2.2

/-- What a row's pattern finds in a string without line terminators. -/
theorem Row.exec {s : Str} (h : NoTerm s) : regexExec r.1.REGEX s =
    (lex s).bind fun ts => if fits (syntaxOf r.2.2).1 (syntaxOf r.2.2).2 ts then some ts else none := by
  rw [regexExec, Row.regex hr, Option.bind_some, search_noTerm _ _ h, if_pos rfl,
    match_items (Row.mword hr) (Row.good hr) (Row.slots2 hr) h]
end

end Mpp.Front
