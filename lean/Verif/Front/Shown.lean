import Verif.Front.Debugger
import Verif.Front.Render
import Verif.Loader
/-!
# What the debugger shows
-/
namespace Mpp.Front

/-! ## Replacing -/

/-- First occurrence of a non-empty string: what is before and after it. -/
def cutFirst (p : Str) : Str → Option (Str × Str)
  | [] => none
  | c :: s => if p.isPrefixOf (c :: s) then some ([], (c :: s).drop p.length)
    else (cutFirst p s).map fun x => (c :: x.1, x.2)

theorem replaceFirst_cut {p : Str} (hp : p ≠ []) (r s : Str) :
    replaceFirst p r s = match cutFirst p s with
      | some (a, b) => a ++ r ++ b
      | none => s := by
  induction s with
  | nil => simp [replaceFirst, cutFirst, hp]
  | cons c s ih =>
    rw [replaceFirst, cutFirst]
    split
    · simp
    · rw [ih]
      cases cutFirst p s with
      | none => rfl
      | some x => rfl

theorem cutFirst_none {c : Char} {p s : Str} (h : c ∉ s) : cutFirst (c :: p) s = none := by
  induction s with
  | nil => rfl
  | cons x s ih =>
    simp only [List.mem_cons, not_or] at h
    rw [cutFirst, if_neg, ih h.2]
    · rfl
    · simp [List.isPrefixOf, h.1]

theorem rows_inm : ∀ r ∈ rows, cutFirst "inm".toList r.1.NEMO =
    if kindOf r.2.2 = .byte then some (around r.2.2) else none := by decide +kernel

theorem rows_dir : ∀ r ∈ rows, cutFirst "dir".toList r.1.NEMO =
    if kindOf r.2.2 = .addr then some (around r.2.2) else none := by decide +kernel

theorem rows_noD : ∀ r ∈ rows, 'd' ∉ (around r.2.2).1 ∧ 'd' ∉ (around r.2.2).2 := by decide +kernel

theorem upper_ne_d (c : Char) : c.toUpper ≠ 'd' := by
  intro h
  rw [← toNat_inj, upper_nat] at h
  have : 'd'.toNat = 100 := rfl
  rw [this] at h
  split at h <;> omega

theorem upperHex_noD (n : Int) : 'd' ∉ upperHex n := by
  have : 'd' ∉ (toHex n.natAbs).map Char.toUpper := by
    intro h
    obtain ⟨c, _, h⟩ := List.mem_map.1 h
    exact upper_ne_d c h
  unfold upperHex
  split
  · simp only [List.mem_cons, not_or]
    exact ⟨by decide, this⟩
  · exact this

/-- The value as the debugger writes it: the bytes after the opcode, without leading zeros. -/
def written (i : Instr) (get : Nat → Int) (offset : Nat) : Str :=
  match kindOf i with
  | .none => []
  | .byte => upperHex (get (offset + 1))
  | .addr => upperHex (get (offset + 1)) ++ upperHex (get (offset + 2))

theorem doReplacements_row {r : Operation × BitVec 8 × Instr} (hr : r ∈ rows) (get : Nat → Int)
    (offset : Nat) :
    doReplacements get offset r.1.NEMO = textOf r.2.2 (written r.2.2 get offset) := by
  unfold doReplacements replaceDir replaceInm
  rw [replaceFirst_cut (by decide), replaceFirst_cut (by decide), rows_inm r hr]
  obtain ⟨d1, d2⟩ := rows_noD r hr
  cases hk : kindOf r.2.2 with
  | none =>
    simp only [reduceCtorEq, if_false]
    rw [rows_dir r hr, hk]
    simp only [reduceCtorEq, if_false]
    rw [rows_nemo r hr]
    exact textOf_none hk _ _
  | byte =>
    simp only [if_true]
    have : cutFirst "dir".toList ((around r.2.2).1 ++ upperHex (get (offset + 1)) ++
        (around r.2.2).2) = none := by
      apply cutFirst_none (c := 'd') (p := ['i', 'r'])
      simp only [List.mem_append, not_or]
      exact ⟨⟨d1, upperHex_noD _⟩, d2⟩
    rw [this]
    simp only
    rw [textOf_around (by rw [hk]; simp), written, hk]
  | addr =>
    simp only [reduceCtorEq, if_false]
    rw [rows_dir r hr, hk]
    simp only [if_true]
    rw [textOf_around (by rw [hk]; simp), written, hk]

theorem rows_opcode_nodup : (rows.map fun r => r.2.1).Nodup := by decide +kernel

theorem find_row {r : Operation × BitVec 8 × Instr} (hr : r ∈ rows) :
    (operations.find? fun o => (parseHex o.HEX).map Int.ofNat = some (r.2.1.toNat : Int)) = some r.1 := by
  have h0 : r.1 ∈ operations := by
    rw [← rows_fst]
    exact List.mem_map.2 ⟨r, hr, rfl⟩
  cases h : operations.find? fun o => (parseHex o.HEX).map Int.ofNat = some (r.2.1.toNat : Int) with
  | none =>
    have := List.find?_eq_none.1 h r.1 h0
    rw [Row.hex hr] at this
    simp at this
  | some o =>
    have h1 := List.mem_of_find?_eq_some h
    have h2 := List.find?_some h
    rw [← rows_fst] at h1
    obtain ⟨r', hr', rfl⟩ := List.mem_map.1 h1
    rw [Row.hex hr'] at h2
    simp only [Option.map_some, decide_eq_true_eq, Option.some.injEq, Int.ofNat_eq_natCast,
      Int.natCast_inj] at h2
    rw [pairwise_inj rows_opcode_nodup hr' hr (BitVec.eq_of_toNat_eq h2)]

theorem findOperation_row {r : Operation × BitVec 8 × Instr} (hr : r ∈ rows) (get : Nat → Int)
    (offset : Nat) : findOperation get offset (r.2.1.toNat : Int) =
      ⟨textOf r.2.2 (written r.2.2 get offset), offset, offset + r.2.2.size - 1⟩ := by
  unfold findOperation
  rw [find_row hr]
  simp only
  rw [doReplacements_row hr, Row.alloc hr]

/-! ## Rows follow one another -/

/-- The rows cover the cells from `a` on without gaps, up to `b` (not included). -/
inductive Tiles : Nat → Nat → List Found → Prop
  | nil {a : Nat} : Tiles a a []
  | cons {a b : Nat} {x : Found} {xs : List Found} (first : x.first = a) (last : a ≤ x.last)
      (size : x.last ≤ a + 2) (rest : Tiles (x.last + 1) b xs) : Tiles a b (x :: xs)

theorem rows_size : ∀ r ∈ rows, 1 ≤ r.1.ALLOC ∧ r.1.ALLOC ≤ 3 := by decide +kernel

theorem findOperation_range (get : Nat → Int) (off : Nat) (v : Int) :
    (findOperation get off v).first = off ∧ off ≤ (findOperation get off v).last ∧
      (findOperation get off v).last ≤ off + 2 := by
  unfold findOperation
  split
  · simp
  · rename_i op h
    have h1 := List.mem_of_find?_eq_some h
    rw [← rows_fst] at h1
    obtain ⟨r, hr, rfl⟩ := List.mem_map.1 h1
    have := rows_size r hr
    refine ⟨rfl, ?_, ?_⟩
    · show off ≤ off + r.1.ALLOC - 1
      omega
    · show off + r.1.ALLOC - 1 ≤ off + 2
      omega

/-- The loop ends; its rows cover at least the asked range and go at most two cells beyond. -/
theorem deductLoop_tiles (get : Nat → Int) (t : Int) (fuel off : Nat) (hf : (t - off).toNat < fuel) :
    ∃ rows b, deductLoop get t fuel off = some rows ∧ rows ≠ [] ∧ Tiles off b rows ∧
      t ≤ b ∧ (b : Int) ≤ max (t + 2) (off + 3) := by
  induction fuel generalizing off with
  | zero => omega
  | succ fuel ih =>
    rw [deductLoop]
    obtain ⟨h1, h2, h3⟩ := findOperation_range get off (get off)
    split
    · rename_i hlt
      obtain ⟨rows, b, e, _, ht, hb, hb'⟩ := ih ((findOperation get off (get off)).last + 1) (by omega)
      rw [e]
      refine ⟨_, b, rfl, by simp, .cons h1 h2 h3 ht, hb, ?_⟩
      omega
    · refine ⟨_, _, rfl, by simp, .cons h1 h2 h3 .nil, by omega, by omega⟩

/-! ## Assembled code -/

/-- The bytes `bs` are in memory from `a` on. -/
def Placed (get : Nat → Int) (a : Nat) (bs : List (BitVec 8)) : Prop :=
  ∀ k b, bs[k]? = some b → get (a + k) = (b.toNat : Int)

theorem Placed.append {get : Nat → Int} {a : Nat} {bs cs : List (BitVec 8)}
    (h : Placed get a (bs ++ cs)) : Placed get a bs ∧ Placed get (a + bs.length) cs := by
  constructor
  · intro k b hk
    apply h
    rw [List.getElem?_append_left (List.getElem?_eq_some_iff.1 hk).1]
    exact hk
  · intro k b hk
    rw [Nat.add_assoc]
    apply h
    rw [List.getElem?_append_right (by omega)]
    rw [Nat.add_sub_cancel_left]
    exact hk

/-- A byte as the debugger writes it: capital digits, without leading zero. -/
def byteText (b : BitVec 8) : Str := (toHex b.toNat).map Char.toUpper

/-- The row of a statement whose code `bs` begins at `a`. -/
def RowOf (a : Nat) (st : Stmt) (bs : List (BitVec 8)) (x : Found) : Prop :=
  x.first = a ∧ x.last + 1 = a + bs.length ∧
    x.operation = textOf st.instr (bs.tail.flatMap byteText)

/-- The rows of statements one after the other. -/
inductive RowsOf : Nat → List Stmt → List (List (BitVec 8)) → List Found → Prop
  | nil {a : Nat} : RowsOf a [] [] []
  | cons {a : Nat} {st : Stmt} {sts : List Stmt} {bs : List (BitVec 8)} {bss : List (List (BitVec 8))}
      {x : Found} {xs : List Found} (row : RowOf a st bs x) (rest : RowsOf (a + bs.length) sts bss xs) :
      RowsOf a (st :: sts) (bs :: bss) (x :: xs)

theorem upperHex_byte (b : BitVec 8) : upperHex (b.toNat : Int) = byteText b := by
  unfold upperHex byteText
  rw [if_neg (by omega)]
  rfl

theorem kind_length {prog : List Stmt} {st : Stmt} {bs : List (BitVec 8)}
    (h : StmtCode prog st bs) : bs.length = st.instr.size := by
  obtain ⟨op, rest, v, rfl, _, _, hm⟩ := h
  have hp := Instr.size_pos st.instr
  cases hk : kindOf st.instr with
  | none =>
    rw [hk] at hm
    rw [hm]
    unfold kindOf at hk
    have : st.instr.size ≤ 3 := by
      generalize st.instr = i
      cases i with
      | mov s d => cases s <;> simp [Instr.size, Operand.size]
      | alu o s => cases s <;> simp [Instr.size, Operand.size]
      | _ => simp [Instr.size]
    rw [List.length_singleton]
    split at hk
    · simp at hk
    · simp at hk
    · rename_i h2 h3
      have h2 : st.instr.size ≠ 2 := h2
      have h3 : st.instr.size ≠ 3 := h3
      omega
  | byte => rw [hk] at hm; rw [hm.2, kind_size.1.1 hk]; rfl
  | addr => rw [hk] at hm; rw [hm.2, kind_size.2.1 hk]; rfl

theorem found_stmt {prog : List Stmt} {get : Nat → Int} {a : Nat} {st : Stmt} {bs : List (BitVec 8)}
    (h : StmtCode prog st bs) (hp : Placed get a bs) : RowOf a st bs (findOperation get a (get a)) := by
  have hlen := kind_length h
  have hpos := Instr.size_pos st.instr
  obtain ⟨op, rest, v, rfl, hd, _, hm⟩ := h
  have h0 : get a = (op.toNat : Int) := hp 0 op rfl
  obtain ⟨r, hr, e⟩ : ∃ r ∈ rows, r.2 = (op, st.instr) := by
    have := decode_row op
    rw [hd] at this
    simpa using this
  have e1 : op = r.2.1 := by rw [e]
  have e2 : st.instr = r.2.2 := by rw [e]
  rw [h0, e1, findOperation_row hr]
  refine ⟨rfl, ?_, ?_⟩
  · show a + r.2.2.size - 1 + 1 = _
    rw [← e1, hlen, ← e2]
    omega
  · show textOf _ _ = _
    rw [e2]
    congr 1
    unfold written
    rw [e2] at hm
    cases hk : kindOf r.2.2 with
    | none => rw [hk] at hm; rw [hm]; rfl
    | byte =>
      rw [hk] at hm
      have h1 : get (a + 1) = ((BitVec.ofNat 8 v).toNat : Int) := hp 1 _ (by rw [hm.2]; rfl)
      simp only
      rw [h1, hm.2, upperHex_byte]
      simp
    | addr =>
      rw [hk] at hm
      have h1 : get (a + 1) = ((BitVec.ofNat 8 (v / 256)).toNat : Int) := hp 1 _ (by rw [hm.2]; rfl)
      have h2 : get (a + 2) = ((BitVec.ofNat 8 (v % 256)).toNat : Int) := hp 2 _ (by rw [hm.2]; rfl)
      simp only
      rw [h1, h2, hm.2, upperHex_byte, upperHex_byte]
      simp

theorem deductLoop_code {prog : List Stmt} {get : Nat → Int} {fuel a : Nat} {sts : List Stmt}
    {bss : List (List (BitVec 8))} (hne : sts ≠ []) (h : List.Forall₂ (StmtCode prog) sts bss)
    (hp : Placed get a bss.flatten) (hf : bss.flatten.length < fuel) :
    ∃ rows, deductLoop get (a + bss.flatten.length : Nat) fuel a = some rows ∧ RowsOf a sts bss rows := by
  induction h generalizing a fuel with
  | nil => exact absurd rfl hne
  | @cons st bs sts bss h1 h2 ih =>
    obtain ⟨fuel, rfl⟩ : ∃ f, fuel = f + 1 := ⟨fuel - 1, by omega⟩
    rw [List.flatten_cons] at hp hf
    obtain ⟨p1, p2⟩ := hp.append
    have hrow := found_stmt h1 p1
    have hl := hrow.2.1
    have hsz := kind_length h1
    have hpos := Instr.size_pos st.instr
    rw [deductLoop, hl]
    cases h2 with
    | nil =>
      rw [if_neg (by simp)]
      exact ⟨_, rfl, .cons hrow .nil⟩
    | @cons st' bs' sts bss h3 h4 =>
      have hsz' := kind_length h3
      have hpos' := Instr.size_pos st'.instr
      rw [List.length_append] at hf
      obtain ⟨rows, e, hr⟩ := ih (fuel := fuel) (by simp) p2 (by omega)
      rw [if_pos, List.flatten_cons, List.length_append, ← Nat.add_assoc, e]
      · exact ⟨_, rfl, .cons hrow hr⟩
      · rw [List.flatten_cons, List.flatten_cons, List.length_append, List.length_append]
        omega

/-- Operands that the debugger writes in a form that the assembler reads back: the low byte of an
address has two digits unless the high byte is 0, and a byte is not AC. -/
def Legible (bs : List (BitVec 8)) : Prop :=
  match bs with
  | [_, b] => b ≠ 0xAC
  | [_, b, c] => b = 0 ∨ 16 ≤ c.toNat
  | _ => True

theorem byteText_value (b : BitVec 8) : HexValue (byteText b) b.toNat := toHex_upper _

theorem byteText_ac : ∀ b : BitVec 8, SameName (byteText b) acName → b = 0xAC := by decide +kernel

theorem byteText_length : ∀ b : BitVec 8, (byteText b).length = if 16 ≤ b.toNat then 2 else 1 := by
  decide +kernel

/-- The number after the opcode. -/
def argOfBytes : List (BitVec 8) → Arg
  | [b] => .num b.toNat
  | [b, c] => .num (256 * b.toNat + c.toNat)
  | _ => .none

theorem reads_row {prog : List Stmt} {a : Nat} {st : Stmt} {bs : List (BitVec 8)} {x : Found}
    (h : StmtCode prog st bs) (hx : RowOf a st bs x) (hl : Legible bs) :
    Reads x.operation ⟨none, st.instr, argOfBytes bs.tail⟩ := by
  refine ⟨bs.tail.flatMap byteText, x.operation, by rw [hx.2.2]; exact spells_textOf _ _, ?_, rfl⟩
  obtain ⟨op, rest, v, rfl, hd, _, hm⟩ := h
  simp only [List.tail_cons] at *
  unfold ArgText
  cases hk : kindOf st.instr with
  | none =>
    rw [hk] at hm
    rw [hm]
    trivial
  | byte =>
    rw [hk] at hm
    rw [hm.2] at hl ⊢
    simp only [argOfBytes, List.flatMap_cons, List.flatMap_nil, List.append_nil]
    exact ⟨byteText_value _, fun hs => hl (byteText_ac _ hs)⟩
  | addr =>
    rw [hk] at hm
    rw [hm.2] at hl ⊢
    simp only [argOfBytes, List.flatMap_cons, List.flatMap_nil, List.append_nil]
    have hv := (byteText_value (BitVec.ofNat 8 (v / 256))).split (byteText_value (BitVec.ofNat 8 (v % 256)))
    rw [byteText_length] at hv
    rcases hl with hl | hl
    · rw [hl] at hv ⊢
      simpa using hv
    · rw [if_pos hl] at hv
      exact hv

/-- The same instruction on AC. -/
def onAc : Instr → Instr
  | .mov .imm d => .mov .ac d
  | .alu o .imm => .alu o .ac
  | i => i

theorem textOf_ac {i : Instr} (h : kindOf i = .byte) : textOf i acName = textOf (onAc i) [] ∧
    kindOf (onAc i) = .none := by
  cases i with
  | mov s d => cases s <;> cases d <;> simp_all [textOf, onAc, syntaxOf, Slot.ofOperand,
      Slot.ofDest, Slot.text, kindOf, Instr.size, Operand.size]
  | alu o s => cases s <;> simp_all [textOf, onAc, syntaxOf, Slot.ofOperand, Slot.text, kindOf,
      Instr.size, Operand.size]
  | _ => simp_all [kindOf, Instr.size]

/-- Only legible operands are read back. -/
theorem legible_of_reads {prog : List Stmt} {a : Nat} {st : Stmt} {bs : List (BitVec 8)} {x : Found}
    (h : StmtCode prog st bs) (hx : RowOf a st bs x)
    (hr : Reads x.operation ⟨none, st.instr, argOfBytes bs.tail⟩) : Legible bs := by
  obtain ⟨op, rest, v, rfl, hd, _, hm⟩ := h
  rw [hx.2.2] at hr
  simp only [List.tail_cons] at *
  cases hk : kindOf st.instr with
  | none => rw [hk] at hm; rw [hm]; trivial
  | byte =>
    rw [hk] at hm
    obtain ⟨_, rfl⟩ := hm
    rintro hac
    rw [hac] at hr
    have e : [(0xAC : BitVec 8)].flatMap byteText = acName := by decide +kernel
    rw [e] at hr
    obtain ⟨e1, e2⟩ := textOf_ac hk
    have h2 : Reads (textOf st.instr acName) ⟨none, onAc st.instr, .none⟩ := by
      rw [e1]
      exact reads_lineOf (st := ⟨none, onAc st.instr, .none⟩) (w := []) (by
        simp only [ArgText, e2]) (by simp)
    have hn : NoTerm (textOf st.instr acName) := by
      rw [e1]
      exact (neat_textOf _ fun h => absurd e2 h).noTerms
    have := congrArg Stmt.arg (hr.unique hn h2)
    simp [argOfBytes] at this
  | addr =>
    rw [hk] at hm
    obtain ⟨hv, rfl⟩ := hm
    simp only [Legible]
    by_contra hc
    simp only [not_or, Nat.not_le] at hc
    have hval := (byteText_value (BitVec.ofNat 8 (v / 256))).split (byteText_value (BitVec.ofNat 8 (v % 256)))
    rw [byteText_length, if_neg (by omega)] at hval
    simp only [argOfBytes, List.flatMap_cons, List.flatMap_nil, List.append_nil] at hr
    have h2 := reads_lineOf (st := ⟨none, st.instr, .num _⟩) (w := _) (by
      simp only [ArgText, hk]; exact hval) (by simp)
    have := congrArg Stmt.arg (hr.unique (neat_textOf _ fun _ => ⟨hval.ne_nil, hval.word⟩).noTerms h2)
    simp only [Arg.num.injEq] at this
    have h0 : (BitVec.ofNat 8 (v / 256)).toNat ≠ 0 := fun h => hc.1 (BitVec.eq_of_toNat_eq h)
    omega

/-! ## The listing assembles to the same code -/

theorem written_word (bs : List (BitVec 8)) : ∀ c ∈ bs.flatMap byteText, isWord c = true := by
  intro c hc
  obtain ⟨b, _, h⟩ := List.mem_flatMap.1 hc
  exact (byteText_value b).word c h

theorem RowOf.neat {prog : List Stmt} {a : Nat} {st : Stmt} {bs : List (BitVec 8)} {x : Found}
    (h : StmtCode prog st bs) (hx : RowOf a st bs x) : Neat x.operation := by
  rw [hx.2.2]
  apply neat_textOf
  intro hk
  refine ⟨?_, written_word _⟩
  obtain ⟨op, rest, v, rfl, _, _, hm⟩ := h
  cases hk' : kindOf st.instr with
  | none => exact absurd hk' hk
  | byte =>
    rw [hk'] at hm
    simp [hm.2, (byteText_value _).ne_nil]
  | addr =>
    rw [hk'] at hm
    simp [hm.2, (byteText_value _).ne_nil]

/-- The statement that the row of `st` shows. -/
def numbered (st : Stmt) (bs : List (BitVec 8)) : Stmt := ⟨none, st.instr, argOfBytes bs.tail⟩

theorem numbered_code {prog : List Stmt} {st : Stmt} {bs : List (BitVec 8)} (h : StmtCode prog st bs)
    (q : List Stmt) : StmtCode q (numbered st bs) bs ∧ (∀ l, (numbered st bs).arg ≠ .label l) ∧
      ∀ n, (numbered st bs).arg = .num n → n < 256 ^ (st.instr.size - 1) := by
  obtain ⟨op, rest, v, rfl, hd, _, hm⟩ := h
  cases hk : kindOf st.instr with
  | none =>
    rw [hk] at hm
    subst hm
    refine ⟨⟨op, [], 0, rfl, hd, trivial, ?_⟩, by simp [numbered, argOfBytes], by
      simp [numbered, argOfBytes]⟩
    simp only [numbered, hk]
  | byte =>
    rw [hk] at hm
    obtain ⟨hv, rfl⟩ := hm
    have e : (BitVec.ofNat 8 v).toNat = v := by simp; omega
    refine ⟨⟨op, _, v, rfl, hd, ?_, ?_⟩, by simp [numbered, argOfBytes], ?_⟩
    · simp only [numbered, argOfBytes, List.tail_cons, ArgIs, e]
    · simp only [numbered, hk]
      exact ⟨hv, trivial⟩
    · intro n hn
      simp only [numbered, argOfBytes, List.tail_cons, e, Arg.num.injEq] at hn
      rw [kind_size.1.1 hk]
      omega
  | addr =>
    rw [hk] at hm
    obtain ⟨hv, rfl⟩ := hm
    have e : 256 * (BitVec.ofNat 8 (v / 256)).toNat + (BitVec.ofNat 8 (v % 256)).toNat = v := by
      simp; omega
    refine ⟨⟨op, _, v, rfl, hd, ?_, ?_⟩, by simp [numbered, argOfBytes], ?_⟩
    · simp only [numbered, argOfBytes, List.tail_cons, ArgIs, e]
    · simp only [numbered, hk]
      exact ⟨hv, trivial⟩
    · intro n hn
      simp only [numbered, argOfBytes, List.tail_cons, e, Arg.num.injEq] at hn
      rw [kind_size.2.1 hk]
      omega

theorem RowsOf.relist {prog : List Stmt} {a : Nat} {sts : List Stmt} {bss : List (List (BitVec 8))}
    {rows : List Found} (h : RowsOf a sts bss rows) (hc : List.Forall₂ (StmtCode prog) sts bss)
    (hl : ∀ bs ∈ bss, Legible bs) :
    ∃ prog', List.Forall₂ Reads (rows.map Found.operation) prog' ∧
      (∀ x ∈ rows.map Found.operation, Neat x) ∧
      (∀ q, List.Forall₂ (StmtCode q) prog' bss) ∧ (∀ st ∈ prog', ∀ l, st.arg ≠ .label l) ∧
      (∀ st ∈ prog', ∀ n, st.arg = .num n → n < 256 ^ (st.instr.size - 1)) ∧
      sizeOf prog' = bss.flatten.length := by
  induction h with
  | nil => exact ⟨[], .nil, by simp, fun _ => .nil, by simp, by simp, rfl⟩
  | @cons a st sts bs bss x xs row rest ih =>
    cases hc with
    | cons h1 h2 =>
      obtain ⟨prog', i1, i2, i3, i4, i5, i6⟩ := ih h2 fun bs hb => hl bs (by simp [hb])
      refine ⟨numbered st bs :: prog', .cons (reads_row h1 row (hl bs (by simp))) i1, ?_, ?_, ?_, ?_, ?_⟩
      · intro y hy
        rw [List.map_cons, List.mem_cons] at hy
        rcases hy with rfl | hy
        · exact RowOf.neat h1 row
        · exact i2 y hy
      · exact fun q => .cons (numbered_code h1 q).1 (i3 q)
      · intro s hs
        rcases List.mem_cons.1 hs with rfl | hs
        · exact (numbered_code h1 []).2.1
        · exact i4 s hs
      · intro s hs
        rcases List.mem_cons.1 hs with rfl | hs
        · exact (numbered_code h1 []).2.2
        · exact i5 s hs
      · rw [List.flatten_cons, List.length_append, ← i6, kind_length h1]
        simp [sizeOf, numbered]

/-- The listing, given to the assembler, yields the code that was listed. -/
theorem RowsOf.assembles {prog : List Stmt} {a : Nat} {sts : List Stmt}
    {bss : List (List (BitVec 8))} {rows : List Found} (h : RowsOf a sts bss rows) (hne : sts ≠ [])
    (hc : List.Forall₂ (StmtCode prog) sts bss) (hl : ∀ bs ∈ bss, Legible bs)
    (hsz : bss.flatten.length ≤ 65536) :
    ∃ slots, translation (join '\n' (rows.map Found.operation)) = some (some slots) ∧
      List.Forall₂ HexByte slots bss.flatten := by
  obtain ⟨prog', h1, h2, h3, h4, h5, h6⟩ := h.relist hc hl
  have hne' : rows.map Found.operation ≠ [] := by
    cases h with
    | nil => exact absurd rfl hne
    | cons _ _ => simp
  have hp : prog' ≠ [] := by
    rintro rfl
    cases h1' : rows.map Found.operation with
    | nil => exact hne' h1'
    | cons _ _ => rw [h1'] at h1; cases h1
  obtain ⟨slots, bss', e, c, hb⟩ := translation_code (source_join hne' h2 h1) hp
    (by
      intro st hst
      cases ha : st.arg with
      | none => trivial
      | num n => exact h5 st hst n ha
      | label l => exact absurd ha (h4 st hst l))
    (fun st hst l hl => absurd hl (h4 st hst l)) (by omega)
  have : bss' = bss := Code.unique (by
    intro st hst ha
    obtain ⟨line, _, hr⟩ := Forall₂.of_right h1 hst
    exact hr.labels.2.2 ha) c (h3 prog')
  rw [this] at hb
  exact ⟨slots, e, hb⟩

/-! ## The memory of the machine -/

/-- `get` is what `get_memory_value` returns, and the call has no effect. -/
def Memory (h : H) (get : Nat → Int) : Prop :=
  ∀ k < 2 ^ 31, ∃ v, exec (.getMemoryValue (BitVec.ofNat 32 k)) h = some (v, h) ∧ get k = v.toInt

theorem _root_.Mpp.Ready.memory {h : H} {p : P} (r : Ready h p) : Memory h fun k =>
    if k < 65536 then ((p.mem (BitVec.ofNat 16 k)).toNat : Int) else -1 := by
  intro k hk
  obtain ⟨ph, r, on, ui, b, s⟩ := r
  by_cases h6 : k < 65536
  · have := s.mem (BitVec.ofNat 16 k)
    have e : (BitVec.ofNat 16 k).setWidth 32 = BitVec.ofNat 32 k := by
      apply BitVec.eq_of_toNat_eq
      simp
      omega
    rw [e] at this
    refine ⟨_, this, ?_⟩
    simp only [h6, if_true]
    rw [BitVec.toInt_eq_toNat_of_lt] <;> simp <;> omega
  · refine ⟨_, On.getMemory_out ?_, ?_⟩
    · unfold IsAddr
      have : (BitVec.ofNat 32 k).toInt = k := by
        rw [BitVec.toInt_eq_toNat_of_lt] <;> rw [BitVec.toNat_ofNat] <;> omega
      rw [this]
      omega
    · simp only [h6, if_false]
      decide

/-- The bytes of the machine's memory. -/
theorem Memory.byte {h : H} {p : P} (r : Ready h p) {get : Nat → Int} (hm : Memory h get) {k : Nat}
    (hk : k < 65536) : get k = ((p.mem (BitVec.ofNat 16 k)).toNat : Int) := by
  obtain ⟨v, e, hv⟩ := hm k (by omega)
  obtain ⟨v', e', hv'⟩ := r.memory k (by omega)
  rw [e] at e'
  cases e'
  rw [hv, ← hv']
  simp only [hk, if_true]

end Mpp.Front
