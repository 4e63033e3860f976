import Verif.Loader
/-!
# Properties C01 - C10: what each instruction does

Every theorem here is about the C program: `Ready h p` says that `h` is a state of the C program
reachable through the API, between two instructions, whose getters show `p`; `Does u h p'` says
that running the clock until the next fetch ends, in such a state showing `p'`. All visible
registers, flags and cells not mentioned in `p'` keep the value they have in `p`, and no other errors
are reported.

The theorems say what happens everywhere in memory. PC stays at 0xFFFF, SP at 0 and at 0xFFFF, and an
error is reported each time one of them should go further. Where there is room, `p.ahead n` is the
address `n` bytes after PC, `p.past n` only moves PC there, `p.below n` and `p.above n` are SP - n and
SP + n, and `p.pushed n` and `p.popped n` only move SP there (`P.past_room`, `P.pushed_room`,
`P.popped_room`).
-/
namespace Mpp

/-- The address `n` bytes after PC, but not beyond the last one. -/
def P.ahead (p : P) (n : Nat) : BitVec 16 := BitVec.ofNat 16 (min (p.pc.toNat + n) 0xFFFF)

/-- The address `n` bytes after SP, but not beyond the last one. -/
def P.above (p : P) (n : Nat) : BitVec 16 := BitVec.ofNat 16 (min (p.sp.toNat + n) 0xFFFF)

/-- The address `n` bytes before SP, but not before the first one. -/
def P.below (p : P) (n : Nat) : BitVec 16 := BitVec.ofNat 16 (p.sp.toNat - n)

/-- PC moved past `n` bytes. Each byte fetched from the last cell leaves PC there and is reported. -/
def P.past (p : P) (n : Nat) : P :=
  { p with pc := p.ahead n, errs := List.replicate (p.pc.toNat + n - 0xFFFF) .pcOverflow ++ p.errs }

/-- SP moved up by `n`. Each step beyond the last cell is reported and leaves SP there. -/
def P.popped (p : P) (n : Nat) : P :=
  { p with sp := p.above n, errs := List.replicate (p.sp.toNat + n - 0xFFFF) .spOverflow ++ p.errs }

/-- SP moved down by `n`. Each step below the first cell is reported and leaves SP there. -/
def P.pushed (p : P) (n : Nat) : P :=
  { p with sp := p.below n, errs := List.replicate (n - p.sp.toNat) .spOverflow ++ p.errs }

/-- The value of an operand, from the state at the first byte of the instruction. -/
def P.val (p : P) : Operand → BitVec 8
  | .reg g => p.reg g
  | .ac => p.ac
  | .imm => p.mem (p.ahead 1)

/-- The address in the two bytes after the opcode, high byte first. -/
def P.target (p : P) : BitVec 16 := p.mem (p.ahead 1) ++ p.mem (p.ahead 2)

/-- PC moved past `n` bytes. -/
def P.skip (p : P) (n : Nat) : P := { p with pc := p.pc + BitVec.ofNat 16 n }

theorem next_skip (p : P) (h : p.pc.toNat + 1 ≤ 65535) : p.next = p.skip 1 := by
  unfold P.next P.skip
  rw [if_neg (fun e => by rw [e] at h; exact absurd h (by decide))]
  rfl

theorem skip_skip (p : P) (m n : Nat) : (p.skip m).skip n = p.skip (m + n) := by
  unfold P.skip
  congr 1
  apply BitVec.eq_of_toNat_eq
  simp [BitVec.toNat_add, Nat.add_assoc]

theorem skip_pc (p : P) (n : Nat) (h : p.pc.toNat + n ≤ 65535) :
    (p.skip n).pc.toNat = p.pc.toNat + n := by
  unfold P.skip
  simp only [BitVec.toNat_add, BitVec.toNat_ofNat]
  omega

/-- The next value of a counter that stays at 0xFFFF. -/
theorem ahead_succ (x n : Nat) (hx : x ≤ 0xFFFF) :
    (if BitVec.ofNat 16 (min (x + n) 0xFFFF) = 0xFFFF then BitVec.ofNat 16 (min (x + n) 0xFFFF)
      else BitVec.ofNat 16 (min (x + n) 0xFFFF) + 1) = BitVec.ofNat 16 (min (x + (n + 1)) 0xFFFF) ∧
    (BitVec.ofNat 16 (min (x + n) 0xFFFF) = 0xFFFF ↔ x + (n + 1) - 0xFFFF = x + n - 0xFFFF + 1) ∧
    (BitVec.ofNat 16 (min (x + n) 0xFFFF) ≠ 0xFFFF → x + (n + 1) - 0xFFFF = 0 ∧ x + n - 0xFFFF = 0) := by
  have k : BitVec.ofNat 16 (min (x + n) 0xFFFF) = 0xFFFF ↔ 0xFFFF ≤ x + n := by
    rw [← BitVec.toNat_inj]
    simp only [BitVec.toNat_ofNat, BitVec.ofNat_eq_ofNat]
    omega
  refine ⟨?_, by rw [k]; omega, by rw [ne_eq, k]; omega⟩
  split
  · rename_i h
    rw [k] at h
    rw [Nat.min_eq_right h, Nat.min_eq_right (by omega)]
  · rename_i h
    rw [k] at h
    apply BitVec.eq_of_toNat_eq
    simp only [BitVec.toNat_add, BitVec.toNat_ofNat, BitVec.ofNat_eq_ofNat]
    omega

theorem past_next (p : P) (n : Nat) : (p.past n).next = p.past (n + 1) := by
  have := p.pc.isLt
  obtain ⟨h1, h2, h3⟩ := ahead_succ p.pc.toNat n (by omega)
  unfold P.next P.past P.ahead
  simp only
  split
  · rename_i e
    rw [h2.1 e, List.replicate_succ, ← h1, if_pos e, List.cons_append]
  · rename_i e
    rw [(h3 e).1, (h3 e).2, ← h1, if_neg e]

theorem past_zero (p : P) : p.past 0 = p := by
  have := p.pc.isLt
  unfold P.past P.ahead
  rw [Nat.add_zero, Nat.min_eq_left (by omega), Nat.sub_eq_zero_of_le (by omega), BitVec.ofNat_toNat,
    BitVec.setWidth_eq]
  rfl

theorem next_past (p : P) : p.next = p.past 1 := by
  have := past_next p 0
  rwa [past_zero] at this

theorem past_past (p : P) (m n : Nat) : (p.past m).past n = p.past (m + n) := by
  induction n with
  | zero => rw [past_zero]; rfl
  | succ n ih => rw [← past_next, ih, past_next]; rfl

theorem popped_up (p : P) (n : Nat) : (p.popped n).up = p.popped (n + 1) := by
  have := p.sp.isLt
  obtain ⟨h1, h2, h3⟩ := ahead_succ p.sp.toNat n (by omega)
  unfold P.up P.popped P.above
  simp only
  split
  · rename_i e
    rw [h2.1 e, List.replicate_succ, ← h1, if_pos e, List.cons_append]
  · rename_i e
    rw [(h3 e).1, (h3 e).2, ← h1, if_neg e]

theorem popped_zero (p : P) : p.popped 0 = p := by
  have := p.sp.isLt
  unfold P.popped P.above
  rw [Nat.add_zero, Nat.min_eq_left (by omega), Nat.sub_eq_zero_of_le (by omega), BitVec.ofNat_toNat,
    BitVec.setWidth_eq]
  rfl

theorem up_popped (p : P) : p.up = p.popped 1 := by
  have := popped_up p 0
  rwa [popped_zero] at this

theorem pushed_down (p : P) (n : Nat) : (p.pushed n).down = p.pushed (n + 1) := by
  have := p.sp.isLt
  have k : BitVec.ofNat 16 (p.sp.toNat - n) = 0 ↔ p.sp.toNat ≤ n := by
    rw [← BitVec.toNat_inj]
    simp only [BitVec.toNat_ofNat, BitVec.ofNat_eq_ofNat]
    omega
  unfold P.down P.pushed P.below
  simp only [k]
  split
  · rename_i e
    rw [show n + 1 - p.sp.toNat = n - p.sp.toNat + 1 by omega, List.replicate_succ,
      show p.sp.toNat - (n + 1) = p.sp.toNat - n by omega]
    rfl
  · rename_i e
    rw [show n + 1 - p.sp.toNat = n - p.sp.toNat by omega,
      show BitVec.ofNat 16 (p.sp.toNat - n) - 1 = BitVec.ofNat 16 (p.sp.toNat - (n + 1)) from by
        apply BitVec.eq_of_toNat_eq
        simp only [BitVec.toNat_sub, BitVec.toNat_ofNat, BitVec.ofNat_eq_ofNat]
        omega]

theorem pushed_zero (p : P) : p.pushed 0 = p := by
  unfold P.pushed P.below
  rw [Nat.sub_zero, Nat.zero_sub, BitVec.ofNat_toNat, BitVec.setWidth_eq]
  rfl

theorem down_pushed (p : P) : p.down = p.pushed 1 := by
  have := pushed_down p 0
  rwa [pushed_zero] at this

theorem popped_popped (p : P) (n : Nat) : (p.popped n).popped 1 = p.popped (n + 1) := by
  rw [← up_popped, popped_up]

theorem pushed_pushed (p : P) (n : Nat) : (p.pushed n).pushed 1 = p.pushed (n + 1) := by
  rw [← down_pushed, pushed_down]

/-- Where there is room, PC is moved and nothing is reported. -/
theorem P.past_room (p : P) (n : Nat) (h : p.pc.toNat + n ≤ 65535) :
    p.ahead n = p.pc + BitVec.ofNat 16 n ∧ p.past n = { p with pc := p.pc + BitVec.ofNat 16 n } := by
  have e : p.ahead n = p.pc + BitVec.ofNat 16 n := by
    unfold P.ahead
    apply BitVec.eq_of_toNat_eq
    simp only [BitVec.toNat_add, BitVec.toNat_ofNat]
    omega
  refine ⟨e, ?_⟩
  unfold P.past
  rw [e, Nat.sub_eq_zero_of_le h]; rfl

theorem P.popped_room (p : P) (n : Nat) (h : p.sp.toNat + n ≤ 65535) :
    p.above n = p.sp + BitVec.ofNat 16 n ∧ p.popped n = { p with sp := p.sp + BitVec.ofNat 16 n } := by
  have e : p.above n = p.sp + BitVec.ofNat 16 n := by
    unfold P.above
    apply BitVec.eq_of_toNat_eq
    simp only [BitVec.toNat_add, BitVec.toNat_ofNat]
    omega
  refine ⟨e, ?_⟩
  unfold P.popped
  rw [e, Nat.sub_eq_zero_of_le h]; rfl

theorem P.pushed_room (p : P) (n : Nat) (h : n ≤ p.sp.toNat) :
    p.below n = p.sp - BitVec.ofNat 16 n ∧ p.pushed n = { p with sp := p.sp - BitVec.ofNat 16 n } := by
  have e : p.below n = p.sp - BitVec.ofNat 16 n := by
    unfold P.below
    apply BitVec.eq_of_toNat_eq
    have := p.sp.isLt
    simp only [BitVec.toNat_sub, BitVec.toNat_ofNat]
    omega
  refine ⟨e, ?_⟩
  unfold P.pushed
  rw [e, Nat.sub_eq_zero_of_le h]; rfl

theorem operand_eq (p : P) (src : Operand) :
    (p.past 1).operand src = (p.val src, p.past (1 + src.size)) := by
  cases src with
  | reg g => cases g <;> rfl
  | ac => rfl
  | imm => simp only [P.operand, past_next]; rfl

theorem address_eq (p : P) : (p.past 1).address = (p.target, p.past 3) := by
  unfold P.address
  rw [past_next, past_next]
  rfl

theorem append_eq (x y : BitVec 8) : x ++ y = BitVec.ofNat 16 (x.toNat * 256 + y.toNat) := by
  apply BitVec.eq_of_toNat_eq
  have := x.isLt
  have hy := y.isLt
  rw [BitVec.toNat_append, Nat.shiftLeft_eq, BitVec.toNat_ofNat, Nat.mul_comm,
    ← Nat.two_pow_add_eq_or_of_lt hy]
  omega

/-! ## C01: MOV -/

/-- Store a value in a general register or in AC. -/
def P.put (p : P) : Dest → BitVec 8 → P
  | .reg .b, x => { p with b := x }
  | .reg .c, x => { p with c := x }
  | .reg .d, x => { p with d := x }
  | .reg .e, x => { p with e := x }
  | .ac, x => { p with ac := x }

/-- **C01.** MOV copies the source to the destination and moves PC past the instruction; nothing
else changes. All 30 MOV opcodes. -/
theorem C01_mov (u : Bool) (h : H) (p : P) (hr : Ready h p) (src : Operand) (dst : Dest)
    (hd : decode (p.mem p.pc) = some (.mov src dst)) :
    Does u h ((p.put dst (p.val src)).past (1 + src.size)) := by
  have := hr.instr u hd (fun e => by cases e)
  have e : p.instr (.mov src dst) = (p.put dst (p.val src)).past (1 + src.size) := by
    simp only [P.instr, next_past, operand_eq]
    rcases dst with (_ | _ | _ | _) | _ <;> rfl
  rwa [e] at this

/-- `MOV 42, RD` at address 7, in a machine with distinct register values. -/
example : ∃ h p, Ready h p ∧ decode (p.mem p.pc) = some (.mov .imm (.reg .d)) ∧
    p.pc.toNat + (1 + Operand.imm.size) ≤ 65535 ∧ (p.put (.reg .d) (p.val .imm)).d = 0x42 ∧
    p.d = 4 := by
  let p : P := ⟨1, 2, 3, 4, 5, 7, 6, true, false, fun i => if i = 7 then 0x62 else 0x42, []⟩
  obtain ⟨h, hr⟩ := ready_all p rfl
  exact ⟨h, p, hr, by decide +kernel, by decide, by decide +kernel, rfl⟩

/-- The same instruction in the last cell: it is its own operand, and two errors are reported. -/
example : ∃ h p, Ready h p ∧ decode (p.mem p.pc) = some (.mov .imm (.reg .d)) ∧ p.pc = 0xFFFF ∧
    p.val .imm = 0x62 ∧ (p.past 2).pc = 0xFFFF ∧ (p.past 2).errs = [.pcOverflow, .pcOverflow] := by
  let p : P := ⟨1, 2, 3, 4, 5, 0xFFFF, 6, true, false, fun _ => 0x62, []⟩
  obtain ⟨h, hr⟩ := ready_all p rfl
  exact ⟨h, p, hr, by decide +kernel, rfl, by decide +kernel, by decide +kernel, by decide +kernel⟩

/-! ## C02: ADD, SUB, CMP -/

/-- **C02.** ADD: AC becomes the sum modulo 256, FC says that the true sum exceeds 255, FZ that
the 8-bit result is zero. -/
theorem C02_add (u : Bool) (h : H) (p : P) (hr : Ready h p) (src : Operand)
    (hd : decode (p.mem p.pc) = some (.alu .add src)) :
    Does u h ({ p with
      ac := BitVec.ofNat 8 ((p.ac.toNat + (p.val src).toNat) % 256)
      fc := decide (255 < p.ac.toNat + (p.val src).toNat)
      fz := decide ((p.ac.toNat + (p.val src).toNat) % 256 = 0) }.past (1 + src.size)) := by
  have := hr.instr u hd (fun e => by cases e)
  have h1 : BitVec.ofNat 8 ((p.ac.toNat + (p.val src).toNat) % 256) = p.ac + p.val src := by
    apply BitVec.eq_of_toNat_eq; simp [BitVec.toNat_add]
  have h2 : decide ((p.ac.toNat + (p.val src).toNat) % 256 = 0) = decide (p.ac + p.val src = 0) := by
    rw [decide_eq_decide, ← BitVec.toNat_inj]; simp [BitVec.toNat_add]
  have e : p.instr (.alu .add src) = { p with
      ac := p.ac + p.val src
      fc := decide (255 < p.ac.toNat + (p.val src).toNat)
      fz := decide (p.ac + p.val src = 0) }.past (1 + src.size) := by
    simp only [P.instr, next_past, operand_eq, P.aluOp]
    rfl
  rw [h1, h2]
  rwa [e] at this

/-- **C02.** SUB: AC becomes the difference modulo 256, FC says that the true difference is
negative, FZ that the 8-bit result is zero. -/
theorem C02_sub (u : Bool) (h : H) (p : P) (hr : Ready h p) (src : Operand)
    (hd : decode (p.mem p.pc) = some (.alu .sub src)) :
    Does u h ({ p with
      ac := BitVec.ofInt 8 (((p.ac.toNat : Int) - (p.val src).toNat) % 256)
      fc := decide ((p.ac.toNat : Int) - (p.val src).toNat < 0)
      fz := decide (((p.ac.toNat : Int) - (p.val src).toNat) % 256 = 0) }.past (1 + src.size)) := by
  have := hr.instr u hd (fun e => by cases e)
  have hx := p.ac.isLt
  have hy := (p.val src).isLt
  have h1 : BitVec.ofInt 8 (((p.ac.toNat : Int) - (p.val src).toNat) % 256) = p.ac - p.val src := by
    apply BitVec.eq_of_toNat_eq
    simp only [BitVec.toNat_ofInt, BitVec.toNat_sub]
    omega
  have h2 : decide (((p.ac.toNat : Int) - (p.val src).toNat) % 256 = 0) =
      decide (p.ac - p.val src = 0) := by
    rw [decide_eq_decide, ← BitVec.toNat_inj]
    simp only [BitVec.toNat_sub, BitVec.toNat_ofNat, BitVec.ofNat_eq_ofNat]
    omega
  have h3 : decide ((p.ac.toNat : Int) - (p.val src).toNat < 0) =
      decide (p.ac.toNat < (p.val src).toNat) := by
    rw [decide_eq_decide]; omega
  have e : p.instr (.alu .sub src) = { p with
      ac := p.ac - p.val src
      fc := decide (p.ac.toNat < (p.val src).toNat)
      fz := decide (p.ac - p.val src = 0) }.past (1 + src.size) := by
    simp only [P.instr, next_past, operand_eq, P.aluOp]
    rfl
  rw [h1, h2, h3]
  rwa [e] at this

/-- **C02.** CMP sets the flags as SUB does and leaves AC alone. -/
theorem C02_cmp (u : Bool) (h : H) (p : P) (hr : Ready h p) (src : Operand)
    (hd : decode (p.mem p.pc) = some (.alu .cmp src)) :
    Does u h ({ p with
      fc := decide ((p.ac.toNat : Int) - (p.val src).toNat < 0)
      fz := decide ((p.ac.toNat : Int) - (p.val src).toNat = 0) }.past (1 + src.size)) := by
  have := hr.instr u hd (fun e => by cases e)
  have h2 : decide ((p.ac.toNat : Int) - (p.val src).toNat = 0) = decide (p.ac = p.val src) := by
    rw [decide_eq_decide, ← BitVec.toNat_inj]; omega
  have h3 : decide ((p.ac.toNat : Int) - (p.val src).toNat < 0) =
      decide (p.ac.toNat < (p.val src).toNat) := by
    rw [decide_eq_decide]; omega
  have e : p.instr (.alu .cmp src) = { p with
      fc := decide (p.ac.toNat < (p.val src).toNat)
      fz := decide (p.ac = p.val src) }.past (1 + src.size) := by
    simp only [P.instr, next_past, operand_eq, P.aluOp]
    rfl
  rw [h2, h3]
  rwa [e] at this

/-- `ADD FF` with AC = 2: result 1 with carry. `SUB RC` with AC = 2, C = 3: result 0xFF with
borrow. `CMP AC`. -/
example : ∃ h p, Ready h p ∧ decode (p.mem p.pc) = some (.alu .add .imm) ∧
    p.pc.toNat + (1 + Operand.imm.size) ≤ 65535 ∧ 255 < p.ac.toNat + (p.val .imm).toNat := by
  let p : P := ⟨2, 2, 3, 4, 5, 7, 6, true, false, fun i => if i = 7 then 0x65 else 0xFF, []⟩
  obtain ⟨h, hr⟩ := ready_all p rfl
  exact ⟨h, p, hr, by decide +kernel, by decide, by decide +kernel⟩
example : ∃ h p, Ready h p ∧ decode (p.mem p.pc) = some (.alu .sub (.reg .c)) ∧
    p.pc.toNat + (1 + (Operand.reg .c).size) ≤ 65535 ∧ p.ac.toNat < (p.val (.reg .c)).toNat := by
  let p : P := ⟨2, 2, 3, 4, 5, 7, 6, true, false, fun _ => 0x19, []⟩
  obtain ⟨h, hr⟩ := ready_all p rfl
  exact ⟨h, p, hr, by decide +kernel, by decide, by decide +kernel⟩
example : ∃ h p, Ready h p ∧ decode (p.mem p.pc) = some (.alu .cmp .ac) ∧
    p.pc.toNat + (1 + Operand.ac.size) ≤ 65535 ∧ p.fc = true ∧ p.fz = false := by
  let p : P := ⟨2, 2, 3, 4, 5, 7, 6, true, false, fun _ => 0x47, []⟩
  obtain ⟨h, hr⟩ := ready_all p rfl
  exact ⟨h, p, hr, by decide +kernel, by decide, rfl, rfl⟩

/-! ## C03: AND, OR, XOR -/

/-- **C03.** AND, OR and XOR combine bit by bit, clear FC and set FZ on a zero result. -/
theorem C03_logic (u : Bool) (h : H) (p : P) (hr : Ready h p) (op : AluOp) (src : Operand)
    (hop : op = .and ∨ op = .or ∨ op = .xor)
    (hd : decode (p.mem p.pc) = some (.alu op src)) :
    ∃ x : BitVec 8,
      (∀ k, k < 8 → x.getLsbD k =
        match op with
        | .and => p.ac.getLsbD k && (p.val src).getLsbD k
        | .or => p.ac.getLsbD k || (p.val src).getLsbD k
        | _ => Bool.xor (p.ac.getLsbD k) ((p.val src).getLsbD k)) ∧
      Does u h ({ p with ac := x, fc := false, fz := decide (x = 0) }.past (1 + src.size)) := by
  have := hr.instr u hd (fun e => by cases e)
  rcases hop with rfl | rfl | rfl
  · refine ⟨p.ac &&& p.val src, fun k hk => by simp, ?_⟩
    have e : p.instr (.alu .and src) = { p with
        ac := p.ac &&& p.val src, fc := false, fz := decide (p.ac &&& p.val src = 0) }.past (1 + src.size) := by
      simp only [P.instr, next_past, operand_eq, P.aluOp]; rfl
    rwa [e] at this
  · refine ⟨p.ac ||| p.val src, fun k hk => by simp, ?_⟩
    have e : p.instr (.alu .or src) = { p with
        ac := p.ac ||| p.val src, fc := false, fz := decide (p.ac ||| p.val src = 0) }.past (1 + src.size) := by
      simp only [P.instr, next_past, operand_eq, P.aluOp]; rfl
    rwa [e] at this
  · refine ⟨p.ac ^^^ p.val src, fun k hk => by simp, ?_⟩
    have e : p.instr (.alu .xor src) = { p with
        ac := p.ac ^^^ p.val src, fc := false, fz := decide (p.ac ^^^ p.val src = 0) }.past (1 + src.size) := by
      simp only [P.instr, next_past, operand_eq, P.aluOp]; rfl
    rwa [e] at this

/-- `XOR RE` with AC = E, flags set before. -/
example : ∃ h p, Ready h p ∧ decode (p.mem p.pc) = some (.alu .xor (.reg .e)) ∧
    p.pc.toNat + (1 + (Operand.reg .e).size) ≤ 65535 ∧ p.ac = p.val (.reg .e) ∧ p.fc = true := by
  let p : P := ⟨5, 2, 3, 4, 5, 7, 6, true, false, fun _ => 0x2B, []⟩
  obtain ⟨h, hr⟩ := ready_all p rfl
  exact ⟨h, p, hr, by decide +kernel, by decide, rfl, rfl⟩

/-! ## C04: INC, CMA -/

/-- The value of a general register or AC. -/
def P.at (p : P) : Dest → BitVec 8
  | .reg .b => p.b
  | .reg .c => p.c
  | .reg .d => p.d
  | .reg .e => p.e
  | .ac => p.ac

/-- **C04.** INC adds one modulo 256 to the register it names, clears FC and sets FZ on zero. -/
theorem C04_inc (u : Bool) (h : H) (p : P) (hr : Ready h p) (dst : Dest)
    (hd : decode (p.mem p.pc) = some (.inc dst)) :
    Does u h ({ p.put dst (BitVec.ofNat 8 (((p.at dst).toNat + 1) % 256)) with
      fc := false, fz := decide (((p.at dst).toNat + 1) % 256 = 0) }.past 1) := by
  have := hr.instr u hd (fun e => by cases e)
  have h1 : BitVec.ofNat 8 (((p.at dst).toNat + 1) % 256) = p.at dst + 1 := by
    apply BitVec.eq_of_toNat_eq; simp [BitVec.toNat_add]
  have h2 : decide (((p.at dst).toNat + 1) % 256 = 0) = decide (p.at dst + 1 = 0) := by
    rw [decide_eq_decide, ← BitVec.toNat_inj]; simp [BitVec.toNat_add]
  have e : p.instr (.inc dst) = { p.put dst (p.at dst + 1) with
      fc := false, fz := decide (p.at dst + 1 = 0) }.past 1 := by
    simp only [P.instr, next_past]
    rcases dst with (_ | _ | _ | _) | _ <;> rfl
  rw [h1, h2]
  rwa [e] at this

/-- **C04.** CMA complements the eight bits of AC (AC becomes 255 - AC), clears FC and sets FZ on
zero. -/
theorem C04_cma (u : Bool) (h : H) (p : P) (hr : Ready h p)
    (hd : decode (p.mem p.pc) = some .cma) :
    Does u h ({ p with
      ac := BitVec.ofNat 8 (255 - p.ac.toNat), fc := false, fz := decide (p.ac.toNat = 255) }.past 1) := by
  have := hr.instr u hd (fun e => by cases e)
  have h1 : BitVec.ofNat 8 (255 - p.ac.toNat) = ~~~p.ac := by
    apply BitVec.eq_of_toNat_eq
    have := p.ac.isLt
    simp only [BitVec.toNat_ofNat, BitVec.toNat_not]
    omega
  have h2 : decide (p.ac.toNat = 255) = decide (~~~p.ac = 0) := by
    have := p.ac.isLt
    rw [decide_eq_decide, ← BitVec.toNat_inj]
    simp only [BitVec.toNat_not, BitVec.ofNat_eq_ofNat, BitVec.toNat_ofNat]
    omega
  have e : p.instr .cma = { p with
      ac := ~~~p.ac, fc := false, fz := decide (~~~p.ac = 0) }.past 1 := by
    simp only [P.instr, next_past]; rfl
  rw [h1, h2]
  rwa [e] at this

/-- `INC RB` with B = 0xFF and FC set: wraps to zero. `CMA` with AC = 0xFF. -/
example : ∃ h p, Ready h p ∧ decode (p.mem p.pc) = some (.inc (.reg .b)) ∧ p.pc.toNat + 1 ≤ 65535 ∧
    p.at (.reg .b) = 0xFF ∧ p.fc = true := by
  let p : P := ⟨5, 0xFF, 3, 4, 5, 7, 6, true, false, fun _ => 0x2C, []⟩
  obtain ⟨h, hr⟩ := ready_all p rfl
  exact ⟨h, p, hr, by decide +kernel, by decide, rfl, rfl⟩
example : ∃ h p, Ready h p ∧ decode (p.mem p.pc) = some .cma ∧ p.pc.toNat + 1 ≤ 65535 ∧
    p.ac = 0xFF ∧ p.fc = true := by
  let p : P := ⟨0xFF, 0xFF, 3, 4, 5, 7, 6, true, false, fun _ => 0x80, []⟩
  obtain ⟨h, hr⟩ := ready_all p rfl
  exact ⟨h, p, hr, by decide +kernel, by decide, rfl, rfl⟩

/-! ## C05: LFA, SFA -/

/-- **C05.** LFA puts FC in bit 7, FZ in bit 0 and zero in the other bits of AC; the flags keep
their values. -/
theorem C05_lfa (u : Bool) (h : H) (p : P) (hr : Ready h p)
    (hd : decode (p.mem p.pc) = some .lfa) :
    Does u h ({ p with
      ac := BitVec.ofNat 8 ((if p.fc then 128 else 0) + (if p.fz then 1 else 0)) }.past 1) := by
  have := hr.instr u hd (fun e => by cases e)
  have e : p.instr .lfa = { p with
      ac := BitVec.ofNat 8 ((if p.fc then 128 else 0) + (if p.fz then 1 else 0)) }.past 1 := by
    simp only [P.instr, next_past]
    have : ∀ a b : Bool, ((if a then (0x80 : BitVec 8) else 0) ||| if b then 1 else 0) =
        BitVec.ofNat 8 ((if a then 128 else 0) + (if b then 1 else 0)) := by decide
    show P.mk ((if p.fc then (0x80 : BitVec 8) else 0) ||| if p.fz then 1 else 0) _ _ _ _ _ _ _ _ _ _ = _
    rw [this]; rfl
  rwa [e] at this

/-- **C05.** SFA sets FC to bit 7 and FZ to bit 0 of AC; AC keeps its value. -/
theorem C05_sfa (u : Bool) (h : H) (p : P) (hr : Ready h p)
    (hd : decode (p.mem p.pc) = some .sfa) :
    Does u h ({ p with fc := decide (p.ac.toNat / 128 = 1), fz := decide (p.ac.toNat % 2 = 1) }.past 1) := by
  have := hr.instr u hd (fun e => by cases e)
  have e : p.instr .sfa = { p with
      fc := decide (p.ac.toNat / 128 = 1), fz := decide (p.ac.toNat % 2 = 1) }.past 1 := by
    simp only [P.instr, next_past]
    have : ∀ x : BitVec 8, x.getLsbD 7 = decide (x.toNat / 128 = 1) ∧
        x.getLsbD 0 = decide (x.toNat % 2 = 1) := by decide +kernel
    rw [← (this p.ac).1, ← (this p.ac).2]; rfl
  rwa [e] at this

/-- **C05.** LFA, then SFA: the flags are what they were. -/
theorem C05_roundtrip (u : Bool) (h : H) (p : P) (hr : Ready h p)
    (h1 : decode (p.mem p.pc) = some .lfa) (h2 : decode (p.mem (p.ahead 1)) = some .sfa) :
    ∃ h' x, RunInstructions u 2 h h' ∧ Ready h' ({ p with ac := x }.past 2) := by
  obtain ⟨n1, h1', e1, r1⟩ := C05_lfa u h p hr h1
  obtain ⟨n2, h2', e2, r2⟩ := C05_sfa u h1' _ r1 h2
  refine ⟨h2', BitVec.ofNat 8 ((if p.fc then 128 else 0) + (if p.fz then 1 else 0)),
    .step e1 (.step e2 .none), ?_⟩
  have k : ∀ a b : Bool,
      decide ((BitVec.ofNat 8 ((if a then 128 else 0) + (if b then 1 else 0))).toNat / 128 = 1) = a ∧
      decide ((BitVec.ofNat 8 ((if a then 128 else 0) + (if b then 1 else 0))).toNat % 2 = 1) = b := by
    decide
  have e3 := past_past { p with
    ac := BitVec.ofNat 8 ((if p.fc then 128 else 0) + (if p.fz then 1 else 0)) } 1 1
  rw [← e3]
  have back : ∀ (q : P) (f g : Bool), f = q.fc → g = q.fz →
      Ready h2' ({ q with fc := f, fz := g }.past 1) → Ready h2' (q.past 1) :=
    fun q f g ef eg r => by subst ef eg; exact r
  exact back _ _ _ (k p.fc p.fz).1 (k p.fc p.fz).2 r2

/-- LFA then SFA with FC set and FZ clear, AC non-zero. -/
example : ∃ h p, Ready h p ∧ decode (p.mem p.pc) = some .lfa ∧ decode (p.mem (p.ahead 1)) = some .sfa ∧
    p.pc = 7 ∧ p.fc = true ∧ p.fz = false ∧ p.ac = 0x55 := by
  let p : P := ⟨0x55, 0xFF, 3, 4, 5, 7, 6, true, false, fun i => if i = 7 then 0x81 else 0x82, []⟩
  obtain ⟨h, hr⟩ := ready_all p rfl
  exact ⟨h, p, hr, by decide +kernel, by decide +kernel, rfl, rfl, rfl, rfl⟩

/-! ## C06: LDA, STA, LDAX, STAX -/

/-- **C06.** LDA loads AC with the cell at the operand address. -/
theorem C06_lda (u : Bool) (h : H) (p : P) (hr : Ready h p)
    (hd : decode (p.mem p.pc) = some .lda) :
    Does u h ({ p with ac := p.mem p.target }.past 3) := by
  have := hr.instr u hd (fun e => by cases e)
  have e : p.instr .lda = { p with ac := p.mem p.target }.past 3 := by
    simp only [P.instr, next_past, address_eq]; rfl
  rwa [e] at this

/-- **C06.** STA stores AC at the operand address and changes no other cell. -/
theorem C06_sta (u : Bool) (h : H) (p : P) (hr : Ready h p)
    (hd : decode (p.mem p.pc) = some .sta) :
    Does u h ({ p with mem := fun i => if i = p.target then p.ac else p.mem i }.past 3) := by
  have := hr.instr u hd (fun e => by cases e)
  have e : p.instr .sta =
      { p with mem := fun i => if i = p.target then p.ac else p.mem i }.past 3 := by
    simp only [P.instr, next_past, address_eq]; rfl
  rwa [e] at this

/-- **C06.** LDAX loads AC with the cell at address D:E. -/
theorem C06_ldax (u : Bool) (h : H) (p : P) (hr : Ready h p)
    (hd : decode (p.mem p.pc) = some .ldax) :
    Does u h ({ p with ac := p.mem (p.d ++ p.e) }.past 1) := by
  have := hr.instr u hd (fun e => by cases e)
  have e : p.instr .ldax = { p with ac := p.mem (p.d ++ p.e) }.past 1 := by
    simp only [P.instr, next_past]; rfl
  rwa [e] at this

/-- **C06.** STAX stores AC at address D:E and changes no other cell. -/
theorem C06_stax (u : Bool) (h : H) (p : P) (hr : Ready h p)
    (hd : decode (p.mem p.pc) = some .stax) :
    Does u h ({ p with mem := fun i => if i = p.d ++ p.e then p.ac else p.mem i }.past 1) := by
  have := hr.instr u hd (fun e => by cases e)
  have e : p.instr .stax = { p with mem := fun i => if i = p.d ++ p.e then p.ac else p.mem i }.past 1 := by
    simp only [P.instr, next_past]; rfl
  rwa [e] at this

/-- `STA 1234` stored at address 7. -/
example : ∃ h p, Ready h p ∧ decode (p.mem p.pc) = some .sta ∧ p.pc.toNat + 3 ≤ 65535 ∧
    p.target = 0x1234 ∧ p.mem 0x1234 ≠ p.ac := by
  let p : P := ⟨0x55, 0xFF, 3, 4, 5, 7, 6, true, false,
    fun i => if i = 7 then 0x71 else if i = 8 then 0x12 else 0x34, []⟩
  obtain ⟨h, hr⟩ := ready_all p rfl
  exact ⟨h, p, hr, by decide +kernel, by decide, by decide +kernel, by decide +kernel⟩
example : ∃ h p, Ready h p ∧ decode (p.mem p.pc) = some .lda ∧ p.pc.toNat + 3 ≤ 65535 ∧
    p.target = 0x1234 ∧ p.mem 0x1234 ≠ p.ac := by
  let p : P := ⟨0x55, 0xFF, 3, 4, 5, 7, 6, true, false,
    fun i => if i = 7 then 0x70 else if i = 8 then 0x12 else 0x34, []⟩
  obtain ⟨h, hr⟩ := ready_all p rfl
  exact ⟨h, p, hr, by decide +kernel, by decide, by decide +kernel, by decide +kernel⟩
example : ∃ h p, Ready h p ∧ decode (p.mem p.pc) = some .ldax ∧ p.pc.toNat + 1 ≤ 65535 ∧
    p.d ++ p.e = (0x0405 : BitVec 16) ∧ p.mem (p.d ++ p.e) ≠ p.ac := by
  let p : P := ⟨0x55, 0xFF, 3, 4, 5, 7, 6, true, false, fun _ => 0xB0, []⟩
  obtain ⟨h, hr⟩ := ready_all p rfl
  exact ⟨h, p, hr, by decide +kernel, by decide, by decide +kernel, by decide +kernel⟩
example : ∃ h p, Ready h p ∧ decode (p.mem p.pc) = some .stax ∧ p.pc.toNat + 1 ≤ 65535 ∧
    p.d ++ p.e = (0x0405 : BitVec 16) ∧ p.mem (p.d ++ p.e) ≠ p.ac := by
  let p : P := ⟨0x55, 0xFF, 3, 4, 5, 7, 6, true, false, fun _ => 0x90, []⟩
  obtain ⟨h, hr⟩ := ready_all p rfl
  exact ⟨h, p, hr, by decide +kernel, by decide, by decide +kernel, by decide +kernel⟩

/-! ## C07: JMP, BEQ, BC -/

/-- **C07.** JMP continues at the operand address. -/
theorem C07_jmp (u : Bool) (h : H) (p : P) (hr : Ready h p)
    (hd : decode (p.mem p.pc) = some .jmp) : Does u h { p.past 3 with pc := p.target } := by
  have := hr.instr u hd (fun e => by cases e)
  have e : p.instr .jmp = { p.past 3 with pc := p.target } := by
    simp only [P.instr, next_past, address_eq]
  rwa [e] at this

/-- **C07.** BEQ continues at the operand address exactly when FZ is set. -/
theorem C07_beq (u : Bool) (h : H) (p : P) (hr : Ready h p)
    (hd : decode (p.mem p.pc) = some .beq) :
    Does u h { p.past 3 with pc := if p.fz then p.target else p.ahead 3 } := by
  have := hr.instr u hd (fun e => by cases e)
  have e : p.instr .beq = { p.past 3 with pc := if p.fz then p.target else p.ahead 3 } := by
    simp only [P.instr, next_past, address_eq]
    show (if p.fz then _ else _) = _
    by_cases f : p.fz = true
    · rw [if_pos f, if_pos f]
    · rw [if_neg f, if_neg f]; rfl
  rwa [e] at this

/-- **C07.** BC continues at the operand address exactly when FC is set. -/
theorem C07_bc (u : Bool) (h : H) (p : P) (hr : Ready h p)
    (hd : decode (p.mem p.pc) = some .bc) :
    Does u h { p.past 3 with pc := if p.fc then p.target else p.ahead 3 } := by
  have := hr.instr u hd (fun e => by cases e)
  have e : p.instr .bc = { p.past 3 with pc := if p.fc then p.target else p.ahead 3 } := by
    simp only [P.instr, next_past, address_eq]
    show (if p.fc then _ else _) = _
    by_cases f : p.fc = true
    · rw [if_pos f, if_pos f]
    · rw [if_neg f, if_neg f]; rfl
  rwa [e] at this

/-- Branches with the flag set and clear, target different from the next instruction. -/
example (o : BitVec 8) (i : Instr) (hi : decode o = some i) (fc fz : Bool) :
    ∃ h p, Ready h p ∧ decode (p.mem p.pc) = some i ∧ p.pc.toNat + 3 ≤ 65535 ∧
      p.target = 0x1234 ∧ p.fc = fc ∧ p.fz = fz := by
  let p : P := ⟨0x55, 0xFF, 3, 4, 5, 7, 6, fc, fz,
    fun i => if i = 7 then o else if i = 8 then 0x12 else 0x34, []⟩
  obtain ⟨h, hr⟩ := ready_all p rfl
  exact ⟨h, p, hr, hi, by show (7 : BitVec 16).toNat + 3 ≤ _; decide,
    by show ((0x12 : BitVec 8) ++ (0x34 : BitVec 8) : BitVec 16) = 0x1234; decide, rfl, rfl⟩

/-! ## C08: INISP, PUSH, POP -/

/-- **C08.** INISP sets SP. -/
theorem C08_inisp (u : Bool) (h : H) (p : P) (hr : Ready h p)
    (hd : decode (p.mem p.pc) = some .inisp) :
    Does u h ({ p with sp := p.target }.past 3) := by
  have := hr.instr u hd (fun e => by cases e)
  have e : p.instr .inisp = { p with sp := p.target }.past 3 := by
    simp only [P.instr, next_past, address_eq]; rfl
  rwa [e] at this

/-- **C08.** PUSH decrements SP and stores AC at the new SP; no other cell changes. (With SP = 0, which
stays there, it overwrites cell 0.) -/
theorem C08_push (u : Bool) (h : H) (p : P) (hr : Ready h p)
    (hd : decode (p.mem p.pc) = some .push) :
    Does u h { (p.past 1).pushed 1 with mem := fun i => if i = p.below 1 then p.ac else p.mem i } := by
  have := hr.instr u hd (fun e => by cases e)
  have e : p.instr .push =
      { (p.past 1).pushed 1 with mem := fun i => if i = p.below 1 then p.ac else p.mem i } := by
    simp only [P.instr, next_past, down_pushed]; rfl
  rwa [e] at this

/-- **C08.** POP loads AC from the cell at SP and increments SP. (0xFFFF stays.) -/
theorem C08_pop (u : Bool) (h : H) (p : P) (hr : Ready h p)
    (hd : decode (p.mem p.pc) = some .pop) :
    Does u h { (p.past 1).popped 1 with ac := p.mem p.sp } := by
  have := hr.instr u hd (fun e => by cases e)
  have e : p.instr .pop = { (p.past 1).popped 1 with ac := p.mem p.sp } := by
    simp only [P.instr, next_past, up_popped]; rfl
  rwa [e] at this

/-- A machine with SP inside memory, at any of the three instructions. -/
example (o : BitVec 8) (i : Instr) (hi : decode o = some i) :
    ∃ h p, Ready h p ∧ decode (p.mem p.pc) = some i ∧ p.pc.toNat + 3 ≤ 65535 ∧ p.sp = 0x1234 ∧
      p.sp ≠ 0 ∧ p.sp ≠ 0xFFFF ∧ p.ac = 0x55 ∧ p.mem p.sp = 0x77 := by
  let p : P := ⟨0x55, 0xFF, 3, 4, 5, 7, 0x1234, false, true, fun i => if i = 7 then o else 0x77, []⟩
  obtain ⟨h, hr⟩ := ready_all p rfl
  exact ⟨h, p, hr, hi, by show (7 : BitVec 16).toNat + 3 ≤ _; decide, rfl,
    by show (0x1234 : BitVec 16) ≠ 0; decide, by show (0x1234 : BitVec 16) ≠ 0xFFFF; decide, rfl, rfl⟩

/-! ## C09: CALL, RET -/

/-- The memory after a return address `x` was pushed: the high byte first, then the low byte. -/
def withReturn (p : P) (x : BitVec 16) (i : BitVec 16) : BitVec 8 :=
  if i = p.below 2 then BitVec.ofNat 8 (x.toNat % 256)
  else if i = p.below 1 then BitVec.ofNat 8 (x.toNat / 256)
  else p.mem i

/-- PCH and PCL show the two halves of PC (see C31). -/
def Mirror (h : H) : Prop :=
  ∃ x y z : CInt, RegIs h .pch x ∧ RegIs h .pcl y ∧ RegIs h .pc z ∧
    x.toNat * 256 + y.toNat = z.toNat

/-- The same of a visible state. -/
def V.Mirror (v : V) : Prop := v.pch ++ v.pcl = v.pc

theorem At.mirror {h : H} {m : M} (t : At h m) : Mpp.Mirror h ↔ m.v.Mirror := by
  have key : m.v.Mirror ↔ (m.v.reg .pch).toNat * 256 + (m.v.reg .pcl).toNat = (m.v.reg .pc).toNat := by
    show _ ↔ (m.v.pch.setWidth 32).toNat * 256 + (m.v.pcl.setWidth 32).toNat = (m.v.pc.setWidth 32).toNat
    simp only [BitVec.toNat_setWidth]
    unfold V.Mirror
    rw [← BitVec.toNat_inj, BitVec.toNat_append]
    have h1 := m.v.pch.isLt; have h2 := m.v.pcl.isLt; have h3 := m.v.pc.isLt
    rw [← Nat.shiftLeft_add_eq_or_of_lt h2, Nat.shiftLeft_eq]
    omega
  rw [key]
  constructor
  · rintro ⟨x, y, z, hx, hy, hz, e⟩
    rwa [some_inj ((t.reg .pch).symm.trans hx), some_inj ((t.reg .pcl).symm.trans hy),
      some_inj ((t.reg .pc).symm.trans hz)]
  · intro e
    exact ⟨_, _, _, t.reg .pch, t.reg .pcl, t.reg .pc, e⟩

/-- **C09.** CALL stores the address of the following instruction, high byte at SP-1 and low byte
at SP-2, lowers SP by two and continues at the operand address. (A CALL in the last cell, 0xFFFF, where
PC has nowhere to go, stores what is in PCH and PCL. This is 0xFFFF, too, unless the host has just set
PC, see C31.) -/
theorem C09_call (u : Bool) (h : H) (p : P) (hr : Ready h p)
    (hd : decode (p.mem p.pc) = some .call) (hpc : p.pc = 0xFFFF → Mirror h) :
    Does u h { (p.past 3).pushed 2 with pc := p.target, mem := withReturn p (p.ahead 3) } := by
  have : Does u h (p.instr .call) := by
    obtain ⟨v, t, rfl⟩ := hr.at
    obtain ⟨h', e1, _, e3⟩ := hr.run t u
    have hd' : decode (v.mem v.pc) = some .call := hd
    have hp : pathOf (v.mem v.pc) v.fc v.fz = Instr.call.path v.fc v.fz := by
      unfold pathOf; rw [hd']
    rw [hp, isa_sim v .call hd' (fun _ e => (t.mirror).1 (hpc e))] at e3
    exact ⟨_, h', e1, e3⟩
  have e : p.instr .call =
      { (p.past 3).pushed 2 with pc := p.target, mem := withReturn p (p.ahead 3) } := by
    have hh : ∀ x : BitVec 16, x.extractLsb' 8 8 = BitVec.ofNat 8 (x.toNat / 256) := fun x => by
      apply BitVec.eq_of_toNat_eq
      simp [BitVec.extractLsb', Nat.shiftRight_eq_div_pow]
    have hl : ∀ x : BitVec 16, x.extractLsb' 0 8 = BitVec.ofNat 8 (x.toNat % 256) := fun x => by
      apply BitVec.eq_of_toNat_eq
      simp [BitVec.extractLsb']
    have st : ∀ (q : P) (a : BitVec 16) (x : BitVec 8), (q.store a x).down = q.down.store a x := by
      intro q a x; unfold P.down P.store; split <;> rfl
    simp only [P.instr, next_past, address_eq, st, down_pushed, pushed_pushed, hh, hl]
    rfl
  rwa [e] at this

/-- **C09.** In any case a CALL in the last cell stores what is in PCH and PCL. -/
theorem C09_last (u : Bool) (h : H) (p : P) (hr : Ready h p)
    (hd : decode (p.mem p.pc) = some .call) (hpc : p.pc = 0xFFFF) (x y : BitVec 8)
    (hx : RegIs h .pch (x.setWidth 32)) (hy : RegIs h .pcl (y.setWidth 32)) :
    Does u h { (p.past 3).pushed 2 with
      pc := p.target, mem := fun i => if i = p.below 2 then y else if i = p.below 1 then x else p.mem i } := by
  obtain ⟨v, t, rfl⟩ := hr.at
  obtain ⟨h', e1, _, e3⟩ := hr.run t u
  have hd' : decode (v.mem v.pc) = some .call := hd
  have hp : pathOf (v.mem v.pc) v.fc v.fz = Instr.call.path v.fc v.fz := by
    unfold pathOf; rw [hd']
  have byte : ∀ {a b : BitVec 8}, a.setWidth 32 = b.setWidth 32 → a = b := fun {a b} e => by
    have := congrArg (BitVec.setWidth 8) e
    simpa using this
  have ex : v.pch = x := byte (some_inj ((t.reg .pch).symm.trans hx))
  have ey : v.pcl = y := byte (some_inj ((t.reg .pcl).symm.trans hy))
  have hv : v.pc = 0xFFFF := hpc
  have key : (v.follow (0 :: Instr.call.path v.fc v.fz)).prog =
      let q := v.prog.next.next.next.down
      let q := (q.store q.sp x).down
      { q.store q.sp y with pc := v.prog.next.address.1 } := by
    clear hd hd' hp e1 e3 t hr hx hy hpc byte
    simp only [Instr.path]
    micro
    simp only [if_true]
    rfl
  rw [hp, key] at e3
  have st : ∀ (q : P) (a : BitVec 16) (x : BitVec 8), (q.store a x).down = q.down.store a x := by
    intro q a x; unfold P.down P.store; split <;> rfl
  have n3 : v.prog.next.next.next = v.prog.past 3 := by rw [next_past v.prog, past_next, past_next]
  simp only [n3] at e3
  simp only [next_past, address_eq, st, down_pushed, pushed_pushed] at e3
  exact ⟨_, h', e1, e3⟩

/-- **C09.** RET reloads PC from the two cells at SP (low byte first) and raises SP by two. -/
theorem C09_ret (u : Bool) (h : H) (p : P) (hr : Ready h p)
    (hd : decode (p.mem p.pc) = some .ret) :
    Does u h { (p.past 1).popped 2 with
      pc := BitVec.ofNat 16 ((p.mem (p.above 1)).toNat * 256 + (p.mem p.sp).toNat) } := by
  have := hr.instr u hd (fun e => by cases e)
  have e : p.instr .ret = { (p.past 1).popped 2 with
      pc := BitVec.ofNat 16 ((p.mem (p.above 1)).toNat * 256 + (p.mem p.sp).toNat) } := by
    simp only [P.instr, next_past, up_popped, popped_popped, append_eq]
    rfl
  rwa [e] at this

/-- Sixteen bits from their two bytes. -/
theorem bytes_join (x : BitVec 16) :
    BitVec.ofNat 16 ((BitVec.ofNat 8 (x.toNat / 256)).toNat * 256 +
      (BitVec.ofNat 8 (x.toNat % 256)).toNat) = x := by
  apply BitVec.eq_of_toNat_eq
  have := x.isLt
  simp only [BitVec.toNat_ofNat]
  omega

/-- **C09.** A RET reached with SP and the two stack cells as the CALL left them resumes right
after the CALL, with SP as it was before it. -/
theorem C09_return (u : Bool) (h : H) (p : P) (hr : Ready h p)
    (hd : decode (p.mem p.pc) = some .call) (hpc : p.pc = 0xFFFF → Mirror h)
    (hsp : 2 ≤ p.sp.toNat) :
    ∃ p1, Does u h p1 ∧ ∀ h2 p2, Ready h2 p2 → p2.sp = p1.sp →
      p2.mem p1.sp = p1.mem p1.sp → p2.mem (p1.sp + 1) = p1.mem (p1.sp + 1) →
      decode (p2.mem p2.pc) = some .ret →
      Does u h2 { p2.past 1 with pc := p.ahead 3, sp := p.sp } := by
  refine ⟨_, C09_call u h p hr hd hpc, fun h2 p2 hr2 es e0 e1 hd2 => ?_⟩
  have hlt := p.sp.isLt
  have b1 : p.below 1 = p.sp - 1 := (p.pushed_room 1 (by omega)).1
  have b2 : p.below 2 = p.sp - 2 := (p.pushed_room 2 hsp).1
  have es' : p2.sp = p.sp - 2 := es.trans b2
  have hs2 : p2.sp.toNat + 2 = p.sp.toNat := by
    rw [es']
    simp only [BitVec.toNat_sub, BitVec.ofNat_eq_ofNat, BitVec.toNat_ofNat]
    omega
  have s1 : p.sp - 2 + 1 = p.sp - 1 := by
    apply BitVec.eq_of_toNat_eq
    simp only [BitVec.toNat_sub, BitVec.toNat_add, BitVec.ofNat_eq_ofNat, BitVec.toNat_ofNat]
    omega
  have s2 : p.sp - 2 + 2 = p.sp := BitVec.sub_add_cancel p.sp 2
  have ne : p.sp - 1 ≠ p.sp - 2 := fun e => by
    have := congrArg BitVec.toNat e
    simp only [BitVec.toNat_sub, BitVec.ofNat_eq_ofNat, BitVec.toNat_ofNat] at this
    omega
  have e0' : p2.mem (p.sp - 2) = withReturn p (p.ahead 3) (p.sp - 2) := by
    have : p2.mem (p.below 2) = withReturn p (p.ahead 3) (p.below 2) := e0
    rwa [b2] at this
  have e1' : p2.mem (p.sp - 1) = withReturn p (p.ahead 3) (p.sp - 1) := by
    have : p2.mem (p.below 2 + 1) = withReturn p (p.ahead 3) (p.below 2 + 1) := e1
    rwa [b2, s1] at this
  have r := C09_ret u h2 p2 hr2 hd2
  have a1 : p2.above 1 = p.sp - 1 := by rw [(p2.popped_room 1 (by omega)).1, es']; exact s1
  have a2 := ((p2.past 1).popped_room 2 (show p2.sp.toNat + 2 ≤ _ by omega)).2
  have a3 : (p2.past 1).sp + BitVec.ofNat 16 2 = p.sp := by
    show p2.sp + 2 = p.sp
    rw [es', s2]
  have m0 : withReturn p (p.ahead 3) (p.sp - 2) = BitVec.ofNat 8 ((p.ahead 3).toNat % 256) := by
    rw [withReturn, b2, if_pos rfl]
  have m1 : withReturn p (p.ahead 3) (p.sp - 1) = BitVec.ofNat 8 ((p.ahead 3).toNat / 256) := by
    rw [withReturn, b1, b2, if_neg ne, if_pos rfl]
  rw [a1, e1', m1, es', e0', m0, bytes_join, a2, a3] at r
  exact r

/-- `CALL 1234` at 7 with SP = 0x2000; and a RET at 0x1234 with the stack the CALL left. -/
example : ∃ h p, Ready h p ∧ decode (p.mem p.pc) = some .call ∧ p.pc.toNat + 3 ≤ 65535 ∧
    2 ≤ p.sp.toNat ∧ p.target = 0x1234 ∧ decode (p.mem p.target) = some .ret ∧
    p.target.toNat + 1 ≤ 65535 := by
  let p : P := ⟨0x55, 0xFF, 3, 4, 5, 7, 0x2000, true, false,
    fun i => if i = 7 then 0xC4 else if i = 8 then 0x12 else if i = 9 then 0x34 else 0xC5, []⟩
  obtain ⟨h, hr⟩ := ready_all p rfl
  exact ⟨h, p, hr, by decide +kernel, by decide, by decide, by decide +kernel, by decide +kernel,
    by decide +kernel⟩
example : ∃ h p, Ready h p ∧ decode (p.mem p.pc) = some .ret ∧ p.pc.toNat + 1 ≤ 65535 ∧
    p.sp.toNat + 2 ≤ 65535 ∧ p.mem p.sp ≠ p.mem (p.sp + 1) := by
  let p : P := ⟨0x55, 0xFF, 3, 4, 5, 7, 0x1FFE, true, false,
    fun i => if i = 7 then 0xC5 else if i = 0x1FFE then 0x12 else 0x34, []⟩
  obtain ⟨h, hr⟩ := ready_all p rfl
  exact ⟨h, p, hr, by decide +kernel, by decide, by decide, by decide +kernel⟩

/-- `CALL C4C4` with the last two cells of memory, and SP at the bottom: 0xFFFF is pushed, one error for
SP and two for PC are reported. -/
example : ∃ h p, Ready h p ∧ decode (p.mem p.pc) = some .call ∧ p.pc = 0xFFFE ∧ p.sp = 1 ∧
    p.target = 0xC4C4 ∧ p.ahead 3 = 0xFFFF ∧ p.below 2 = 0 ∧
    ((p.past 3).pushed 2).errs = [.spOverflow, .pcOverflow, .pcOverflow] := by
  let p : P := ⟨0x55, 0xFF, 3, 4, 5, 0xFFFE, 1, true, false, fun _ => 0xC4, []⟩
  obtain ⟨h, hr⟩ := ready_all p rfl
  exact ⟨h, p, hr, by decide +kernel, rfl, rfl, by decide +kernel, by decide +kernel, by decide +kernel,
    by decide +kernel⟩

/-! ## C10: IRET -/

/-- **C10.** IRET loads PC from the two cells at SP, FC and FZ from bits 7 and 0 of the third, and
raises SP by three. -/
theorem C10_iret (u : Bool) (h : H) (p : P) (hr : Ready h p)
    (hd : decode (p.mem p.pc) = some .iret) :
    Does u h { (p.past 1).popped 3 with
      pc := BitVec.ofNat 16 ((p.mem (p.above 1)).toNat * 256 + (p.mem p.sp).toNat)
      fc := decide ((p.mem (p.above 2)).toNat / 128 = 1)
      fz := decide ((p.mem (p.above 2)).toNat % 2 = 1) } := by
  have := hr.instr u hd (fun e => by cases e)
  have e : p.instr .iret = { (p.past 1).popped 3 with
      pc := BitVec.ofNat 16 ((p.mem (p.above 1)).toNat * 256 + (p.mem p.sp).toNat)
      fc := decide ((p.mem (p.above 2)).toNat / 128 = 1)
      fz := decide ((p.mem (p.above 2)).toNat % 2 = 1) } := by
    have bits : ∀ x : BitVec 8, x.getLsbD 7 = decide (x.toNat / 128 = 1) ∧
        x.getLsbD 0 = decide (x.toNat % 2 = 1) := by decide +kernel
    simp only [P.instr, next_past, up_popped, popped_popped, append_eq, bits]
    rfl
  rwa [e] at this

/-- IRET with a flag byte 0x81 under the return address. -/
example : ∃ h p, Ready h p ∧ decode (p.mem p.pc) = some .iret ∧ p.pc.toNat + 1 ≤ 65535 ∧
    p.sp.toNat + 3 ≤ 65535 ∧ p.mem (p.sp + 2) = 0x81 ∧ p.fc = false := by
  let p : P := ⟨0x55, 0xFF, 3, 4, 5, 7, 0x1FFD, false, false,
    fun i => if i = 7 then 0xC0 else if i = 0x1FFD then 0x12 else if i = 0x1FFE then 0x34 else 0x81, []⟩
  obtain ⟨h, hr⟩ := ready_all p rfl
  exact ⟨h, p, hr, by decide +kernel, by decide, by decide, by decide +kernel, rfl⟩

end Mpp
