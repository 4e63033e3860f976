import Verif.Panel
import Verif.History
/-!
# The texts of the panel of microstates, read as register transfers
-/
namespace Mpp

theorem At.sees {h : H} {m : M} (t : At h m) : Sees h m.v := ⟨t.reg, t.mem⟩

/-- The register that a field of two bits stands for. -/
def bankG (i : BitVec 2) : G := if i = 0 then .b else if i = 1 then .c else if i = 2 then .d else .e

theorem V.r_bankG (v : V) (i : BitVec 2) : v.gReg (bankG i) = v.r i := by
  revert i
  have : ∀ i : BitVec 2, i = 0 ∨ i = 1 ∨ i = 2 ∨ i = 3 := by decide
  intro i
  rcases this i with rfl | rfl | rfl | rfl <;> rfl

theorem V.setG_bankG (v : V) (i : BitVec 2) (x : BitVec 8) : v.setG (bankG i) x = v.setR i x := by
  revert i
  have : ∀ i : BitVec 2, i = 0 ∨ i = 1 ∨ i = 2 ∨ i = 3 := by decide
  intro i
  rcases this i with rfl | rfl | rfl | rfl <;> rfl

/-- In the microstates that use a register field, it is RF or RD of the instruction in RI. -/
def fieldOk (o : BitVec 8) (k : BitVec 6) : Bool :=
  match decode o with
  | none => true
  | some i =>
    if k = 2 then i.rf = some (bankG (o.extractLsb' 0 2))
    else if k = 3 then i.rd = some (bankG (o.extractLsb' 2 2))
    else if k = 8 ∨ k = 39 ∨ k = 44 then i.rd = some (bankG (o.extractLsb' 0 2))
    else true

theorem field_ok : ∀ o : BitVec 8, ∀ fc fz : Bool, ∀ k ∈ pathOf o fc fz, fieldOk o k = true := by
  decide +kernel

def regStates : List Nat := [2, 3, 8, 39, 44]

theorem texts : (stateDetails.map fun r => transfersOf r.op) =
  [some [(.ri, .atPC), (.pc, .pcInc)], some [], some [(.op2, .rf)], some [(.rd, .op2)],
   some [(.ac, .op2)], some [(.ac, .add)], some [(.ac, .sub)], some [], some [(.rd, .op2Inc)],
   some [(.ac, .and)], some [(.ac, .or)], some [(.ac, .xor)], some [(.op2, .ac)],
   some [(.ac, .op2Inc)], some [(.ac, .not)], some [(.op2, .atPC), (.pc, .pcInc)],
   some [(.h, .atPC), (.pc, .pcInc)], some [(.l, .atPC), (.pc, .pcInc)], some [(.op2, .atHL)],
   some [(.atHL, .op2)], some [(.pc, .hl)], some [(.h, .d)], some [(.l, .e)], some [(.ac, .flags)],
   some [(.flags, .ac)], none, some [(.sp, .spDec)], some [(.atSP, .flags)], some [(.atSP, .pch)],
   some [(.atSP, .pcl)], none, some [(.sp, .spInc)], some [(.pcl, .atSP)], some [(.pch, .atSP)],
   some [(.flags, .atSP)], some [], some [(.atSP, .ac)], some [(.ac, .atSP)], some [(.sp, .hl)],
   some [(.rd, .op2)], some [(.sp, .spDec)], some [(.sp, .spInc)], some [(.sp, .spDec)],
   some [(.sp, .spInc)], some [(.rd, .op2)]] := by decide +kernel

theorem flagTexts : (stateDetails.map fun r => decide (r.op = "AC-2OP")) =
  (List.range 45).map fun k => decide (k = 7) := by decide +kernel

theorem ite_dec {α : Type} (p : Prop) [Decidable p] (a b : α) :
    (if decide p = true then a else b) = if p then a else b := by
  by_cases h : p <;> simp [h]

theorem transfers_pc (i : Option Instr) (v w : V) : transfers i v [(.pc, .pcInc)] w =
    some (if v.pc = 0xFFFF then w else w.setPc (v.pc + 1)) := by
  show (if decide (v.pc = 0xFFFF) = true then some w else some _).bind some = _
  rw [ite_dec]; split <;> rfl

theorem transfers_inc (i : Option Instr) (v : V) : transfers i v [(.sp, .spInc)] v =
    some (if v.sp = 0xFFFF then v else { v with sp := v.sp + 1 }) := by
  show (if decide (v.sp = 0xFFFF) = true then some v else some _).bind some = _
  rw [ite_dec]; split <;> rfl

theorem transfers_dec (i : Option Instr) (v : V) : transfers i v [(.sp, .spDec)] v =
    some (if v.sp = 0 then v else { v with sp := v.sp - 1 }) := by
  show (if decide (v.sp = 0) = true then some v else some _).bind some = _
  rw [ite_dec]; split <;> rfl

/-- The same registers, flags and memory. -/
def V.But (v w : V) : Prop :=
  v = { w with log := v.log, fc := if false then v.fc else w.fc, fz := if false then v.fz else w.fz }

theorem incPc_eq (v w : V) (h : w.pc = v.pc) :
    w.incPc.But (if v.pc = 0xFFFF then w else w.setPc (v.pc + 1)) := by
  unfold V.But V.incPc
  rw [← h]; split <;> rfl

theorem incSp_eq (v : V) : v.incSp.But (if v.sp = 0xFFFF then v else { v with sp := v.sp + 1 }) := by
  unfold V.But V.incSp
  split <;> rfl

theorem decSp_eq (v : V) : v.decSp.But (if v.sp = 0 then v else { v with sp := v.sp - 1 }) := by
  unfold V.But V.decSp
  split <;> rfl

/-- Every text says what its microstate does. -/
theorem told_rtl (v : V) (k : Nat) (hk : k < 45) (hb : k ∉ [25, 27, 30, 42]) (i : Option Instr)
    (h2 : k = 2 → i.bind Instr.rf = some (bankG v.lowSel))
    (h3 : k = 3 → i.bind Instr.rd = some (bankG v.highSel))
    (h8 : k = 8 ∨ k = 39 ∨ k = 44 → i.bind Instr.rd = some (bankG v.lowSel)) :
    ∃ r, stateDetails[k]? = some r ∧ Told i r.op v (v.rtl k) := by
  have hl : k < stateDetails.length := hk
  refine ⟨stateDetails[k], List.getElem?_eq_getElem hl, ?_⟩
  have e : transfersOf stateDetails[k].op = (stateDetails.map fun r => transfersOf r.op)[k]'(by simpa using hl) := by
    simp
  have f : decide (stateDetails[k].op = "AC-2OP") = decide (k = 7) := by
    have : decide (stateDetails[k].op = "AC-2OP") =
      (stateDetails.map fun r => decide (r.op = "AC-2OP"))[k]'(by simpa using hl) := by simp
    rw [this]; simp only [flagTexts]; simp
  unfold Told setsFlags
  rw [e, f]
  simp only [texts]
  clear e f
  unfold V.rtl
  split <;> first
    | exact absurd (by decide) hb
    | exact ⟨_, _, rfl, rfl, rfl⟩
    | exact ⟨_, _, rfl, transfers_pc i v { v with ri := v.mem v.pc }, incPc_eq v _ rfl⟩
    | exact ⟨_, _, rfl, transfers_pc i v { v with op2 := v.mem v.pc }, incPc_eq v _ rfl⟩
    | exact ⟨_, _, rfl, transfers_pc i v { v with h := v.mem v.pc }, incPc_eq v _ rfl⟩
    | exact ⟨_, _, rfl, transfers_pc i v { v with l := v.mem v.pc }, incPc_eq v _ rfl⟩
    | exact ⟨_, _, rfl, transfers_inc i v, incSp_eq v⟩
    | exact ⟨_, _, rfl, transfers_dec i v, decSp_eq v⟩
    | (refine ⟨[(.op2, .rf)], { v with op2 := v.r v.lowSel }, rfl, ?_, rfl⟩
       show (((i.bind Instr.rf).map v.gReg).map fun x => { v with op2 := x }).bind some = _
       rw [h2 rfl, ← V.r_bankG]; rfl)
    | (refine ⟨[(.rd, .op2)], v.setR v.highSel v.op2, rfl, ?_, rfl⟩
       show ((i.bind Instr.rd).bind fun g => some (v.setG g v.op2)).bind some = _
       rw [h3 rfl, ← V.setG_bankG]; rfl)
    | (refine ⟨[(.rd, .op2)], v.setR v.lowSel v.op2, rfl, ?_, rfl⟩
       show ((i.bind Instr.rd).bind fun g => some (v.setG g v.op2)).bind some = _
       rw [h8 (by simp), ← V.setG_bankG]; rfl)
    | (refine ⟨[(.rd, .op2Inc)], v.setR v.lowSel (v.op2 + 1), rfl, ?_, rfl⟩
       show ((i.bind Instr.rd).bind fun g => some (v.setG g (v.op2 + 1))).bind some = _
       rw [h8 (by simp), ← V.setG_bankG]; rfl)
    | (exfalso; simp only [imp_false] at *; omega)
end Mpp
