import Verif.Loader
import Verif.History
/-!
# Opcodes outside the operation table
-/
namespace Mpp

theorem gOf_sel : ∀ o : BitVec 8,
    (gOf o = .b ∧ o.extractLsb' 0 2 = 0) ∨ (gOf o = .c ∧ o.extractLsb' 0 2 = 1) ∨
    (gOf o = .d ∧ o.extractLsb' 0 2 = 2) ∨ (gOf o = .e ∧ o.extractLsb' 0 2 = 3) := by
  decide +kernel

/-- The kinds of opcodes outside the table. -/
def undefCheck (o : BitVec 8) : Bool :=
  match undefinedOp o with
  | .alias i => decide (i = .alu .add (.reg (gOf o)) ∨ i ∈ [.alu .and .ac, .alu .or .ac, .alu .xor .ac,
      .inc .ac, .alu .and .imm, .alu .or .imm, .alu .xor .imm, .stax, .ldax])
  | .inert l => decide (l = [1] ∨ l = [1, 2] ∨ l = [1, 15])

theorem undefCheck_all : ∀ o : BitVec 8, undefCheck o = true := by decide +kernel

/-- An alias does what the documented instruction does. -/
theorem alias_sim (v : V) (i : Instr) (h : undefinedOp (v.mem v.pc) = .alias i) :
    (v.follow (0 :: i.path v.fc v.fz)).prog = v.prog.instr i := by
  have c := undefCheck_all (v.mem v.pc)
  unfold undefCheck at c
  rw [h] at c
  have c := of_decide_eq_true c
  clear h
  rcases c with rfl | c
  · simp only [Instr.path]
    rcases gOf_sel (v.mem v.pc) with ⟨h1, h2⟩ | ⟨h1, h2⟩ | ⟨h1, h2⟩ | ⟨h1, h2⟩ <;> rw [h1] <;> clear h1 <;>
      micro <;> (try simp (config := { decide := true }) only [if_true, if_false]) <;>
      (try simp only [carry_eq])
  · simp only [List.mem_cons, List.not_mem_nil, or_false] at c
    rcases c with rfl | rfl | rfl | rfl | rfl | rfl | rfl | rfl | rfl <;> simp only [Instr.path] <;>
      micro <;> (try simp only [upd_fun])

/-- The microprograms of the opcodes that do nothing. -/
theorem inert_paths (o : BitVec 8) (l : List (BitVec 6)) (h : undefinedOp o = .inert l) :
    l = [1] ∨ l = [1, 2] ∨ l = [1, 15] := by
  have c := undefCheck_all o
  unfold undefCheck at c
  rw [h] at c
  exact of_decide_eq_true c

/-- Registers that an opcode without effect may change. -/
def WType.scratch : WType → Bool
  | .pc | .pch | .pcl | .ri | .op2 => true
  | _ => false

theorem incPc_reg (v : V) (t : WType) (ht : t.scratch = false) : v.incPc.reg t = v.reg t := by
  unfold V.incPc V.setPc
  split <;> cases t <;> first | rfl | cases ht

theorem incPc_mem (v : V) : v.incPc.mem = v.mem := by
  unfold V.incPc V.setPc; split <;> rfl

/-- An opcode without effect changes PC, RI and 2OP only. -/
theorem inert_sim (v : V) (l : List (BitVec 6)) (h : l = [1] ∨ l = [1, 2] ∨ l = [1, 15]) :
    (∀ t : WType, t.scratch = false → (v.follow (0 :: l)).reg t = v.reg t) ∧
    (v.follow (0 :: l)).mem = v.mem ∧
    ((v.follow (0 :: l)).prog = v.prog.next ∨ (v.follow (0 :: l)).prog = v.prog.next.next) := by
  have h0 : ∀ v : V, v.rtl 0 = { v with ri := v.mem v.pc }.incPc := fun _ => rfl
  have hn : ∀ v : V, v.incPc.prog = v.prog.next := fun v => by
    rw [V.incPc_eq, P.next_eq]; rfl
  rcases h with rfl | rfl | rfl
  · refine ⟨fun t ht => ?_, ?_, .inl ?_⟩
    · exact (incPc_reg _ t ht).trans (by cases t <;> first | rfl | cases ht)
    · exact incPc_mem _
    · exact hn _
  · refine ⟨fun t ht => ?_, ?_, .inl ?_⟩
    · show V.reg { ({ v with ri := v.mem v.pc } : V).incPc with op2 := _ } t = _
      exact Eq.trans (by cases t <;> first | rfl | cases ht)
        ((incPc_reg _ t ht).trans (by cases t <;> first | rfl | cases ht))
    · exact incPc_mem _
    · exact hn _
  · refine ⟨fun t ht => ?_, ?_, .inr ?_⟩
    · show V.reg ({ ({ v with ri := v.mem v.pc } : V).incPc with op2 := _ } : V).incPc t = _
      exact (incPc_reg _ t ht).trans (Eq.trans (by cases t <;> first | rfl | cases ht)
        ((incPc_reg _ t ht).trans (by cases t <;> first | rfl | cases ht)))
    · exact (incPc_mem _).trans (incPc_mem _)
    · exact (hn _).trans (congrArg P.next (hn _))

end Mpp
