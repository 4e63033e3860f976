import Verif.Props.Cpu
/-!
# Runs of programs, in the programmer's view

Rules to follow a program instruction by instruction.
-/
namespace Mpp

/-- The instruction set leads from `p` to `q`, without FIN. -/
def Runs (p q : P) : Prop := ∃ k, p.run k = some q

theorem Runs.refl (p : P) : Runs p p := ⟨0, rfl⟩

theorem Runs.step {p p' q : P} (h : p.step = some p') (r : Runs p' q) : Runs p q := by
  obtain ⟨k, e⟩ := r
  exact ⟨k + 1, by rw [P.run, h]; exact e⟩

theorem Runs.trans {p q r : P} (h1 : Runs p q) (h2 : Runs q r) : Runs p r := by
  obtain ⟨k, e⟩ := h1
  induction k generalizing p with
  | zero => cases e; exact h2
  | succ k ih =>
    rw [P.run] at e
    cases hs : p.step with
    | none => rw [hs] at e; cases e
    | some p' =>
      rw [hs] at e
      exact .step hs (ih e)

theorem P.step_of {p : P} (i : Instr) (hd : decode (p.mem p.pc) = some i) (hf : i ≠ .fin)
    (hc : i = .call → p.pc ≠ 0xFFFF) : p.step = some (p.instr i) := by
  unfold P.step
  rw [hd]
  split
  · rename_i h; cases h
  · rename_i h; cases h; exact absurd rfl hf
  · rename_i h
    cases h
    rw [if_neg]
    rintro ⟨h1, h2⟩
    exact hc h1 h2

/-- One instruction: `op` is the opcode at PC. -/
theorem Runs.next {p p' q : P} {op : BitVec 8} (i : Instr) (ho : p.mem p.pc = op)
    (hd : decode op = some i) (hf : i ≠ .fin) (hc : i = .call → p.pc ≠ 0xFFFF) (he : p.instr i = p')
    (r : Runs p' q) : Runs p q :=
  .step (P.step_of i (by rw [ho]; exact hd) hf hc) (by rw [he]; exact r)

section
variable (ac b c d e : BitVec 8) (pc sp : BitVec 16) (fc fz : Bool) (mem : BitVec 16 → BitVec 8)
  (errs : List Err)

theorem P.next_mk : P.next ⟨ac, b, c, d, e, pc, sp, fc, fz, mem, errs⟩ =
    if pc = 0xFFFF then ⟨ac, b, c, d, e, pc, sp, fc, fz, mem, .pcOverflow :: errs⟩
    else ⟨ac, b, c, d, e, pc + 1, sp, fc, fz, mem, errs⟩ := rfl

theorem P.down_mk : P.down ⟨ac, b, c, d, e, pc, sp, fc, fz, mem, errs⟩ =
    if sp = 0 then ⟨ac, b, c, d, e, pc, sp, fc, fz, mem, .spOverflow :: errs⟩
    else ⟨ac, b, c, d, e, pc, sp - 1, fc, fz, mem, errs⟩ := rfl

theorem P.up_mk : P.up ⟨ac, b, c, d, e, pc, sp, fc, fz, mem, errs⟩ =
    if sp = 0xFFFF then ⟨ac, b, c, d, e, pc, sp, fc, fz, mem, .spOverflow :: errs⟩
    else ⟨ac, b, c, d, e, pc, sp + 1, fc, fz, mem, errs⟩ := rfl

end

/-- Follow one instruction: its name, the fact that its opcode is at PC, and facts for the operand. -/
macro "follow " i:term:max f:term:max "[" ls:Lean.Parser.Tactic.simpLemma,* "]" : tactic =>
  `(tactic| refine Runs.next $i $f (by decide +kernel) (by decide) (by simp) (by
      simp [P.instr, P.next_mk, P.up_mk, P.down_mk, P.operand, P.byte, P.set, P.setReg, P.reg,
        P.getDest, P.aluOp, P.address, P.store, P.top, $ls,*]; rfl) ?_)

end Mpp
