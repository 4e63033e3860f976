import Verif.Front.Docs
/-!
# The programs of the documentation: multiplication with the result starting at 0

The text is the solution in `docs/src/pages/es/examples/multiplication.mdx:69` ("Mejoras"), with the two
numbers left open.
-/
namespace Mpp.Front

/-- The lines after the two numbers. -/
def product0Rest : List Str :=
  ["", "INISP 1234", "MOV 0, AC # <====", "PUSH", "", "TSTART MOV RC, AC", "CMP 00 # <====", "BEQ TFIN",
    "POP", "ADD RB", "PUSH", "MOV RC, AC", "SUB 01", "MOV AC, RC", "JMP TSTART", "TFIN POP", "FIN"].map
    String.toList

/-- The text, line by line, with `x` and `y` in place of `05` and `03`. -/
def product0Text (x y : Str) : Str :=
  join '\n' (["MOV ".toList ++ x ++ ", RB".toList] ++ (["MOV ".toList ++ y ++ ", RC".toList] ++ product0Rest))

/-- The statements from `INISP` on. -/
def product0Tail : List (Stmt × Str) :=
  [(⟨none, .inisp, .num 0x1234⟩, "1234".toList), (⟨none, .mov .imm .ac, .num 0x0⟩, "0".toList),
    (⟨none, .push, .none⟩, []), (⟨some "TSTART".toList, .mov (.reg .c) .ac, .none⟩, []),
    (⟨none, .alu .cmp .imm, .num 0x0⟩, "00".toList),
    (⟨none, .beq, .label "TFIN".toList⟩, "TFIN".toList), (⟨none, .pop, .none⟩, []),
    (⟨none, .alu .add (.reg .b), .none⟩, []), (⟨none, .push, .none⟩, []),
    (⟨none, .mov (.reg .c) .ac, .none⟩, []), (⟨none, .alu .sub .imm, .num 0x1⟩, "01".toList),
    (⟨none, .mov .ac (.reg .c), .none⟩, []), (⟨none, .jmp, .label "TSTART".toList⟩, "TSTART".toList),
    (⟨some "TFIN".toList, .pop, .none⟩, []), (⟨none, .fin, .none⟩, [])]

def product0Prog (a b : BitVec 8) : List Stmt :=
  ⟨none, .mov .imm (.reg .b), .num a.toNat⟩ :: ⟨none, .mov .imm (.reg .c), .num b.toNat⟩ ::
    product0Tail.map (·.1)

def product0Code (x y : BitVec 8) : List (List (BitVec 8)) :=
  [[0x60, x], [0x61, y], [0xC3, 0x12, 0x34], [0x64, 0x00], [0xC1], [0x11], [0x67, 0x00],
    [0x72, 0x00, 0x1A], [0xC2], [0x30], [0xC1], [0x11], [0x66, 0x01], [0x41], [0x74, 0x00, 0x0A],
    [0xC2], [0xFF]]

theorem product0_line (x : Str) (g : G) : "MOV ".toList ++ x ++ (", ".toList ++ G.name g) =
    textOf (.mov .imm (.reg g)) x ++ [] ++ [] := by
  simp only [textOf, syntaxOf, Slot.ofOperand, Slot.ofDest, Slot.text]
  have e1 : "MOV ".toList = "MOV".toList ++ [' '] := by decide
  have e2 : ", ".toList = [',', ' '] := by decide
  rw [e1, e2]
  simp only [List.append_assoc, List.cons_append, List.nil_append, List.append_nil]

theorem product0_source {x y : Str} {a b : BitVec 8} (hx : ByteText x a) (hy : ByteText y b) :
    Source (product0Text x y) (product0Prog a b) := by
  refine TextPart.source ?_ (by simp)
  have e1 : ", RB".toList = ", ".toList ++ G.name .b := by decide +kernel
  have e2 : ", RC".toList = ", ".toList ++ G.name .c := by decide +kernel
  rw [e1, e2, product0_line, product0_line]
  exact (TextPart.byte hx rfl [] [] (by simp) (by simp) (.inl rfl) (by simp)).append
    ((TextPart.byte hy rfl [] [] (by simp) (by simp) (.inl rfl) (by simp)).append
    (TextPart.fixed product0Tail (by decide +kernel) (by decide +kernel) (by decide +kernel) (by decide +kernel)))

theorem product0_labels (a b : BitVec 8) (l : Str) :
    labelAddr (product0Prog a b) l = labelAddr (product0Prog 0 0) l := rfl

theorem product0_code (a b : BitVec 8) : Code (product0Prog a b) (product0Code a b) := by
  refine .cons (stmtCode_byte _ _ _ _ _ (by decide +kernel) rfl)
    (.cons (stmtCode_byte _ _ _ _ _ (by decide +kernel) rfl) (codeOk_sound ?_))
  rw [codeOk_congr (product0_labels a b)]
  decide +kernel

theorem product0_valid (a b : BitVec 8) :
    Valid (product0Prog a b) ∧ LabelsAreAddresses (product0Prog a b) :=
  ⟨Valid.append (show Valid [⟨none, .mov .imm (.reg .b), .num a.toNat⟩, ⟨none, .mov .imm (.reg .c), .num b.toNat⟩] by
      intro st hst
      simp only [List.mem_cons, List.not_mem_nil, or_false] at hst
      rcases hst with rfl | rfl
      · exact a.isLt
      · exact b.isLt) (by decide +kernel),
    LabelsAreAddresses.append (show LabelsAreAddresses [⟨none, .mov .imm (.reg .b), .num a.toNat⟩,
        ⟨none, .mov .imm (.reg .c), .num b.toNat⟩] by
      intro st hst l hl
      simp only [List.mem_cons, List.not_mem_nil, or_false] at hst
      rcases hst with rfl | rfl <;> cases hl) (by decide +kernel)⟩

theorem product0_runs {m : BitVec 16 → BitVec 8} {m0 : BitVec 16 → BitVec 8} {x y : BitVec 8}
    (w : Written m0 0 (product0Code x y).flatten m) (p : P) :
    Runs { p with mem := m, pc := 0 }
      { p with mem := put m 0x1233 (x * y), pc := 0x1B, sp := 0x1234, ac := x * y, b := x, c := 0,
               fz := true, fc := false } := by
  have H := Holds.of_written w
  have Q : ∀ v, Holds (product0Code x y).flatten (put m 0x1233 v) := fun v => H.put v (by simp [product0Code]) (by decide)
  obtain ⟨ac, b, c, d, e, pc, sp, fc, fz, mem, errs⟩ := p
  have loop : ∀ (k : Nat) (ac c acc : BitVec 8) (fc fz : Bool), c.toNat = k →
      Runs ⟨ac, x, c, d, e, 0x0A#16, BitVec.ofNat 16 0x1233, fc, fz, put m 0x1233 acc, errs⟩
        ⟨acc + x * c, x, 0#8, d, e, 0x1B#16, BitVec.ofNat 16 0x1234, false, true,
          put m 0x1233 (acc + x * c), errs⟩ := by
    intro k
    induction k with
    | zero =>
      intro ac c acc fc fz hk
      have hc : c = 0#8 := BitVec.eq_of_toNat_eq hk
      subst hc
      have g1 : put m 0x1233 acc 0x0C#16 = 0#8 := Q acc 0x0C _ rfl
      have g2 : put m 0x1233 acc 0x0E#16 = 0#8 := Q acc 0x0E _ rfl
      have g3 : put m 0x1233 acc 0x0F#16 = 0x1A#8 := Q acc 0x0F _ rfl
      follow (.mov (.reg .c) .ac) (Q acc 0x0A _ rfl) []
      follow (.alu .cmp .imm) (Q acc 0x0B _ rfl) [g1]
      follow .beq (Q acc 0x0D _ rfl) [g2, g3]
      refine runs_pop (Q acc 0x1A _ rfl) (by decide) rfl (by decide) ?_
      rw [put_same]
      have : acc + x * 0#8 = acc := by simp
      rw [this]
      exact .refl _
    | succ k ih =>
      intro ac c acc fc fz hk
      have hc : c ≠ 0#8 := by
        rintro rfl
        simp at hk
      have g1 : put m 0x1233 acc 0x0C#16 = 0#8 := Q acc 0x0C _ rfl
      have g2 : put m 0x1233 (acc + x) 0x15#16 = 1#8 := Q _ 0x15 _ rfl
      have g3 : put m 0x1233 (acc + x) 0x18#16 = 0#8 := Q _ 0x18 _ rfl
      have g4 : put m 0x1233 (acc + x) 0x19#16 = 0x0A#8 := Q _ 0x19 _ rfl
      follow (.mov (.reg .c) .ac) (Q acc 0x0A _ rfl) []
      follow (.alu .cmp .imm) (Q acc 0x0B _ rfl) [g1, hc]
      follow .beq (Q acc 0x0D _ rfl) []
      refine runs_pop (Q acc 0x10 _ rfl) (by decide) rfl (by decide) ?_
      rw [put_same]
      follow (.alu .add (.reg .b)) (Q acc 0x11 _ rfl) []
      refine runs_push (Q acc 0x12 _ rfl) (by decide) rfl (by decide) ?_
      rw [put_put]
      follow (.mov (.reg .c) .ac) (Q (acc + x) 0x13 _ rfl) []
      follow (.alu .sub .imm) (Q (acc + x) 0x14 _ rfl) [g2]
      follow (.mov .ac (.reg .c)) (Q (acc + x) 0x16 _ rfl) []
      follow .jmp (Q (acc + x) 0x17 _ rfl) [g3, g4]
      have h1 : (c - 1#8).toNat = k := by
        rw [BitVec.toNat_sub]
        simp
        omega
      have h2 := ih (c - 1#8) (c - 1#8) (acc + x) (decide (c.toNat = 0)) (decide (c - 1#8 = 0#8)) h1
      have h3 : acc + x + x * (c - 1#8) = acc + x * c := by
        have := mul_step x c
        rw [BitVec.add_assoc]
        exact congrArg (acc + ·) this.symm
      rw [h3] at h2
      exact h2
  have g1 : m 0x01#16 = x := H 0x01 _ rfl
  have g2 : m 0x03#16 = y := H 0x03 _ rfl
  have g3 : m 0x05#16 = 0x12#8 := H 0x05 _ rfl
  have g4 : m 0x06#16 = 0x34#8 := H 0x06 _ rfl
  have g5 : m 0x08#16 = 0#8 := H 0x08 _ rfl
  follow (.mov .imm (.reg .b)) (H 0x00 _ rfl) [g1]
  follow (.mov .imm (.reg .c)) (H 0x02 _ rfl) [g2]
  follow .inisp (H 0x04 _ rfl) [g3, g4]
  follow (.mov .imm .ac) (H 0x07 _ rfl) [g5]
  refine runs_push (k := 0x1233) (H 0x09 _ rfl) (by decide) rfl (by decide) ?_
  have h := loop _ 0#8 y 0#8 fc fz rfl
  rw [BitVec.zero_add] at h
  exact h

end Mpp.Front
