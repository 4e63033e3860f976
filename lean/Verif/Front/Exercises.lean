import Verif.Front.Docs
/-!
# The exercises of the documentation

Every page `docs/src/pages/es/instructions/*.mdx` but those of CALL, RET, IRET and FIN ends with an exercise ("Comprueba
tus conocimientos") and solutions for it, which its button loads into the simulator. None of them ends with FIN, so
they are run with the button for one instruction.
-/
namespace Mpp.Front

/-- The exercises, one for each solution given. -/
inductive Exercise where
  | mov | cmpReg | cmpImm | cma | andReg | andImm | orReg | orImm | xorReg | xorImm | subImm | subReg | addImm | addReg
  | pop | stax | sta | lda | ldax | jmp | bc | beq | sfa | inisp | lfa | push | inc
  deriving DecidableEq

namespace Exercise

/-- The lines of the solution (`sol=` in the page named at the right). -/
def lines : Exercise → List String
  | .mov => ["MOV 0A, RB", "MOV RB, AC"] -- MOV.mdx:101
  | .cmpReg => ["MOV 05, AC", "MOV 05, RB", "CMP RB"] -- CMP.mdx:121
  | .cmpImm => ["MOV 05, AC", "CMP 05"] -- CMP.mdx:121
  | .cma => ["MOV FF, AC", "CMA"] -- CMA.mdx:42
  | .andReg => ["MOV 14, AC", "MOV 15, RB", "AND RB"] -- AND.mdx:80
  | .andImm => ["MOV 14, AC", "AND 15"] -- AND.mdx:80
  | .orReg => ["MOV 14, AC", "MOV 15, RB", "OR RB"] -- OR.mdx:80
  | .orImm => ["MOV 14, AC", "OR 15"] -- OR.mdx:80
  | .xorReg => ["MOV 14, AC", "MOV 15, RB", "XOR RB"] -- XOR.mdx:80
  | .xorImm => ["MOV 14, AC", "XOR 15"] -- XOR.mdx:80
  | .subImm => ["MOV 05, AC", "SUB 02"] -- SUB.mdx:86
  | .subReg => ["MOV 05, AC", "MOV 02, RB", "SUB RB"] -- SUB.mdx:86
  | .addImm => ["MOV 05, AC", "ADD 02"] -- ADD.mdx:86
  | .addReg => ["MOV 05, AC", "MOV 02, RB", "ADD RB"] -- ADD.mdx:86
  | .pop => ["INISP 8563", "POP"] -- POP.mdx:40
  | .stax => ["MOV 13, RD", "MOV 24, RE", "MOV FF, AC", "STAX"] -- STAX.mdx:43
  | .sta => ["MOV FF, AC", "STA 1324"] -- STA.mdx:48
  | .lda => ["LDA 1324", "MOV AC, RB"] -- LDA.mdx:50
  | .ldax => ["MOV 13, RD", "MOV 24, RE", "LDAX", "MOV AC, RB"] -- LDAX.mdx:45
  | .jmp => ["JMP 928"] -- JMP.mdx:34
  | .bc => ["MOV 06, RB", "MOV 05, AC", "SUB RB", "BC 212"] -- BC.mdx:54
  | .beq => ["MOV 05, AC", "CMP 05", "BEQ 100"] -- BEQ.mdx:45
  | .sfa => ["MOV 81, AC", "SFA"] -- SFA.mdx:53
  | .inisp => ["INISP 8563"] -- INISP.mdx:47
  | .lfa => ["MOV 01, AC", "CMP 02 # FC = 1", "LFA"] -- LFA.mdx:54
  | .push => ["MOV 01, AC", "PUSH", "INC AC", "PUSH", "INC AC", "PUSH"] -- PUSH.mdx:40
  | .inc => ["INC AC"] -- INC.mdx:63

/-- The text that the button loads. -/
def text (x : Exercise) : Str := join '\n' (x.lines.map String.toList)

/-- What the exercise asks for: `p` is the machine before the text is typed in, `q` the machine after the last
instruction. -/
def Asks (p q : P) : Exercise → Prop
  | .mov => q.b = 0x0A ∧ q.ac = 0x0A
  | .cmpReg => q.fz = true ∧ q.fc = false
  | .cmpImm => q.fz = true ∧ q.fc = false
  | .cma => q.ac = 0x00
  | .andReg => q.ac = 0x15#8 &&& 0x14#8
  | .andImm => q.ac = 0x15#8 &&& 0x14#8
  | .orReg => q.ac = 0x15#8 ||| 0x14#8
  | .orImm => q.ac = 0x15#8 ||| 0x14#8
  | .xorReg => q.ac = 0x15#8 ^^^ 0x14#8
  | .xorImm => q.ac = 0x15#8 ^^^ 0x14#8
  | .subImm => q.ac = 0x5#8 - 0x2#8
  | .subReg => q.ac = 0x5#8 - 0x2#8
  | .addImm => q.ac = 0x5#8 + 0x2#8
  | .addReg => q.ac = 0x5#8 + 0x2#8
  | .pop => q.ac = p.mem 0x8523#16
  | .stax => q.mem 0x1324#16 = 0xFF
  | .sta => q.mem 0x1324#16 = 0xFF
  | .lda => q.b = p.mem 0x1324#16
  | .ldax => q.b = p.mem 0x1324#16
  | .jmp => q.pc = 0x928
  | .bc => q.pc = 0x212
  | .beq => q.pc = 0x100
  | .sfa => q.fz = true ∧ q.fc = true
  | .inisp => q.sp = 0x8563
  | .lfa => q.ac = 0x80
  | .push => q.mem (p.sp - 1) = 1 ∧ q.mem (p.sp - 2) = 2 ∧ q.mem (p.sp - 3) = 3 ∧ q.sp = p.sp - 3
  | .inc => q.ac = p.ac + 1

/-- The cells outside the program that a solution may write: the one named, or three cells of the stack. -/
def cells (p : P) : Exercise → List (BitVec 16)
  | .sta | .stax => [0x1324#16]
  | .push => [p.sp - 1, p.sp - 2, p.sp - 3]
  | _ => []

/-- The solutions that leave the program. -/
def jumps : Exercise → Bool
  | .jmp | .bc | .beq => true
  | _ => false

/-- The statements, with the texts of their operands. -/
def stmts : Exercise → List (Stmt × Str)
  | .mov =>
    [(⟨none, .mov .imm (.reg .b), .num 0xA⟩, "0A".toList), (⟨none, .mov (.reg .b) .ac, .none⟩, [])]
  | .cmpReg =>
    [(⟨none, .mov .imm .ac, .num 0x5⟩, "05".toList), (⟨none, .mov .imm (.reg .b), .num 0x5⟩, "05".toList),
    (⟨none, .alu .cmp (.reg .b), .none⟩, [])]
  | .cmpImm =>
    [(⟨none, .mov .imm .ac, .num 0x5⟩, "05".toList), (⟨none, .alu .cmp .imm, .num 0x5⟩, "05".toList)]
  | .cma =>
    [(⟨none, .mov .imm .ac, .num 0xFF⟩, "FF".toList), (⟨none, .cma, .none⟩, [])]
  | .andReg =>
    [(⟨none, .mov .imm .ac, .num 0x14⟩, "14".toList),
    (⟨none, .mov .imm (.reg .b), .num 0x15⟩, "15".toList), (⟨none, .alu .and (.reg .b), .none⟩, [])]
  | .andImm =>
    [(⟨none, .mov .imm .ac, .num 0x14⟩, "14".toList), (⟨none, .alu .and .imm, .num 0x15⟩, "15".toList)]
  | .orReg =>
    [(⟨none, .mov .imm .ac, .num 0x14⟩, "14".toList),
    (⟨none, .mov .imm (.reg .b), .num 0x15⟩, "15".toList), (⟨none, .alu .or (.reg .b), .none⟩, [])]
  | .orImm =>
    [(⟨none, .mov .imm .ac, .num 0x14⟩, "14".toList), (⟨none, .alu .or .imm, .num 0x15⟩, "15".toList)]
  | .xorReg =>
    [(⟨none, .mov .imm .ac, .num 0x14⟩, "14".toList),
    (⟨none, .mov .imm (.reg .b), .num 0x15⟩, "15".toList), (⟨none, .alu .xor (.reg .b), .none⟩, [])]
  | .xorImm =>
    [(⟨none, .mov .imm .ac, .num 0x14⟩, "14".toList), (⟨none, .alu .xor .imm, .num 0x15⟩, "15".toList)]
  | .subImm =>
    [(⟨none, .mov .imm .ac, .num 0x5⟩, "05".toList), (⟨none, .alu .sub .imm, .num 0x2⟩, "02".toList)]
  | .subReg =>
    [(⟨none, .mov .imm .ac, .num 0x5⟩, "05".toList), (⟨none, .mov .imm (.reg .b), .num 0x2⟩, "02".toList),
    (⟨none, .alu .sub (.reg .b), .none⟩, [])]
  | .addImm =>
    [(⟨none, .mov .imm .ac, .num 0x5⟩, "05".toList), (⟨none, .alu .add .imm, .num 0x2⟩, "02".toList)]
  | .addReg =>
    [(⟨none, .mov .imm .ac, .num 0x5⟩, "05".toList), (⟨none, .mov .imm (.reg .b), .num 0x2⟩, "02".toList),
    (⟨none, .alu .add (.reg .b), .none⟩, [])]
  | .pop =>
    [(⟨none, .inisp, .num 0x8563⟩, "8563".toList), (⟨none, .pop, .none⟩, [])]
  | .stax =>
    [(⟨none, .mov .imm (.reg .d), .num 0x13⟩, "13".toList),
    (⟨none, .mov .imm (.reg .e), .num 0x24⟩, "24".toList),
    (⟨none, .mov .imm .ac, .num 0xFF⟩, "FF".toList), (⟨none, .stax, .none⟩, [])]
  | .sta =>
    [(⟨none, .mov .imm .ac, .num 0xFF⟩, "FF".toList), (⟨none, .sta, .num 0x1324⟩, "1324".toList)]
  | .lda =>
    [(⟨none, .lda, .num 0x1324⟩, "1324".toList), (⟨none, .mov .ac (.reg .b), .none⟩, [])]
  | .ldax =>
    [(⟨none, .mov .imm (.reg .d), .num 0x13⟩, "13".toList),
    (⟨none, .mov .imm (.reg .e), .num 0x24⟩, "24".toList), (⟨none, .ldax, .none⟩, []),
    (⟨none, .mov .ac (.reg .b), .none⟩, [])]
  | .jmp =>
    [(⟨none, .jmp, .num 0x928⟩, "928".toList)]
  | .bc =>
    [(⟨none, .mov .imm (.reg .b), .num 0x6⟩, "06".toList), (⟨none, .mov .imm .ac, .num 0x5⟩, "05".toList),
    (⟨none, .alu .sub (.reg .b), .none⟩, []), (⟨none, .bc, .num 0x212⟩, "212".toList)]
  | .beq =>
    [(⟨none, .mov .imm .ac, .num 0x5⟩, "05".toList), (⟨none, .alu .cmp .imm, .num 0x5⟩, "05".toList),
    (⟨none, .beq, .num 0x100⟩, "100".toList)]
  | .sfa =>
    [(⟨none, .mov .imm .ac, .num 0x81⟩, "81".toList), (⟨none, .sfa, .none⟩, [])]
  | .inisp =>
    [(⟨none, .inisp, .num 0x8563⟩, "8563".toList)]
  | .lfa =>
    [(⟨none, .mov .imm .ac, .num 0x1⟩, "01".toList), (⟨none, .alu .cmp .imm, .num 0x2⟩, "02".toList),
    (⟨none, .lfa, .none⟩, [])]
  | .push =>
    [(⟨none, .mov .imm .ac, .num 0x1⟩, "01".toList), (⟨none, .push, .none⟩, []),
    (⟨none, .inc .ac, .none⟩, []), (⟨none, .push, .none⟩, []), (⟨none, .inc .ac, .none⟩, []),
    (⟨none, .push, .none⟩, [])]
  | .inc =>
    [(⟨none, .inc .ac, .none⟩, [])]

def prog (x : Exercise) : List Stmt := x.stmts.map (·.1)

/-- The machine code. -/
def code : Exercise → List (List (BitVec 8))
  | .mov => [[0x60, 0x0A], [0x10]]
  | .cmpReg => [[0x64, 0x05], [0x60, 0x05], [0x1C]]
  | .cmpImm => [[0x64, 0x05], [0x67, 0x05]]
  | .cma => [[0x64, 0xFF], [0x80]]
  | .andReg => [[0x64, 0x14], [0x60, 0x15], [0x20]]
  | .andImm => [[0x64, 0x14], [0x68, 0x15]]
  | .orReg => [[0x64, 0x14], [0x60, 0x15], [0x24]]
  | .orImm => [[0x64, 0x14], [0x69, 0x15]]
  | .xorReg => [[0x64, 0x14], [0x60, 0x15], [0x28]]
  | .xorImm => [[0x64, 0x14], [0x6A, 0x15]]
  | .subImm => [[0x64, 0x05], [0x66, 0x02]]
  | .subReg => [[0x64, 0x05], [0x60, 0x02], [0x18]]
  | .addImm => [[0x64, 0x05], [0x65, 0x02]]
  | .addReg => [[0x64, 0x05], [0x60, 0x02], [0x30]]
  | .pop => [[0xC3, 0x85, 0x63], [0xC2]]
  | .stax => [[0x62, 0x13], [0x63, 0x24], [0x64, 0xFF], [0x90]]
  | .sta => [[0x64, 0xFF], [0x71, 0x13, 0x24]]
  | .lda => [[0x70, 0x13, 0x24], [0x40]]
  | .ldax => [[0x62, 0x13], [0x63, 0x24], [0xB0], [0x40]]
  | .jmp => [[0x74, 0x09, 0x28]]
  | .bc => [[0x60, 0x06], [0x64, 0x05], [0x18], [0x73, 0x02, 0x12]]
  | .beq => [[0x64, 0x05], [0x67, 0x05], [0x72, 0x01, 0x00]]
  | .sfa => [[0x64, 0x81], [0x82]]
  | .inisp => [[0xC3, 0x85, 0x63]]
  | .lfa => [[0x64, 0x01], [0x67, 0x02], [0x81]]
  | .push => [[0x64, 0x01], [0xC1], [0x4B], [0xC1], [0x4B], [0xC1]]
  | .inc => [[0x4B]]

theorem source (x : Exercise) : Source x.text x.prog :=
  (TextPart.fixed x.stmts (by cases x <;> decide +kernel) (by cases x <;> decide +kernel)
    (by cases x <;> decide +kernel) (by cases x <;> decide +kernel)).source (by cases x <;> decide)

theorem codes (x : Exercise) : Code x.prog x.code := codeOk_sound (by cases x <;> decide +kernel)

theorem valid (x : Exercise) : Valid x.prog ∧ LabelsAreAddresses x.prog := by
  cases x <;> exact ⟨by decide +kernel, by decide +kernel⟩

theorem small (x : Exercise) : x.code.flatten.length ≤ 9 := by cases x <;> decide

end Exercise

/-- After `k` instructions, `G`. -/
def After (k : Nat) (s : P) (G : P → Prop) : Prop := ∃ q, s.run k = some q ∧ G q

/-- One instruction: `op` is the opcode at PC. -/
theorem After.next {k : Nat} {p p' : P} {op : BitVec 8} {G : P → Prop} (i : Instr) (ho : p.mem p.pc = op)
    (hd : decode op = some i) (hf : i ≠ .fin) (hc : i = .call → p.pc ≠ 0xFFFF) (he : p.instr i = p')
    (r : After k p' G) : After (k + 1) p G := by
  obtain ⟨q, h, g⟩ := r
  refine ⟨q, ?_, g⟩
  rw [P.run, P.step_of i (by rw [ho]; exact hd) hf hc, he]
  exact h

theorem After.step {k : Nat} {p p' : P} {G : P → Prop} (he : p.step = some p') (r : After k p' G) :
    After (k + 1) p G := by
  obtain ⟨q, h, g⟩ := r
  refine ⟨q, ?_, g⟩
  rw [P.run, he]
  exact h

theorem After.done {p : P} {G : P → Prop} (g : G p) : After 0 p G := ⟨p, rfl, g⟩

/-- Follow one instruction: its name, the fact that its opcode is at PC, and facts for the operand. -/
macro "one "  i:term:max f:term:max "[" ls:Lean.Parser.Tactic.simpLemma,* "]" : tactic =>
  `(tactic| refine After.next $i $f (by decide +kernel) (by decide) (by simp) (by
      simp [P.instr, P.next_mk, P.up_mk, P.down_mk, P.operand, P.byte, P.set, P.setReg, P.reg,
        P.getDest, P.aluOp, P.address, P.store, P.top, $ls,*]; rfl) ?_)

namespace Exercise

/-- The run of a solution: what is asked comes about, nothing else is written, no error is reported. -/
theorem runs (x : Exercise) (hx : x ≠ .pop) {p : P} (hs : x = .push → 10 ≤ p.sp.toNat) {m : BitVec 16 → BitVec 8}
    (w : Written m 0 x.code.flatten m) (hm : m 0x1324#16 = p.mem 0x1324#16) :
    After x.prog.length { p with mem := m, pc := 0x00#16 } fun q => x.Asks p q ∧
      (x.jumps = false → q.pc = BitVec.ofNat 16 x.code.flatten.length) ∧ q.errs = p.errs ∧
      ∀ i : BitVec 16, x.code.flatten.length ≤ i.toNat → i ∉ x.cells p → q.mem i = m i := by
  have H := Holds.of_written w
  obtain ⟨ac, b, c, d, e, pc, sp, fc, fz, mem, errs⟩ := p
  cases x with
  | mov =>
    have F : ∀ j v, (code .mov).flatten[j]? = some v → m (BitVec.ofNat 16 j) = v := H
    have g1 : m 0x01#16 = 0x0A#8 := F 0x01 _ rfl
    show After 2 ⟨ac, b, c, d, e, 0x00#16, sp, fc, fz, m, errs⟩ _
    one (.mov .imm (.reg .b)) (F 0x00 _ rfl) [g1]
    one (.mov (.reg .b) .ac) (F 0x02 _ rfl) []
    refine .done ?_
    exact ⟨⟨rfl, rfl⟩, fun _ => rfl, rfl, fun _ _ _ => rfl⟩
  | cmpReg =>
    have F : ∀ j v, (code .cmpReg).flatten[j]? = some v → m (BitVec.ofNat 16 j) = v := H
    have g1 : m 0x01#16 = 0x05#8 := F 0x01 _ rfl
    have g3 : m 0x03#16 = 0x05#8 := F 0x03 _ rfl
    show After 3 ⟨ac, b, c, d, e, 0x00#16, sp, fc, fz, m, errs⟩ _
    one (.mov .imm .ac) (F 0x00 _ rfl) [g1]
    one (.mov .imm (.reg .b)) (F 0x02 _ rfl) [g3]
    one (.alu .cmp (.reg .b)) (F 0x04 _ rfl) []
    refine .done ?_
    exact ⟨⟨rfl, rfl⟩, fun _ => rfl, rfl, fun _ _ _ => rfl⟩
  | cmpImm =>
    have F : ∀ j v, (code .cmpImm).flatten[j]? = some v → m (BitVec.ofNat 16 j) = v := H
    have g1 : m 0x01#16 = 0x05#8 := F 0x01 _ rfl
    have g3 : m 0x03#16 = 0x05#8 := F 0x03 _ rfl
    show After 2 ⟨ac, b, c, d, e, 0x00#16, sp, fc, fz, m, errs⟩ _
    one (.mov .imm .ac) (F 0x00 _ rfl) [g1]
    one (.alu .cmp .imm) (F 0x02 _ rfl) [g3]
    refine .done ?_
    exact ⟨⟨rfl, rfl⟩, fun _ => rfl, rfl, fun _ _ _ => rfl⟩
  | cma =>
    have F : ∀ j v, (code .cma).flatten[j]? = some v → m (BitVec.ofNat 16 j) = v := H
    have g1 : m 0x01#16 = 0xFF#8 := F 0x01 _ rfl
    show After 2 ⟨ac, b, c, d, e, 0x00#16, sp, fc, fz, m, errs⟩ _
    one (.mov .imm .ac) (F 0x00 _ rfl) [g1]
    one (.cma) (F 0x02 _ rfl) []
    refine .done ?_
    exact ⟨rfl, fun _ => rfl, rfl, fun _ _ _ => rfl⟩
  | andReg =>
    have F : ∀ j v, (code .andReg).flatten[j]? = some v → m (BitVec.ofNat 16 j) = v := H
    have g1 : m 0x01#16 = 0x14#8 := F 0x01 _ rfl
    have g3 : m 0x03#16 = 0x15#8 := F 0x03 _ rfl
    show After 3 ⟨ac, b, c, d, e, 0x00#16, sp, fc, fz, m, errs⟩ _
    one (.mov .imm .ac) (F 0x00 _ rfl) [g1]
    one (.mov .imm (.reg .b)) (F 0x02 _ rfl) [g3]
    one (.alu .and (.reg .b)) (F 0x04 _ rfl) []
    refine .done ?_
    exact ⟨rfl, fun _ => rfl, rfl, fun _ _ _ => rfl⟩
  | andImm =>
    have F : ∀ j v, (code .andImm).flatten[j]? = some v → m (BitVec.ofNat 16 j) = v := H
    have g1 : m 0x01#16 = 0x14#8 := F 0x01 _ rfl
    have g3 : m 0x03#16 = 0x15#8 := F 0x03 _ rfl
    show After 2 ⟨ac, b, c, d, e, 0x00#16, sp, fc, fz, m, errs⟩ _
    one (.mov .imm .ac) (F 0x00 _ rfl) [g1]
    one (.alu .and .imm) (F 0x02 _ rfl) [g3]
    refine .done ?_
    exact ⟨rfl, fun _ => rfl, rfl, fun _ _ _ => rfl⟩
  | orReg =>
    have F : ∀ j v, (code .orReg).flatten[j]? = some v → m (BitVec.ofNat 16 j) = v := H
    have g1 : m 0x01#16 = 0x14#8 := F 0x01 _ rfl
    have g3 : m 0x03#16 = 0x15#8 := F 0x03 _ rfl
    show After 3 ⟨ac, b, c, d, e, 0x00#16, sp, fc, fz, m, errs⟩ _
    one (.mov .imm .ac) (F 0x00 _ rfl) [g1]
    one (.mov .imm (.reg .b)) (F 0x02 _ rfl) [g3]
    one (.alu .or (.reg .b)) (F 0x04 _ rfl) []
    refine .done ?_
    exact ⟨rfl, fun _ => rfl, rfl, fun _ _ _ => rfl⟩
  | orImm =>
    have F : ∀ j v, (code .orImm).flatten[j]? = some v → m (BitVec.ofNat 16 j) = v := H
    have g1 : m 0x01#16 = 0x14#8 := F 0x01 _ rfl
    have g3 : m 0x03#16 = 0x15#8 := F 0x03 _ rfl
    show After 2 ⟨ac, b, c, d, e, 0x00#16, sp, fc, fz, m, errs⟩ _
    one (.mov .imm .ac) (F 0x00 _ rfl) [g1]
    one (.alu .or .imm) (F 0x02 _ rfl) [g3]
    refine .done ?_
    exact ⟨rfl, fun _ => rfl, rfl, fun _ _ _ => rfl⟩
  | xorReg =>
    have F : ∀ j v, (code .xorReg).flatten[j]? = some v → m (BitVec.ofNat 16 j) = v := H
    have g1 : m 0x01#16 = 0x14#8 := F 0x01 _ rfl
    have g3 : m 0x03#16 = 0x15#8 := F 0x03 _ rfl
    show After 3 ⟨ac, b, c, d, e, 0x00#16, sp, fc, fz, m, errs⟩ _
    one (.mov .imm .ac) (F 0x00 _ rfl) [g1]
    one (.mov .imm (.reg .b)) (F 0x02 _ rfl) [g3]
    one (.alu .xor (.reg .b)) (F 0x04 _ rfl) []
    refine .done ?_
    exact ⟨rfl, fun _ => rfl, rfl, fun _ _ _ => rfl⟩
  | xorImm =>
    have F : ∀ j v, (code .xorImm).flatten[j]? = some v → m (BitVec.ofNat 16 j) = v := H
    have g1 : m 0x01#16 = 0x14#8 := F 0x01 _ rfl
    have g3 : m 0x03#16 = 0x15#8 := F 0x03 _ rfl
    show After 2 ⟨ac, b, c, d, e, 0x00#16, sp, fc, fz, m, errs⟩ _
    one (.mov .imm .ac) (F 0x00 _ rfl) [g1]
    one (.alu .xor .imm) (F 0x02 _ rfl) [g3]
    refine .done ?_
    exact ⟨rfl, fun _ => rfl, rfl, fun _ _ _ => rfl⟩
  | subImm =>
    have F : ∀ j v, (code .subImm).flatten[j]? = some v → m (BitVec.ofNat 16 j) = v := H
    have g1 : m 0x01#16 = 0x05#8 := F 0x01 _ rfl
    have g3 : m 0x03#16 = 0x02#8 := F 0x03 _ rfl
    show After 2 ⟨ac, b, c, d, e, 0x00#16, sp, fc, fz, m, errs⟩ _
    one (.mov .imm .ac) (F 0x00 _ rfl) [g1]
    one (.alu .sub .imm) (F 0x02 _ rfl) [g3]
    refine .done ?_
    exact ⟨rfl, fun _ => rfl, rfl, fun _ _ _ => rfl⟩
  | subReg =>
    have F : ∀ j v, (code .subReg).flatten[j]? = some v → m (BitVec.ofNat 16 j) = v := H
    have g1 : m 0x01#16 = 0x05#8 := F 0x01 _ rfl
    have g3 : m 0x03#16 = 0x02#8 := F 0x03 _ rfl
    show After 3 ⟨ac, b, c, d, e, 0x00#16, sp, fc, fz, m, errs⟩ _
    one (.mov .imm .ac) (F 0x00 _ rfl) [g1]
    one (.mov .imm (.reg .b)) (F 0x02 _ rfl) [g3]
    one (.alu .sub (.reg .b)) (F 0x04 _ rfl) []
    refine .done ?_
    exact ⟨rfl, fun _ => rfl, rfl, fun _ _ _ => rfl⟩
  | addImm =>
    have F : ∀ j v, (code .addImm).flatten[j]? = some v → m (BitVec.ofNat 16 j) = v := H
    have g1 : m 0x01#16 = 0x05#8 := F 0x01 _ rfl
    have g3 : m 0x03#16 = 0x02#8 := F 0x03 _ rfl
    show After 2 ⟨ac, b, c, d, e, 0x00#16, sp, fc, fz, m, errs⟩ _
    one (.mov .imm .ac) (F 0x00 _ rfl) [g1]
    one (.alu .add .imm) (F 0x02 _ rfl) [g3]
    refine .done ?_
    exact ⟨rfl, fun _ => rfl, rfl, fun _ _ _ => rfl⟩
  | addReg =>
    have F : ∀ j v, (code .addReg).flatten[j]? = some v → m (BitVec.ofNat 16 j) = v := H
    have g1 : m 0x01#16 = 0x05#8 := F 0x01 _ rfl
    have g3 : m 0x03#16 = 0x02#8 := F 0x03 _ rfl
    show After 3 ⟨ac, b, c, d, e, 0x00#16, sp, fc, fz, m, errs⟩ _
    one (.mov .imm .ac) (F 0x00 _ rfl) [g1]
    one (.mov .imm (.reg .b)) (F 0x02 _ rfl) [g3]
    one (.alu .add (.reg .b)) (F 0x04 _ rfl) []
    refine .done ?_
    exact ⟨rfl, fun _ => rfl, rfl, fun _ _ _ => rfl⟩
  | pop =>
    exact absurd rfl hx
  | stax =>
    have F : ∀ j v, (code .stax).flatten[j]? = some v → m (BitVec.ofNat 16 j) = v := H
    have g1 : m 0x01#16 = 0x13#8 := F 0x01 _ rfl
    have g3 : m 0x03#16 = 0x24#8 := F 0x03 _ rfl
    have g5 : m 0x05#16 = 0xFF#8 := F 0x05 _ rfl
    show After 4 ⟨ac, b, c, d, e, 0x00#16, sp, fc, fz, m, errs⟩ _
    one (.mov .imm (.reg .d)) (F 0x00 _ rfl) [g1]
    one (.mov .imm (.reg .e)) (F 0x02 _ rfl) [g3]
    one (.mov .imm .ac) (F 0x04 _ rfl) [g5]
    one (.stax) (F 0x06 _ rfl) []
    refine .done ⟨rfl, fun _ => rfl, rfl, fun i h1 h2 => ?_⟩
    exact (if_neg fun h => h2 (by rw [h]; exact List.mem_singleton.2 rfl))
  | sta =>
    have F : ∀ j v, (code .sta).flatten[j]? = some v → m (BitVec.ofNat 16 j) = v := H
    have g1 : m 0x01#16 = 0xFF#8 := F 0x01 _ rfl
    have g3 : m 0x03#16 = 0x13#8 := F 0x03 _ rfl
    have g4 : m 0x04#16 = 0x24#8 := F 0x04 _ rfl
    show After 2 ⟨ac, b, c, d, e, 0x00#16, sp, fc, fz, m, errs⟩ _
    one (.mov .imm .ac) (F 0x00 _ rfl) [g1]
    one (.sta) (F 0x02 _ rfl) [g3, g4]
    refine .done ⟨rfl, fun _ => rfl, rfl, fun i h1 h2 => ?_⟩
    exact (if_neg fun h => h2 (by rw [h]; exact List.mem_singleton.2 rfl))
  | lda =>
    have F : ∀ j v, (code .lda).flatten[j]? = some v → m (BitVec.ofNat 16 j) = v := H
    have g1 : m 0x01#16 = 0x13#8 := F 0x01 _ rfl
    have g2 : m 0x02#16 = 0x24#8 := F 0x02 _ rfl
    show After 2 ⟨ac, b, c, d, e, 0x00#16, sp, fc, fz, m, errs⟩ _
    one (.lda) (F 0x00 _ rfl) [g1, g2]
    one (.mov .ac (.reg .b)) (F 0x03 _ rfl) []
    refine .done ?_
    exact ⟨hm, fun _ => rfl, rfl, fun _ _ _ => rfl⟩
  | ldax =>
    have F : ∀ j v, (code .ldax).flatten[j]? = some v → m (BitVec.ofNat 16 j) = v := H
    have g1 : m 0x01#16 = 0x13#8 := F 0x01 _ rfl
    have g3 : m 0x03#16 = 0x24#8 := F 0x03 _ rfl
    show After 4 ⟨ac, b, c, d, e, 0x00#16, sp, fc, fz, m, errs⟩ _
    one (.mov .imm (.reg .d)) (F 0x00 _ rfl) [g1]
    one (.mov .imm (.reg .e)) (F 0x02 _ rfl) [g3]
    one (.ldax) (F 0x04 _ rfl) []
    one (.mov .ac (.reg .b)) (F 0x05 _ rfl) []
    refine .done ?_
    exact ⟨hm, fun _ => rfl, rfl, fun _ _ _ => rfl⟩
  | jmp =>
    have F : ∀ j v, (code .jmp).flatten[j]? = some v → m (BitVec.ofNat 16 j) = v := H
    have g1 : m 0x01#16 = 0x09#8 := F 0x01 _ rfl
    have g2 : m 0x02#16 = 0x28#8 := F 0x02 _ rfl
    show After 1 ⟨ac, b, c, d, e, 0x00#16, sp, fc, fz, m, errs⟩ _
    one (.jmp) (F 0x00 _ rfl) [g1, g2]
    refine .done ?_
    exact ⟨rfl, nofun, rfl, fun _ _ _ => rfl⟩
  | bc =>
    have F : ∀ j v, (code .bc).flatten[j]? = some v → m (BitVec.ofNat 16 j) = v := H
    have g1 : m 0x01#16 = 0x06#8 := F 0x01 _ rfl
    have g3 : m 0x03#16 = 0x05#8 := F 0x03 _ rfl
    have g6 : m 0x06#16 = 0x02#8 := F 0x06 _ rfl
    have g7 : m 0x07#16 = 0x12#8 := F 0x07 _ rfl
    show After 4 ⟨ac, b, c, d, e, 0x00#16, sp, fc, fz, m, errs⟩ _
    one (.mov .imm (.reg .b)) (F 0x00 _ rfl) [g1]
    one (.mov .imm .ac) (F 0x02 _ rfl) [g3]
    one (.alu .sub (.reg .b)) (F 0x04 _ rfl) []
    one (.bc) (F 0x05 _ rfl) [g6, g7]
    refine .done ?_
    exact ⟨rfl, nofun, rfl, fun _ _ _ => rfl⟩
  | beq =>
    have F : ∀ j v, (code .beq).flatten[j]? = some v → m (BitVec.ofNat 16 j) = v := H
    have g1 : m 0x01#16 = 0x05#8 := F 0x01 _ rfl
    have g3 : m 0x03#16 = 0x05#8 := F 0x03 _ rfl
    have g5 : m 0x05#16 = 0x01#8 := F 0x05 _ rfl
    have g6 : m 0x06#16 = 0x00#8 := F 0x06 _ rfl
    show After 3 ⟨ac, b, c, d, e, 0x00#16, sp, fc, fz, m, errs⟩ _
    one (.mov .imm .ac) (F 0x00 _ rfl) [g1]
    one (.alu .cmp .imm) (F 0x02 _ rfl) [g3]
    one (.beq) (F 0x04 _ rfl) [g5, g6]
    refine .done ?_
    exact ⟨rfl, nofun, rfl, fun _ _ _ => rfl⟩
  | sfa =>
    have F : ∀ j v, (code .sfa).flatten[j]? = some v → m (BitVec.ofNat 16 j) = v := H
    have g1 : m 0x01#16 = 0x81#8 := F 0x01 _ rfl
    show After 2 ⟨ac, b, c, d, e, 0x00#16, sp, fc, fz, m, errs⟩ _
    one (.mov .imm .ac) (F 0x00 _ rfl) [g1]
    one (.sfa) (F 0x02 _ rfl) []
    refine .done ?_
    exact ⟨⟨rfl, rfl⟩, fun _ => rfl, rfl, fun _ _ _ => rfl⟩
  | inisp =>
    have F : ∀ j v, (code .inisp).flatten[j]? = some v → m (BitVec.ofNat 16 j) = v := H
    have g1 : m 0x01#16 = 0x85#8 := F 0x01 _ rfl
    have g2 : m 0x02#16 = 0x63#8 := F 0x02 _ rfl
    show After 1 ⟨ac, b, c, d, e, 0x00#16, sp, fc, fz, m, errs⟩ _
    one (.inisp) (F 0x00 _ rfl) [g1, g2]
    refine .done ?_
    exact ⟨rfl, fun _ => rfl, rfl, fun _ _ _ => rfl⟩
  | lfa =>
    have F : ∀ j v, (code .lfa).flatten[j]? = some v → m (BitVec.ofNat 16 j) = v := H
    have g1 : m 0x01#16 = 0x01#8 := F 0x01 _ rfl
    have g3 : m 0x03#16 = 0x02#8 := F 0x03 _ rfl
    show After 3 ⟨ac, b, c, d, e, 0x00#16, sp, fc, fz, m, errs⟩ _
    one (.mov .imm .ac) (F 0x00 _ rfl) [g1]
    one (.alu .cmp .imm) (F 0x02 _ rfl) [g3]
    one (.lfa) (F 0x04 _ rfl) []
    refine .done ?_
    exact ⟨rfl, fun _ => rfl, rfl, fun _ _ _ => rfl⟩
  | push =>
    have hs := hs rfl
    obtain ⟨n, hn⟩ : ∃ n, sp.toNat = n + 3 := ⟨sp.toNat - 3, by show _ = sp.toNat - 3 + 3; change 10 ≤ sp.toNat at hs; omega⟩
    change 10 ≤ sp.toNat at hs
    have hlt := sp.isLt
    have hsp : sp = BitVec.ofNat 16 (n + 3) := by rw [← hn, BitVec.ofNat_toNat, BitVec.setWidth_eq]
    have s1 : sp - 1 = BitVec.ofNat 16 (n + 2) := by rw [hsp]; exact ofNat16_succ _
    have s2 : sp - 2 = BitVec.ofNat 16 (n + 1) := by
      rw [show sp - 2 = sp - 1 - 1 by rw [BitVec.sub_sub]; rfl, s1]; exact ofNat16_succ _
    have s3 : sp - 3 = BitVec.ofNat 16 n := by
      rw [show sp - 3 = sp - 2 - 1 by rw [BitVec.sub_sub]; rfl, s2]; exact ofNat16_succ _
    let m1 := put m (n + 2) 1#8
    let m2 := put m1 (n + 1) 2#8
    have F : ∀ j v, (code .push).flatten[j]? = some v → m (BitVec.ofNat 16 j) = v := H
    have H1 : Holds (code .push).flatten m1 := H.put _ (show 7 ≤ _ by omega) (by omega)
    have F1 : ∀ j v, (code .push).flatten[j]? = some v → m1 (BitVec.ofNat 16 j) = v := H1
    have H2 : Holds (code .push).flatten m2 := H1.put _ (show 7 ≤ _ by omega) (by omega)
    have F2 : ∀ j v, (code .push).flatten[j]? = some v → m2 (BitVec.ofNat 16 j) = v := H2
    have g1 : m 0x01#16 = 0x01#8 := F 0x01 _ rfl
    have g2 : m 0x02#16 = 0xC1#8 := F 0x02 _ rfl
    have g4 : m1 0x04#16 = 0xC1#8 := F1 0x04 _ rfl
    have g6 : m2 0x06#16 = 0xC1#8 := F2 0x06 _ rfl
    show After 6 ⟨ac, b, c, d, e, 0x00#16, sp, fc, fz, m, errs⟩ fun q =>
      (q.mem (sp - 1) = 1 ∧ q.mem (sp - 2) = 2 ∧ q.mem (sp - 3) = 3 ∧ q.sp = sp - 3) ∧ (_ → q.pc = 0x07#16) ∧
      q.errs = errs ∧ ∀ i : BitVec 16, 7 ≤ i.toNat → i ∉ [sp - 1, sp - 2, sp - 3] → q.mem i = m i
    rw [s1, s2, s3, hsp]
    one (.mov .imm .ac) (F 0x00 _ rfl) [g1]
    refine .step (step_push g2 (by decide) (by omega)) ?_
    show After 4 ⟨_, _, _, _, _, 0x03#16, _, _, _, m1, _⟩ _
    one (.inc .ac) (F1 0x03 _ rfl) []
    refine .step (step_push g4 (by decide) (by omega)) ?_
    show After 2 ⟨_, _, _, _, _, 0x05#16, _, _, _, m2, _⟩ _
    one (.inc .ac) (F2 0x05 _ rfl) []
    refine .step (step_push g6 (by decide) (by omega)) ?_
    refine .done ⟨⟨?_, ?_, ?_, rfl⟩, fun _ => rfl, rfl, ?_⟩
    · show put m2 n _ _ = _
      rw [put_other _ _ (by omega) (by omega) (by omega)]
      show put m1 (n + 1) _ _ = _
      rw [put_other _ _ (by omega) (by omega) (by omega)]
      exact put_same _ _ _
    · show put m2 n _ _ = _
      rw [put_other _ _ (by omega) (by omega) (by omega)]
      exact put_same _ _ _
    · exact put_same _ _ _
    · intro i h1 h2
      simp only [List.mem_cons, List.not_mem_nil, or_false, not_or] at h2
      show put m2 n _ i = _
      refine (if_neg h2.2.2).trans ?_
      exact (if_neg h2.2.1).trans (if_neg h2.1)
  | inc =>
    have F : ∀ j v, (code .inc).flatten[j]? = some v → m (BitVec.ofNat 16 j) = v := H
    show After 1 ⟨ac, b, c, d, e, 0x00#16, sp, fc, fz, m, errs⟩ _
    one (.inc .ac) (F 0x00 _ rfl) []
    refine .done ?_
    exact ⟨rfl, fun _ => rfl, rfl, fun _ _ _ => rfl⟩

/-- The solution of the POP exercise puts the contents of 0x8563 in AC. -/
theorem pop_runs {p : P} {m : BitVec 16 → BitVec 8} (w : Written m 0 (code .pop).flatten m) :
    After (prog .pop).length { p with mem := m, pc := 0x00#16 } fun q =>
      q.ac = m 0x8563#16 ∧ q.errs = p.errs ∧ q.pc = 0x04#16 ∧ q.mem = m := by
  have F : ∀ j v, (code .pop).flatten[j]? = some v → m (BitVec.ofNat 16 j) = v := Holds.of_written w
  obtain ⟨ac, b, c, d, e, pc, sp, fc, fz, mem, errs⟩ := p
  have g1 : m 0x01#16 = 0x85#8 := F 0x01 _ rfl
  have g2 : m 0x02#16 = 0x63#8 := F 0x02 _ rfl
  have g3 : m 0x03#16 = 0xC2#8 := F 0x03 _ rfl
  show After 2 ⟨ac, b, c, d, e, 0x00#16, sp, fc, fz, m, errs⟩ _
  one .inisp (F 0x00 _ rfl) [g1, g2]
  refine .step (step_pop (k := 0x8563) g3 (by decide) (by decide)) ?_
  exact .done ⟨rfl, rfl, rfl, rfl⟩

/-- With SP = 0, where a machine starts, the solution of the PUSH exercise leaves SP where it is, writes cell 0 three
times and reports three errors. -/
theorem push_runs_zero {p : P} (hs : p.sp = 0) {m : BitVec 16 → BitVec 8}
    (w : Written m 0 (code .push).flatten m) :
    After (prog .push).length { p with mem := m, pc := 0x00#16 } fun q =>
      q.sp = 0 ∧ q.mem 0 = 3 ∧ (∀ i : BitVec 16, 7 ≤ i.toNat → q.mem i = m i) ∧ q.pc = 0x07#16 ∧
      q.errs = .spOverflow :: .spOverflow :: .spOverflow :: p.errs := by
  have H := Holds.of_written w
  obtain ⟨ac, b, c, d, e, pc, sp, fc, fz, mem, errs⟩ := p
  change sp = 0#16 at hs
  subst hs
  have away : ∀ (v : BitVec 8) (i : BitVec 16), i ≠ 0#16 → put m 0 v i = m i := fun v i h => if_neg h
  have F : ∀ j v, (code .push).flatten[j]? = some v → m (BitVec.ofNat 16 j) = v := H
  have g1 : m 0x01#16 = 0x01#8 := F 0x01 _ rfl
  have g2 : m 0x02#16 = 0xC1#8 := F 0x02 _ rfl
  have g3 : put m 0 1#8 0x03#16 = 0x4B#8 := (away _ _ (by decide)).trans (F 0x03 _ rfl)
  have g4 : put m 0 1#8 0x04#16 = 0xC1#8 := (away _ _ (by decide)).trans (F 0x04 _ rfl)
  have g5 : put m 0 2#8 0x05#16 = 0x4B#8 := (away _ _ (by decide)).trans (F 0x05 _ rfl)
  have g6 : put m 0 2#8 0x06#16 = 0xC1#8 := (away _ _ (by decide)).trans (F 0x06 _ rfl)
  have bottom : ∀ (ac : BitVec 8) (fc fz : Bool) (errs : List Err) (pc : BitVec 16) (m : BitVec 16 → BitVec 8),
      m pc = 0xC1#8 → pc ≠ 0xFFFF → P.step ⟨ac, b, c, d, e, pc, 0#16, fc, fz, m, errs⟩ =
        some ⟨ac, b, c, d, e, pc + 1, 0#16, fc, fz, put m 0 ac, .spOverflow :: errs⟩ := by
    intro ac fc fz errs pc m ho hp
    rw [P.step_of .push (by show decode (m _) = _; rw [ho]; decide +kernel) (by decide) (by simp)]
    simp only [P.instr, P.next_mk, if_neg hp, P.down_mk]
    rfl
  show After 6 ⟨ac, b, c, d, e, 0x00#16, 0#16, fc, fz, m, errs⟩ _
  one (.mov .imm .ac) (F 0x00 _ rfl) [g1]
  refine .step (bottom _ _ _ _ _ _ g2 (by decide)) ?_
  show After 4 ⟨_, _, _, _, _, 0x03#16, _, _, _, put m 0 1#8, _⟩ _
  one (.inc .ac) g3 []
  refine .step (bottom _ _ _ _ _ _ g4 (by decide)) ?_
  rw [put_put]
  show After 2 ⟨_, _, _, _, _, 0x05#16, _, _, _, put m 0 2#8, _⟩ _
  one (.inc .ac) g5 []
  refine .step (bottom _ _ _ _ _ _ g6 (by decide)) ?_
  rw [put_put]
  refine After.done ⟨rfl, put_same m 0 3#8, fun i hi => away _ _ ?_, rfl, rfl⟩
  rintro rfl
  exact absurd hi (by decide)

end Exercise

end Mpp.Front
