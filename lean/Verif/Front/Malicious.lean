import Verif.Front.Docs
/-!
# The programs of the documentation: the malicious function

The text is that of `docs/src/pages/es/examples/malicious-function.mdx:91` ("Código final").
-/
namespace Mpp.Front

/-- The text, line by line. -/
def maliciousLines : List Str :=
  ["INISP EEEE # random far address", "CALL TFAUTORECURSIVE", "FIN", "", "",
    "TFAUTORECURSIVE POP # extract return address", "MOV AC, RE", "POP", "MOV AC, RD", "# --", "",
    "# find caller address", "CALL TFSUB", "CALL TFSUB", "CALL TFSUB", "# --", "",
    "# faking return address", "# - creating recursive call", "MOV RD, AC", "PUSH", "MOV RE, AC",
    "PUSH", "# --", "", "RET", "", "# util functions", "TFSUB CALL TFSUB_RE", "BC TFSUBRD",
    "JMP TFSUBRET", "", "TFSUBRD CALL TFSUB_RD", "", "TFSUBRET RET", "", "TFSUB_RD MOV RD, AC",
    "SUB 01", "MOV AC, RD", "RET", "", "TFSUB_RE MOV RE, AC", "SUB 01", "MOV AC, RE",
    "RET"].map String.toList

def maliciousText : Str := join '\n' maliciousLines

def maliciousProg : List (Stmt × Str) :=
  [(⟨none, .inisp, .num 0xEEEE⟩, "EEEE".toList),
    (⟨none, .call, .label "TFAUTORECURSIVE".toList⟩, "TFAUTORECURSIVE".toList),
    (⟨none, .fin, .none⟩, []), (⟨some "TFAUTORECURSIVE".toList, .pop, .none⟩, []),
    (⟨none, .mov .ac (.reg .e), .none⟩, []), (⟨none, .pop, .none⟩, []),
    (⟨none, .mov .ac (.reg .d), .none⟩, []), (⟨none, .call, .label "TFSUB".toList⟩, "TFSUB".toList),
    (⟨none, .call, .label "TFSUB".toList⟩, "TFSUB".toList),
    (⟨none, .call, .label "TFSUB".toList⟩, "TFSUB".toList), (⟨none, .mov (.reg .d) .ac, .none⟩, []),
    (⟨none, .push, .none⟩, []), (⟨none, .mov (.reg .e) .ac, .none⟩, []), (⟨none, .push, .none⟩, []),
    (⟨none, .ret, .none⟩, []),
    (⟨some "TFSUB".toList, .call, .label "TFSUB_RE".toList⟩, "TFSUB_RE".toList),
    (⟨none, .bc, .label "TFSUBRD".toList⟩, "TFSUBRD".toList),
    (⟨none, .jmp, .label "TFSUBRET".toList⟩, "TFSUBRET".toList),
    (⟨some "TFSUBRD".toList, .call, .label "TFSUB_RD".toList⟩, "TFSUB_RD".toList),
    (⟨some "TFSUBRET".toList, .ret, .none⟩, []),
    (⟨some "TFSUB_RD".toList, .mov (.reg .d) .ac, .none⟩, []),
    (⟨none, .alu .sub .imm, .num 0x1⟩, "01".toList), (⟨none, .mov .ac (.reg .d), .none⟩, []),
    (⟨none, .ret, .none⟩, []), (⟨some "TFSUB_RE".toList, .mov (.reg .e) .ac, .none⟩, []),
    (⟨none, .alu .sub .imm, .num 0x1⟩, "01".toList), (⟨none, .mov .ac (.reg .e), .none⟩, []),
    (⟨none, .ret, .none⟩, [])]

def maliciousCode : List (List (BitVec 8)) :=
  [[0xC3, 0xEE, 0xEE], [0xC4, 0x00, 0x07], [0xFF], [0xC2], [0x43], [0xC2], [0x42], [0xC4, 0x00, 0x19],
    [0xC4, 0x00, 0x19], [0xC4, 0x00, 0x19], [0x12], [0xC1], [0x13], [0xC1], [0xC5], [0xC4, 0x00, 0x2B],
    [0x73, 0x00, 0x22], [0x74, 0x00, 0x25], [0xC4, 0x00, 0x26], [0xC5], [0x12], [0x66, 0x01], [0x42],
    [0xC5], [0x13], [0x66, 0x01], [0x43], [0xC5]]

theorem malicious_source : Source maliciousText (maliciousProg.map (·.1)) :=
  (TextPart.fixed maliciousProg (by decide +kernel) (by decide +kernel) (by decide +kernel)
    (by decide +kernel)).source (by decide)

theorem malicious_code : Code (maliciousProg.map (·.1)) maliciousCode := codeOk_sound (by decide +kernel)

theorem malicious_valid : Valid (maliciousProg.map (·.1)) ∧ LabelsAreAddresses (maliciousProg.map (·.1)) := by
  constructor <;> decide +kernel

/-! ## The 16-bit subtraction -/

theorem minus_one (d e : BitVec 8) (he : e ≠ 0#8) : (d ++ (e - 1#8) : BitVec 16) = d ++ e - 1#16 := by
  have h : 0 < e.toNat := Nat.pos_of_ne_zero fun h => he (BitVec.eq_of_toNat_eq h)
  have h1 := e.isLt
  have h2 := d.isLt
  apply BitVec.eq_of_toNat_eq
  rw [BitVec.toNat_sub, BitVec.toNat_append, BitVec.toNat_append, BitVec.toNat_sub]
  rw [← Nat.shiftLeft_add_eq_or_of_lt (by omega), ← Nat.shiftLeft_add_eq_or_of_lt (by omega)]
  simp only [Nat.shiftLeft_eq, BitVec.toNat_ofNat]
  omega

theorem minus_one_borrow (d : BitVec 8) : ((d - 1#8) ++ (0#8 - 1#8) : BitVec 16) = d ++ 0#8 - 1#16 := by
  have h2 := d.isLt
  apply BitVec.eq_of_toNat_eq
  rw [BitVec.toNat_sub, BitVec.toNat_append, BitVec.toNat_append, BitVec.toNat_sub, BitVec.toNat_sub]
  rw [← Nat.shiftLeft_add_eq_or_of_lt (by omega), ← Nat.shiftLeft_add_eq_or_of_lt (by simp)]
  simp only [Nat.shiftLeft_eq, BitVec.toNat_ofNat]
  omega

/-- The routine TFSUB, at any depth of the stack: D:E is one less, both bytes taken together. -/
theorem malicious_sub {m : BitVec 16 → BitVec 8} (H : Holds maliciousCode.flatten m) (ac b c d e : BitVec 8)
    (fc fz : Bool) (errs : List Err) {j : Nat} (h1 : 48 ≤ j) (h2 : j + 4 < 65536) {a : BitVec 16}
    (ha : m (BitVec.ofNat 16 (j + 3)) ++ m (BitVec.ofNat 16 (j + 2)) = a) :
    ∃ ac' d' e' fc' fz' m', Runs ⟨ac, b, c, d, e, 0x19#16, BitVec.ofNat 16 (j + 2), fc, fz, m, errs⟩
      ⟨ac', b, c, d', e', a, BitVec.ofNat 16 (j + 4), fc', fz', m', errs⟩ ∧
      (d' ++ e' : BitVec 16) = d ++ e - 1#16 ∧
      ∀ i : BitVec 16, i.toNat ≠ j → i.toNat ≠ j + 1 → m' i = m i := by
  let m1 := put (put m (j + 1) 0x00#8) j 0x1C#8
  have frame : ∀ v : BitVec 8, ∀ i : BitVec 16, i.toNat ≠ j → i.toNat ≠ j + 1 →
      put (put m (j + 1) 0x00#8) j v i = m i := by
    intro v i a1 a2
    rw [put_ne _ _ a1 (by omega), put_ne _ _ a2 (by omega)]
  have H1 : Holds maliciousCode.flatten m1 :=
    (H.put _ (show 48 ≤ _ by omega) (by omega)).put _ (show 48 ≤ _ by omega) (by omega)
  have back : m1 (BitVec.ofNat 16 (j + 1)) ++ m1 (BitVec.ofNat 16 j) = 0x001C#16 := by
    show (put (put m (j + 1) 0x00#8) j 0x1C#8 _ ++ put (put m (j + 1) 0x00#8) j 0x1C#8 _ : BitVec 16) = _
    rw [put_same, put_other _ _ (by omega) (by omega) (by omega), put_same]
    rfl
  have g1 : m1 0x2D#16 = 1#8 := H1 0x2D _ rfl
  have g2 : m1 0x1D#16 = 0#8 := H1 0x1D _ rfl
  have g3 : m1 0x1E#16 = 0x22#8 := H1 0x1E _ rfl
  have g4 : m1 0x20#16 = 0#8 := H1 0x20 _ rfl
  have g5 : m1 0x21#16 = 0x25#8 := H1 0x21 _ rfl
  have start : ∀ {q}, Runs ⟨e - 1#8, b, c, d, e - 1#8, 0x1C#16, BitVec.ofNat 16 (j + 2), decide (e.toNat = 0),
      decide (e - 1#8 = 0#8), m1, errs⟩ q →
      Runs ⟨ac, b, c, d, e, 0x19#16, BitVec.ofNat 16 (j + 2), fc, fz, m, errs⟩ q := by
    intro q r
    refine runs_call 0x19 (H 0x19 _ rfl) (H 0x1A _ rfl) (H 0x1B _ rfl) (by decide) (a := 0x2B#16) rfl
      (by omega) ?_
    change Runs ⟨_, _, _, _, _, _, _, _, _, m1, _⟩ _
    follow (.mov (.reg .e) .ac) (H1 0x2B _ rfl) []
    follow (.alu .sub .imm) (H1 0x2C _ rfl) [g1]
    follow (.mov .ac (.reg .e)) (H1 0x2E _ rfl) []
    exact runs_ret (H1 0x2F _ rfl) (by decide) (by omega) back r
  by_cases he : e = 0#8
  · subst he
    let m2 := put (put m1 (j + 1) 0x00#8) j 0x25#8
    have e2 : m2 = put (put m (j + 1) 0x00#8) j 0x25#8 := by
      funext i
      show put (put (put (put m (j + 1) 0x00#8) j 0x1C#8) (j + 1) 0x00#8) j 0x25#8 i = _
      unfold put
      split
      · rfl
      · split <;> rfl
    have H2 : Holds maliciousCode.flatten m2 :=
      (H1.put _ (show 48 ≤ _ by omega) (by omega)).put _ (show 48 ≤ _ by omega) (by omega)
    have f1 : m2 0x28#16 = 1#8 := H2 0x28 _ rfl
    have back2 : m2 (BitVec.ofNat 16 (j + 1)) ++ m2 (BitVec.ofNat 16 j) = 0x0025#16 := by
      show (put (put m1 (j + 1) 0x00#8) j 0x25#8 _ ++ put (put m1 (j + 1) 0x00#8) j 0x25#8 _ : BitVec 16) = _
      rw [put_same, put_other _ _ (by omega) (by omega) (by omega), put_same]
      rfl
    have fr2 : ∀ i : BitVec 16, i.toNat ≠ j → i.toNat ≠ j + 1 → m2 i = m i := by
      rw [e2]
      exact frame _
    have ha2 : m2 (BitVec.ofNat 16 (j + 3)) ++ m2 (BitVec.ofNat 16 (j + 2)) = a := by
      rw [fr2 _ (by rw [BitVec.toNat_ofNat]; omega) (by rw [BitVec.toNat_ofNat]; omega),
        fr2 _ (by rw [BitVec.toNat_ofNat]; omega) (by rw [BitVec.toNat_ofNat]; omega)]
      exact ha
    refine ⟨d - 1#8, d - 1#8, 0#8 - 1#8, decide (d.toNat = 0), decide (d - 1#8 = 0#8), m2, start ?_,
      minus_one_borrow d, fr2⟩
    follow .bc (H1 0x1C _ rfl) [g2, g3]
    refine runs_call 0x22 (H1 0x22 _ rfl) (H1 0x23 _ rfl) (H1 0x24 _ rfl) (by decide) (a := 0x26#16) rfl
      (by omega) ?_
    change Runs ⟨_, _, _, _, _, _, _, _, _, m2, _⟩ _
    follow (.mov (.reg .d) .ac) (H2 0x26 _ rfl) []
    follow (.alu .sub .imm) (H2 0x27 _ rfl) [f1]
    follow (.mov .ac (.reg .d)) (H2 0x29 _ rfl) []
    refine runs_ret (H2 0x2A _ rfl) (by decide) (by omega) back2 ?_
    exact runs_ret (H2 0x25 _ rfl) (by decide) (by omega) ha2 (.refl _)
  · have he' : ¬ e.toNat = 0 := fun h => he (BitVec.eq_of_toNat_eq h)
    refine ⟨e - 1#8, d, e - 1#8, false, decide (e - 1#8 = 0#8), m1, start ?_, minus_one d e he, frame _⟩
    rw [decide_eq_false he']
    follow .bc (H1 0x1C _ rfl) []
    follow .jmp (H1 0x1F _ rfl) [g4, g5]
    have fr1 : ∀ i : BitVec 16, i.toNat ≠ j → i.toNat ≠ j + 1 → m1 i = m i := frame _
    refine runs_ret (H1 0x25 _ rfl) (by decide) (by omega) ?_ (.refl _)
    rw [fr1 _ (by rw [BitVec.toNat_ofNat]; omega) (by rw [BitVec.toNat_ofNat]; omega),
      fr1 _ (by rw [BitVec.toNat_ofNat]; omega) (by rw [BitVec.toNat_ofNat]; omega)]
    exact ha

/-! ## The round -/

/-- Memory with the four cells that the program uses as its stack. -/
def four (m : BitVec 16 → BitVec 8) (w x y z : BitVec 8) : BitVec 16 → BitVec 8 := fun i =>
  if i = 0xEEED#16 then w else if i = 0xEEEC#16 then x else if i = 0xEEEB#16 then y
  else if i = 0xEEEA#16 then z else m i

theorem put_four1 (m : BitVec 16 → BitVec 8) (w x y z v : BitVec 8) :
    put (four m w x y z) 0xEEED v = four m v x y z := by
  funext i; unfold put four; split <;> rfl

theorem put_four2 (m : BitVec 16 → BitVec 8) (w x y z v : BitVec 8) :
    put (four m w x y z) 0xEEEC v = four m w v y z := by
  funext i
  unfold put four
  by_cases h : i = 0xEEEC#16
  · subst h; rfl
  · rw [if_neg h, if_neg h, if_neg h]

theorem put_four3 (m : BitVec 16 → BitVec 8) (w x y z v : BitVec 8) :
    put (four m w x y z) 0xEEEB v = four m w x v z := by
  funext i
  unfold put four
  by_cases h : i = 0xEEEB#16
  · subst h; rfl
  · rw [if_neg h, if_neg h, if_neg h]

theorem put_four4 (m : BitVec 16 → BitVec 8) (w x y z v : BitVec 8) :
    put (four m w x y z) 0xEEEA v = four m w x y v := by
  funext i
  unfold put four
  by_cases h : i = 0xEEEA#16
  · subst h; rfl
  · rw [if_neg h, if_neg h, if_neg h]

section
variable (m : BitVec 16 → BitVec 8) (w x y z : BitVec 8)

theorem four1 : four m w x y z (BitVec.ofNat 16 0xEEED) = w := rfl

theorem four2 : four m w x y z (BitVec.ofNat 16 0xEEEC) = x := rfl

theorem four3 : four m w x y z (BitVec.ofNat 16 0xEEEB) = y := rfl

theorem four4 : four m w x y z (BitVec.ofNat 16 0xEEEA) = z := rfl

end

theorem four_self (m : BitVec 16 → BitVec 8) :
    four m (m 0xEEED#16) (m 0xEEEC#16) (m 0xEEEB#16) (m 0xEEEA#16) = m := by
  funext i
  unfold four
  by_cases h1 : i = 0xEEED#16
  · rw [if_pos h1, h1]
  rw [if_neg h1]
  by_cases h2 : i = 0xEEEC#16
  · rw [if_pos h2, h2]
  rw [if_neg h2]
  by_cases h3 : i = 0xEEEB#16
  · rw [if_pos h3, h3]
  rw [if_neg h3]
  by_cases h4 : i = 0xEEEA#16
  · rw [if_pos h4, h4]
  rw [if_neg h4]

theorem four_other (m : BitVec 16 → BitVec 8) (w x y z : BitVec 8) (i : BitVec 16)
    (h : i.toNat < 0xEEEA ∨ 0xEEEE ≤ i.toNat) : four m w x y z i = m i := by
  have e (n : Nat) (hn : n < 65536) (h : i.toNat ≠ n) : i ≠ BitVec.ofNat 16 n := by
    rintro rfl
    rw [BitVec.toNat_ofNat] at h
    omega
  unfold four
  rw [if_neg (e 0xEEED (by decide) (by omega)), if_neg (e 0xEEEC (by decide) (by omega)),
    if_neg (e 0xEEEB (by decide) (by omega)), if_neg (e 0xEEEA (by decide) (by omega))]

theorem Holds.four {bs : List (BitVec 8)} {m : BitVec 16 → BitVec 8} (h : Holds bs m) (w x y z : BitVec 8)
    (h1 : bs.length ≤ 0xEEEA) : Holds bs (four m w x y z) := fun j b hj => by
  have hl := (List.getElem?_eq_some_iff.1 hj).1
  rw [four_other _ _ _ _ _ _ (.inl (by rw [BitVec.toNat_ofNat]; omega))]
  exact h j b hj

/-- What is true all the time while the program runs: the stack stays within four cells, nothing else is
written, B and C keep their values and no error is reported. -/
def Bounded (m : BitVec 16 → BitVec 8) (b c : BitVec 8) (errs : List Err) (p : P) : Prop :=
  0xEEEA ≤ p.sp.toNat ∧ p.sp.toNat ≤ 0xEEEE ∧ p.b = b ∧ p.c = c ∧ p.errs = errs ∧
    ∀ i : BitVec 16, i.toNat < 0xEEEA ∨ 0xEEEE ≤ i.toNat → p.mem i = m i

theorem bounded_four {m : BitVec 16 → BitVec 8} {b c : BitVec 8} {errs : List Err} {ac d e : BitVec 8}
    {pc sp : BitVec 16} {fc fz : Bool} {w x y z : BitVec 8} (h1 : 0xEEEA ≤ sp.toNat) (h2 : sp.toNat ≤ 0xEEEE) :
    Bounded m b c errs ⟨ac, b, c, d, e, pc, sp, fc, fz, four m w x y z, errs⟩ :=
  ⟨h1, h2, rfl, rfl, rfl, fun i hi => four_other m w x y z i hi⟩

/-- Follow one instruction of the round. -/
macro "around " i:term:max f:term:max "[" ls:Lean.Parser.Tactic.simpLemma,* "]" : tactic =>
  `(tactic| refine Via.next (bounded_four (by decide) (by decide)) $i $f (by decide +kernel) (by decide) (by simp) (by
      simp [P.instr, P.next_mk, P.operand, P.byte, P.set, P.setReg, P.reg, P.getDest, P.aluOp, P.address, $ls,*]
      rfl) ?_)

section
variable {m : BitVec 16 → BitVec 8} (H : Holds maliciousCode.flatten m) (b c : BitVec 8) (errs : List Err)
include H

/-- TFSUB, called in the round. -/
theorem malicious_sub_round (k : Nat) (hk : k ∈ [0x0B, 0x0E, 0x11]) (ac d e w x y z : BitVec 8) (he : e ≠ 0#8)
    (fc fz : Bool) :
    Via (Bounded m b c errs) 9
      ⟨ac, b, c, d, e, BitVec.ofNat 16 k, 0xEEEE#16, fc, fz, four m w x y z, errs⟩
      ⟨e - 1#8, b, c, d, e - 1#8, BitVec.ofNat 16 (k + 3), 0xEEEE#16, false, decide (e - 1#8 = 0#8),
        four m 0x00#8 (BitVec.ofNat 8 (k + 3)) 0x00#8 0x1C#8, errs⟩ := by
  have F : ∀ w x y z, Holds maliciousCode.flatten (four m w x y z) := fun w x y z => H.four w x y z (by decide)
  have he' : ¬ e.toNat = 0 := fun h => he (BitVec.eq_of_toNat_eq h)
  have f1 := fun w x y z => (F w x y z 0x2D _ rfl : four m w x y z 0x2D#16 = 1#8)
  have f2 := fun w x y z => (F w x y z 0x20 _ rfl : four m w x y z 0x20#16 = 0#8)
  have f3 := fun w x y z => (F w x y z 0x21 _ rfl : four m w x y z 0x21#16 = 0x25#8)
  have first : ∀ w x y z, four m w x y z (BitVec.ofNat 16 k) = 0xC4#8 ∧
      four m w x y z (BitVec.ofNat 16 (k + 1)) = 0#8 ∧ four m w x y z (BitVec.ofNat 16 (k + 2)) = 0x19#8 := by
    intro w x y z
    simp only [List.mem_cons, List.not_mem_nil, or_false] at hk
    rcases hk with rfl | rfl | rfl
    · exact ⟨F w x y z 0x0B _ rfl, F w x y z 0x0C _ rfl, F w x y z 0x0D _ rfl⟩
    · exact ⟨F w x y z 0x0E _ rfl, F w x y z 0x0F _ rfl, F w x y z 0x10 _ rfl⟩
    · exact ⟨F w x y z 0x11 _ rfl, F w x y z 0x12 _ rfl, F w x y z 0x13 _ rfl⟩
  have hk2 : k ≤ 0x11 := by
    simp only [List.mem_cons, List.not_mem_nil, or_false] at hk
    omega
  have r1 : (BitVec.ofNat 16 (k + 3)).extractLsb' 8 8 = 0x00#8 ∧
      (BitVec.ofNat 16 (k + 3)).extractLsb' 0 8 = BitVec.ofNat 8 (k + 3) ∧
      (0x00#8 ++ BitVec.ofNat 8 (k + 3) : BitVec 16) = BitVec.ofNat 16 (k + 3) := by
    simp only [List.mem_cons, List.not_mem_nil, or_false] at hk
    rcases hk with rfl | rfl | rfl <;> decide
  refine via_call (k := 0xEEEC) k (bounded_four (by decide) (by decide)) (first w x y z).1
    (first w x y z).2.1 (first w x y z).2.2 (by omega) (a := 0x19#16) (by decide) (by decide) r1.1 r1.2.1
    (by rw [put_four1, put_four2]) ?_
  refine via_call (k := 0xEEEA) (a := 0x2B#16) (rh := 0#8) (rl := 0x1C#8) 0x19
    (bounded_four (by decide) (by decide)) (F 0 (BitVec.ofNat 8 (k + 3)) y z 0x19 _ rfl)
    (F 0 (BitVec.ofNat 8 (k + 3)) y z 0x1A _ rfl) (F 0 (BitVec.ofNat 8 (k + 3)) y z 0x1B _ rfl)
    (by decide) (by decide) (by decide) (by decide) (by decide) (by rw [put_four3, put_four4]) ?_
  have G := F 0 (BitVec.ofNat 8 (k + 3)) 0 0x1C
  around (.mov (.reg .e) .ac) (G 0x2B _ rfl) []
  around (.alu .sub .imm) (G 0x2C _ rfl) [f1]
  around (.mov .ac (.reg .e)) (G 0x2E _ rfl) []
  refine via_ret (k := 0xEEEA) (a := 0x1C#16) (bounded_four (by decide) (by decide)) (G 0x2F _ rfl)
    (by decide) (by decide) (four3 _ _ _ _ _) (four4 _ _ _ _ _) (by decide) ?_
  rw [decide_eq_false he']
  around .bc (G 0x1C _ rfl) []
  around .jmp (G 0x1F _ rfl) [f2, f3]
  exact via_ret (k := 0xEEEC) (bounded_four (by decide) (by decide)) (G 0x25 _ rfl)
    (by decide) (by decide) (four1 _ _ _ _ _) (four2 _ _ _ _ _) r1.2.2 (.refl _ _)

/-- One round: from the CALL back to the CALL. -/
theorem malicious_round (ac d e w x y z : BitVec 8) (fc fz : Bool) :
    Via (Bounded m b c errs) 37
      ⟨ac, b, c, d, e, 0x03#16, 0xEEEE#16, fc, fz, four m w x y z, errs⟩
      ⟨0x03#8, b, c, 0x00#8, 0x03#8, 0x03#16, 0xEEEE#16, false, false, four m 0x00#8 0x03#8 0x00#8 0x1C#8, errs⟩ := by
  have F : ∀ w x y z, Holds maliciousCode.flatten (four m w x y z) := fun w x y z => H.four w x y z (by decide)
  refine via_call (k := 0xEEEC) (a := 0x07#16) (rh := 0#8) (rl := 0x06#8) 0x03
    (bounded_four (by decide) (by decide)) (F w x y z 0x03 _ rfl)
    (F w x y z 0x04 _ rfl) (F w x y z 0x05 _ rfl) (by decide) (by decide) (by decide) (by decide) (by decide)
    (by rw [put_four1, put_four2]) ?_
  have G := F 0 6 y z
  refine via_pop (k := 0xEEEC) (pc' := 0x08#16) (bounded_four (by decide) (by decide)) (G 0x07 _ rfl)
    (by decide) (by decide) (by decide) (four2 _ _ _ _ _) ?_
  around (.mov .ac (.reg .e)) (G 0x08 _ rfl) []
  refine via_pop (k := 0xEEED) (pc' := 0x0A#16) (bounded_four (by decide) (by decide)) (G 0x09 _ rfl)
    (by decide) (by decide) (by decide) (four1 _ _ _ _ _) ?_
  around (.mov .ac (.reg .d)) (G 0x0A _ rfl) []
  refine (malicious_sub_round H b c errs 0x0B (by decide) _ _ _ _ _ _ _ (by decide) _ _).trans (n := 23) ?_
  refine (malicious_sub_round H b c errs 0x0E (by decide) _ _ _ _ _ _ _ (by decide) _ _).trans (n := 14) ?_
  refine (malicious_sub_round H b c errs 0x11 (by decide) _ _ _ _ _ _ _ (by decide) _ _).trans (n := 5) ?_
  have G1 := F 0 0x14 0 0x1C
  around (.mov (.reg .d) .ac) (G1 0x14 _ rfl) []
  refine via_push (k := 0xEEED) (pc' := 0x16#16) (bounded_four (by decide) (by decide)) (G1 0x15 _ rfl)
    (by decide) (by decide) (by decide) (put_four1 _ _ _ _ _ _) ?_
  around (.mov (.reg .e) .ac) (G1 0x16 _ rfl) []
  refine via_push (k := 0xEEEC) (pc' := 0x18#16) (bounded_four (by decide) (by decide)) (G1 0x17 _ rfl)
    (by decide) (by decide) (by decide) (put_four2 _ _ _ _ _ _) ?_
  have G2 := F 0 3 0 0x1C
  exact via_ret (k := 0xEEEC) (bounded_four (by decide) (by decide)) (G2 0x18 _ rfl)
    (by decide) (by decide) (four1 _ _ _ _ _) (four2 _ _ _ _ _) (by decide) (.refl _ _)

end

theorem rounds_run {I : P → Prop} {N : Nat} (hN : 0 < N) {s0 s1 s2 : P} (e0 : s0.step = some s1)
    (e1 : Via I N s1 s2) (e2 : Via I N s2 s2) :
    (∀ k, ∃ q, P.run (k + 1) s0 = some q ∧ I q) ∧ ∀ n, P.run (1 + N * (n + 1)) s0 = some s2 := by
  have rounds : ∀ n, Via I (N * (n + 1)) s1 s2 := by
    intro n
    induction n with
    | zero => rw [Nat.zero_add, Nat.mul_one]; exact e1
    | succ n ih => rw [Nat.mul_succ N (n + 1)]; exact ih.trans e2
  have first : ∀ k, P.run (k + 1) s0 = P.run k s1 := by
    intro k
    rw [P.run, e0]
    rfl
  constructor
  · intro k
    obtain ⟨r1, r2⟩ := rounds k
    have hk : k < N * (k + 1) := Nat.lt_of_lt_of_le (Nat.lt_succ_self k) (Nat.le_mul_of_pos_left _ hN)
    rw [first]
    cases h : P.run k s1 with
    | some q => exact ⟨q, rfl, r2 k hk q h⟩
    | none =>
      obtain ⟨j, hj⟩ := Nat.exists_eq_add_of_le (Nat.le_of_lt hk)
      rw [hj, P.run_add, h] at r1
      cases r1
  · intro n
    rw [Nat.add_comm, first]
    exact (rounds n).1

/-- The whole run: `INISP`, and any number of rounds. -/
theorem malicious_runs {m m0 : BitVec 16 → BitVec 8} (w : Written m0 0 maliciousCode.flatten m) (p : P) :
    (∀ k, ∃ q, P.run (k + 1) { p with mem := m, pc := 0x00#16 } = some q ∧ Bounded m p.b p.c p.errs q) ∧
    ∀ n, P.run (1 + 37 * (n + 1)) { p with mem := m, pc := 0x00#16 } =
      some { p with ac := 0x03#8, d := 0x00#8, e := 0x03#8, pc := 0x03#16, sp := 0xEEEE#16, fc := false, fz := false,
                    mem := four m 0x00#8 0x03#8 0x00#8 0x1C#8 } := by
  have H := Holds.of_written w
  obtain ⟨ac, b, c, d, e, pc, sp, fc, fz, mem, errs⟩ := p
  have g1 : m 0x01#16 = 0xEE#8 := H 0x01 _ rfl
  have g2 : m 0x02#16 = 0xEE#8 := H 0x02 _ rfl
  let s0 : P := ⟨ac, b, c, d, e, 0x00#16, sp, fc, fz, m, errs⟩
  let s1 : P := ⟨ac, b, c, d, e, 0x03#16, 0xEEEE#16, fc, fz, m, errs⟩
  let s2 : P := ⟨0x03#8, b, c, 0x00#8, 0x03#8, 0x03#16, 0xEEEE#16, false, false, four m 0x00#8 0x03#8 0x00#8 0x1C#8, errs⟩
  show (∀ k, ∃ q, P.run (k + 1) s0 = some q ∧ Bounded m b c errs q) ∧
    ∀ n, P.run (1 + 37 * (n + 1)) s0 = some s2
  have e0 : s0.step = some s1 := by
    rw [P.step_of .inisp (by show decode (m 0#16) = _; rw [H 0 _ rfl]; decide +kernel) (by decide) (by simp)]
    simp [P.instr, P.next_mk, P.address, P.byte, g1, g2, s0, s1]
  have e1 : Via (Bounded m b c errs) 37 s1 s2 := by
    have := malicious_round H b c errs ac d e (m 0xEEED#16) (m 0xEEEC#16) (m 0xEEEB#16) (m 0xEEEA#16) fc fz
    rwa [four_self] at this
  have e2 : Via (Bounded m b c errs) 37 s2 s2 := malicious_round H b c errs _ _ _ _ _ _ _ _ _
  exact rounds_run (N := 37) (by decide) e0 e1 e2

end Mpp.Front
