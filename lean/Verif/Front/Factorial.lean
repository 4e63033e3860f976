import Verif.Front.Docs
import Mathlib.Data.Nat.Factorial.Basic
/-!
# The programs of the documentation: factorial

The text is that of `docs/src/pages/es/examples/factorial.mdx:37`, with the number left open.
-/
namespace Mpp.Front

/-- The statements from the first `CALL` on. -/
def factorialTail : List (Stmt × Str) :=
  [(⟨none, .call, .label "TFFACTORIAL".toList⟩, "TFFACTORIAL".toList), (⟨none, .fin, .none⟩, []),
    (⟨some "TFFACTORIAL".toList, .alu .cmp .imm, .num 0x1⟩, "1".toList),
    (⟨none, .beq, .label "T_BASE".toList⟩, "T_BASE".toList), (⟨none, .push, .none⟩, []),
    (⟨none, .alu .sub .imm, .num 0x1⟩, "01".toList),
    (⟨none, .call, .label "TFFACTORIAL".toList⟩, "TFFACTORIAL".toList),
    (⟨none, .mov .ac (.reg .c), .none⟩, []), (⟨none, .pop, .none⟩, []),
    (⟨none, .mov .ac (.reg .b), .none⟩, []), (⟨none, .call, .label "TFMULT".toList⟩, "TFMULT".toList),
    (⟨none, .jmp, .label "TFFACTORIAL_RET".toList⟩, "TFFACTORIAL_RET".toList),
    (⟨some "T_BASE".toList, .mov .imm .ac, .num 0x1⟩, "1".toList),
    (⟨some "TFFACTORIAL_RET".toList, .ret, .none⟩, []),
    (⟨some "TFMULT".toList, .mov (.reg .b) .ac, .none⟩, []), (⟨none, .push, .none⟩, []),
    (⟨some "TSTART".toList, .mov (.reg .c) .ac, .none⟩, []),
    (⟨none, .alu .cmp .imm, .num 0x1⟩, "01".toList),
    (⟨none, .beq, .label "TFIN".toList⟩, "TFIN".toList), (⟨none, .pop, .none⟩, []),
    (⟨none, .alu .add (.reg .b), .none⟩, []), (⟨none, .push, .none⟩, []),
    (⟨none, .mov (.reg .c) .ac, .none⟩, []), (⟨none, .alu .sub .imm, .num 0x1⟩, "01".toList),
    (⟨none, .mov .ac (.reg .c), .none⟩, []), (⟨none, .jmp, .label "TSTART".toList⟩, "TSTART".toList),
    (⟨some "TFIN".toList, .pop, .none⟩, []), (⟨none, .ret, .none⟩, [])]

def factorialProg (a : BitVec 8) : List Stmt :=
  ⟨none, .inisp, .num 0xEEEE⟩ :: ⟨none, .mov .imm .ac, .num a.toNat⟩ :: factorialTail.map (·.1)

def factorialCode (x : BitVec 8) : List (List (BitVec 8)) :=
  [[0xC3, 0xEE, 0xEE], [0x64, x], [0xC4, 0x00, 0x09], [0xFF], [0x67, 0x01], [0x72, 0x00, 0x1D],
    [0xC1], [0x66, 0x01], [0xC4, 0x00, 0x09], [0x41], [0xC2], [0x40], [0xC4, 0x00, 0x20],
    [0x74, 0x00, 0x1F], [0x64, 0x01], [0xC5], [0x10], [0xC1], [0x11], [0x67, 0x01], [0x72, 0x00, 0x32],
    [0xC2], [0x30], [0xC1], [0x11], [0x66, 0x01], [0x41], [0x74, 0x00, 0x22], [0xC2], [0xC5]]

/-- The lines after the number. -/
def factorialRest : List Str :=
  ["CALL TFFACTORIAL", "FIN", "", "# define fact(AC)", "TFFACTORIAL CMP 1", "BEQ T_BASE", "PUSH # X",
    "SUB 01 # AC = X-1", "CALL TFFACTORIAL # fact(X-1)", "MOV AC, RC", "POP", "MOV AC, RB # X",
    "CALL TFMULT # X * fact(X-1)", "JMP TFFACTORIAL_RET", "", "T_BASE MOV 1, AC # base case", "",
    "TFFACTORIAL_RET RET", "", "# define multiply(RB, RC)", "TFMULT MOV RB, AC", "PUSH", "",
    "TSTART MOV RC, AC", "CMP 01", "BEQ TFIN", "POP", "ADD RB", "PUSH", "MOV RC, AC", "SUB 01",
    "MOV AC, RC", "JMP TSTART", "TFIN POP", "RET"].map String.toList

/-- The text, line by line, with `x` in place of `3`. -/
def factorialText (x : Str) : Str :=
  join '\n' (["INISP EEEE".toList, []] ++ ["MOV ".toList ++ x ++ ", AC # 3!".toList] ++ factorialRest)

theorem factorial_line (x : Str) : "MOV ".toList ++ x ++ ", AC # 3!".toList =
    textOf (.mov .imm .ac) x ++ " ".toList ++ "# 3!".toList := by
  simp only [textOf, syntaxOf, Slot.ofOperand, Slot.ofDest, Slot.text]
  have e1 : "MOV ".toList = "MOV".toList ++ [' '] := by decide
  have e2 : ", AC # 3!".toList = [',', ' '] ++ acName ++ " ".toList ++ "# 3!".toList := by decide +kernel
  rw [e1, e2]
  simp only [List.append_assoc, List.cons_append, List.nil_append]

theorem factorial_source {x : Str} {a : BitVec 8} (hx : ByteText x a) :
    Source (factorialText x) (factorialProg a) := by
  refine TextPart.source ?_ (by simp)
  rw [factorial_line, List.append_assoc]
  exact (TextPart.fixed [(⟨none, .inisp, .num 0xEEEE⟩, "EEEE".toList)] (by decide +kernel) (by decide +kernel)
    (by decide +kernel) (by decide +kernel)).append ((TextPart.byte hx rfl " ".toList "# 3!".toList (by decide)
    (by decide) (.inr (by decide)) (by decide)).append
    (TextPart.fixed factorialTail (by decide +kernel) (by decide +kernel) (by decide +kernel) (by decide +kernel)))

theorem factorial_labels (a : BitVec 8) (l : Str) :
    labelAddr (factorialProg a) l = labelAddr (factorialProg 0) l := rfl

theorem factorial_code (a : BitVec 8) : Code (factorialProg a) (factorialCode a) := by
  refine .cons ⟨_, _, 0xEEEE, rfl, by decide +kernel, rfl, by decide, rfl⟩
    (.cons (stmtCode_byte _ _ _ _ _ (by decide +kernel) rfl) (codeOk_sound ?_))
  rw [codeOk_congr (factorial_labels a)]
  decide +kernel

theorem factorial_valid (a : BitVec 8) : Valid (factorialProg a) ∧ LabelsAreAddresses (factorialProg a) :=
  ⟨Valid.append (show Valid [⟨none, .inisp, .num 0xEEEE⟩, ⟨none, .mov .imm .ac, .num a.toNat⟩] by
      intro st hst
      simp only [List.mem_cons, List.not_mem_nil, or_false] at hst
      rcases hst with rfl | rfl
      · exact (by decide : 0xEEEE < 256 ^ 2)
      · exact a.isLt) (by decide +kernel),
    LabelsAreAddresses.append (show LabelsAreAddresses [⟨none, .inisp, .num 0xEEEE⟩, ⟨none, .mov .imm .ac, .num a.toNat⟩] by
      intro st hst l hl
      simp only [List.mem_cons, List.not_mem_nil, or_false] at hst
      rcases hst with rfl | rfl <;> cases hl) (by decide +kernel)⟩

/-- The routine TFMULT: AC = B·C, at any depth of the stack. -/
theorem factorial_mult {x0 : BitVec 8} {m : BitVec 16 → BitVec 8} (H : Holds (factorialCode x0).flatten m)
    (x y d e : BitVec 8) (errs : List Err) {j : Nat} (h1 : 52 ≤ j) (h2 : j + 3 < 65536) {a : BitVec 16}
    (ha : m (BitVec.ofNat 16 (j + 2)) ++ m (BitVec.ofNat 16 (j + 1)) = a) (ac : BitVec 8) (fc fz : Bool) :
    Runs ⟨ac, x, y, d, e, 0x20#16, BitVec.ofNat 16 (j + 1), fc, fz, m, errs⟩
      ⟨x * y, x, 1#8, d, e, a, BitVec.ofNat 16 (j + 3), false, true, put m j (x * y), errs⟩ := by
  have loop : ∀ (k : Nat) (ac c acc : BitVec 8) (fc fz : Bool), (c - 1).toNat = k →
      Runs ⟨ac, x, c, d, e, 0x22#16, BitVec.ofNat 16 j, fc, fz, put m j acc, errs⟩
        ⟨acc + x * (c - 1), x, 1#8, d, e, a, BitVec.ofNat 16 (j + 3), false, true,
          put m j (acc + x * (c - 1)), errs⟩ := by
    intro k
    induction k with
    | zero =>
      intro ac c acc fc fz hk
      have hc : c = 1#8 := by
        have : c - 1 = 0 := BitVec.eq_of_toNat_eq hk
        have h2 : c = (c - 1) + 1 := by rw [BitVec.sub_add_cancel]
        rw [h2, this]
        rfl
      subst hc
      have H' : Holds (factorialCode x0).flatten (put m j acc) := H.put acc h1 (by omega)
      have g1 : put m j acc 0x24#16 = 1#8 := H' 0x24 _ rfl
      have g2 : put m j acc 0x26#16 = 0#8 := H' 0x26 _ rfl
      have g3 : put m j acc 0x27#16 = 0x32#8 := H' 0x27 _ rfl
      follow (.mov (.reg .c) .ac) (H' 0x22 _ rfl) []
      follow (.alu .cmp .imm) (H' 0x23 _ rfl) [g1]
      follow .beq (H' 0x25 _ rfl) [g2, g3]
      refine runs_pop (H' 0x32 _ rfl) (by decide) rfl (by omega) ?_
      rw [put_same]
      refine runs_ret (a := a) (H' 0x33 _ rfl) (by decide) (by omega) ?_ ?_
      · rw [put_other _ _ (by omega) (by omega) (by omega), put_other _ _ (by omega) (by omega) (by omega)]
        exact ha
      · have : acc + x * (1#8 - 1) = acc := by simp
        rw [this]
        exact .refl _
    | succ k ih =>
      intro ac c acc fc fz hk
      have hc : c ≠ 1#8 := by
        rintro rfl
        simp at hk
      have H' : Holds (factorialCode x0).flatten (put m j acc) := H.put acc h1 (by omega)
      have H2 : Holds (factorialCode x0).flatten (put m j (acc + x)) := H.put _ h1 (by omega)
      have g1 : put m j acc 0x24#16 = 1#8 := H' 0x24 _ rfl
      have g2 : put m j (acc + x) 0x2D#16 = 1#8 := H2 0x2D _ rfl
      have g3 : put m j (acc + x) 0x30#16 = 0#8 := H2 0x30 _ rfl
      have g4 : put m j (acc + x) 0x31#16 = 0x22#8 := H2 0x31 _ rfl
      follow (.mov (.reg .c) .ac) (H' 0x22 _ rfl) []
      follow (.alu .cmp .imm) (H' 0x23 _ rfl) [g1, hc]
      follow .beq (H' 0x25 _ rfl) []
      refine runs_pop (H' 0x28 _ rfl) (by decide) rfl (by omega) ?_
      rw [put_same]
      follow (.alu .add (.reg .b)) (H' 0x29 _ rfl) []
      refine runs_push (H' 0x2A _ rfl) (by decide) rfl (by omega) ?_
      rw [put_put]
      follow (.mov (.reg .c) .ac) (H2 0x2B _ rfl) []
      follow (.alu .sub .imm) (H2 0x2C _ rfl) [g2]
      follow (.mov .ac (.reg .c)) (H2 0x2E _ rfl) []
      follow .jmp (H2 0x2F _ rfl) [g3, g4]
      have h1 : (c - 1#8 - 1).toNat = k := by
        have : (c - 1).toNat = k + 1 := hk
        rw [BitVec.toNat_sub] at this ⊢
        simp at this ⊢
        omega
      have h2 := ih (c - 1#8) (c - 1#8) (acc + x) (decide (c.toNat = 0)) (decide (c - 1#8 = 0#8)) h1
      have h3 : acc + x + x * (c - 1#8 - 1) = acc + x * (c - 1) := by
        have := mul_step x (c - 1#8)
        rw [BitVec.add_assoc, ← this]
        rfl
      rw [h3] at h2
      exact h2
  follow (.mov (.reg .b) .ac) (H 0x20 _ rfl) []
  refine runs_push (H 0x21 _ rfl) (by decide) rfl (by omega) ?_
  have h := loop _ x y x fc fz rfl
  rw [← mul_step x y] at h
  exact h

/-- The routine TFFACTORIAL on `n`, called with `j` = n - 1 levels to go: it returns with AC = n! and has
used 3·j cells of the stack. -/
theorem factorial_fact {x0 : BitVec 8} (j : Nat) : ∀ (n b c d e : BitVec 8) (errs : List Err) (k : Nat)
    (m : BitVec 16 → BitVec 8) (a : BitVec 16) (fc fz : Bool), (n - 1).toNat = j →
    Holds (factorialCode x0).flatten m → 52 + 3 * j ≤ k → k + 2 < 65536 →
    m (BitVec.ofNat 16 (k + 1)) ++ m (BitVec.ofNat 16 k) = a →
    ∃ m', Runs ⟨n, b, c, d, e, 0x09#16, BitVec.ofNat 16 k, fc, fz, m, errs⟩
      ⟨BitVec.ofNat 8 (j + 1).factorial, if j = 0 then b else n, if j = 0 then c else 1, d, e, a,
        BitVec.ofNat 16 (k + 2), false, true, m', errs⟩ ∧
      ∀ i : BitVec 16, i.toNat + 3 * j < k ∨ k ≤ i.toNat → m' i = m i := by
  induction j with
  | zero =>
    intro n b c d e errs k m a fc fz hj H hk hk2 ha
    have hn : n = 1#8 := by
      have : n - 1 = 0 := BitVec.eq_of_toNat_eq hj
      have h2 : n = (n - 1) + 1 := by rw [BitVec.sub_add_cancel]
      rw [h2, this]
      rfl
    subst hn
    have g1 : m 0x0A#16 = 1#8 := H 0x0A _ rfl
    have g2 : m 0x0C#16 = 0#8 := H 0x0C _ rfl
    have g3 : m 0x0D#16 = 0x1D#8 := H 0x0D _ rfl
    have g4 : m 0x1E#16 = 1#8 := H 0x1E _ rfl
    refine ⟨m, ?_, fun _ _ => rfl⟩
    follow (.alu .cmp .imm) (H 0x09 _ rfl) [g1]
    follow .beq (H 0x0B _ rfl) [g2, g3]
    follow (.mov .imm .ac) (H 0x1D _ rfl) [g4]
    exact runs_ret (H 0x1F _ rfl) (by decide) (by omega) ha (.refl _)
  | succ j ih =>
    intro n b c d e errs k m a fc fz hj H hk hk2 ha
    have hn : n ≠ 1#8 := by
      rintro rfl
      simp at hj
    obtain ⟨k, rfl⟩ : ∃ k', k = k' + 3 := ⟨k - 3, by omega⟩
    have g1 : m 0x0A#16 = 1#8 := H 0x0A _ rfl
    let m1 := put m (k + 2) n
    have H1 : Holds (factorialCode x0).flatten m1 := H.put n (show 52 ≤ _ by omega) (by omega)
    have g2 : m1 0x10#16 = 1#8 := H1 0x10 _ rfl
    let m2 := put (put m1 (k + 1) 0x00#8) k 0x14#8
    have H2 : Holds (factorialCode x0).flatten m2 :=
      (H1.put _ (show 52 ≤ _ by omega) (by omega)).put _ (show 52 ≤ _ by omega) (by omega)
    obtain ⟨m3, run, frame⟩ := ih (n - 1#8) b c d e errs k m2 0x0014#16 (decide (n.toNat = 0)) (decide (n - 1#8 = 0#8))
      (by
        have : (n - 1).toNat = j + 1 := hj
        rw [BitVec.toNat_sub] at this ⊢
        simp at this ⊢
        omega) H2 (by omega) (by omega) (by
        show (put (put m1 (k + 1) 0x00#8) k 0x14#8 _ ++ put (put m1 (k + 1) 0x00#8) k 0x14#8 _ : BitVec 16) = _
        rw [put_same, put_other _ _ (by omega) (by omega) (by omega), put_same]
        rfl)
    have H3 : Holds (factorialCode x0).flatten m3 := fun i v hi => by
      have hl : i < 52 := (List.getElem?_eq_some_iff.1 hi).1
      rw [frame _ (.inl (by rw [BitVec.toNat_ofNat]; omega))]
      exact H2 i v hi
    have t3 : m3 (BitVec.ofNat 16 (k + 2)) = n := by
      rw [frame _ (.inr (by rw [BitVec.toNat_ofNat]; omega))]
      show put (put m1 (k + 1) 0x00#8) k 0x14#8 _ = _
      rw [put_other _ _ (by omega) (by omega) (by omega), put_other _ _ (by omega) (by omega) (by omega)]
      exact put_same _ _ _
    let m4 := put (put m3 (k + 2) 0x00#8) (k + 1) 0x1A#8
    have H4 : Holds (factorialCode x0).flatten m4 :=
      (H3.put _ (show 52 ≤ _ by omega) (by omega)).put _ (show 52 ≤ _ by omega) (by omega)
    have mult := factorial_mult H4 n (BitVec.ofNat 8 (j + 1).factorial) d e errs (j := k) (by omega) (by omega)
      (a := 0x001A#16) (by
        show (put (put m3 (k + 2) 0x00#8) (k + 1) 0x1A#8 _ ++ put (put m3 (k + 2) 0x00#8) (k + 1) 0x1A#8 _ : BitVec 16) = _
        rw [put_same, put_other _ _ (by omega) (by omega) (by omega), put_same]
        rfl)
    have value : n * BitVec.ofNat 8 (j + 1).factorial = BitVec.ofNat 8 (j + 1 + 1).factorial := by
      have e : n = BitVec.ofNat 8 (j + 1 + 1) := by
        have h2 : n = (n - 1) + 1 := by rw [BitVec.sub_add_cancel]
        rw [h2]
        apply BitVec.eq_of_toNat_eq
        rw [BitVec.toNat_add, hj]
        simp
      rw [e, Nat.factorial_succ (j + 1), BitVec.ofNat_mul]
    let m5 := put m4 k (BitVec.ofNat 8 (j + 1 + 1).factorial)
    have H5 : Holds (factorialCode x0).flatten m5 := H4.put _ (show 52 ≤ _ by omega) (by omega)
    have g5 : m5 0x1B#16 = 0#8 := H5 0x1B _ rfl
    have g6 : m5 0x1C#16 = 0x1F#8 := H5 0x1C _ rfl
    have last : ∀ i : BitVec 16, i.toNat + 3 * (j + 1) < k + 3 ∨ k + 3 ≤ i.toNat → m5 i = m i := by
      intro i hi
      show put (put (put m3 (k + 2) 0x00#8) (k + 1) 0x1A#8) k _ i = _
      rw [put_ne _ _ (by omega) (by omega), put_ne _ _ (by omega) (by omega), put_ne _ _ (by omega) (by omega),
        frame i (by omega)]
      show put (put (put m (k + 2) n) (k + 1) 0x00#8) k 0x14#8 i = _
      rw [put_ne _ _ (by omega) (by omega), put_ne _ _ (by omega) (by omega), put_ne _ _ (by omega) (by omega)]
    have lastAt : ∀ i, k + 3 ≤ i → i < 65536 → m5 (BitVec.ofNat 16 i) = m (BitVec.ofNat 16 i) := by
      intro i h1 h2
      exact last _ (.inr (by rw [BitVec.toNat_ofNat]; omega))
    refine ⟨m5, ?_, last⟩
    rw [if_neg (by omega), if_neg (by omega)]
    follow (.alu .cmp .imm) (H 0x09 _ rfl) [g1, hn]
    follow .beq (H 0x0B _ rfl) []
    refine runs_push (H 0x0E _ rfl) (by decide) rfl (by omega) ?_
    change Runs ⟨_, _, _, _, _, _, _, _, _, m1, _⟩ _
    follow (.alu .sub .imm) (H1 0x0F _ rfl) [g2]
    refine runs_call 0x11 (H1 0x11 _ rfl) (H1 0x12 _ rfl) (H1 0x13 _ rfl) (by decide) (a := 0x09#16) rfl
      (by omega) ?_
    refine run.trans ?_
    follow (.mov .ac (.reg .c)) (H3 0x14 _ rfl) []
    refine runs_pop (H3 0x15 _ rfl) (by decide) rfl (by omega) ?_
    rw [t3]
    follow (.mov .ac (.reg .b)) (H3 0x16 _ rfl) []
    refine runs_call 0x17 (H3 0x17 _ rfl) (H3 0x18 _ rfl) (H3 0x19 _ rfl) (by decide) (a := 0x20#16) rfl
      (by omega) ?_
    refine (mult _ _ _).trans ?_
    rw [value]
    change Runs ⟨_, _, _, _, _, _, _, _, _, m5, _⟩ _
    follow .jmp (H5 0x1A _ rfl) [g5, g6]
    refine runs_ret (H5 0x1F _ rfl) (by decide) (by omega) ?_ (.refl _)
    rw [lastAt _ (by omega) (by omega), lastAt _ (by omega) (by omega)]
    exact ha

theorem factorial_runs {m : BitVec 16 → BitVec 8} {m0 : BitVec 16 → BitVec 8} {x : BitVec 8}
    (w : Written m0 0 (factorialCode x).flatten m) (p : P) :
    ∃ m', Runs { p with mem := m, pc := 0 }
      { p with mem := m', pc := 0x08, sp := 0xEEEE, ac := BitVec.ofNat 8 ((x - 1).toNat + 1).factorial,
               b := if (x - 1).toNat = 0 then p.b else x, c := if (x - 1).toNat = 0 then p.c else 1,
               fz := true, fc := false } ∧
      ∀ i : BitVec 16, i.toNat + 3 * (x - 1).toNat < 0xEEEC ∨ 0xEEEE ≤ i.toNat → m' i = m i := by
  have H := Holds.of_written w
  obtain ⟨ac, b, c, d, e, pc, sp, fc, fz, mem, errs⟩ := p
  have g1 : m 0x01#16 = 0xEE#8 := H 0x01 _ rfl
  have g2 : m 0x02#16 = 0xEE#8 := H 0x02 _ rfl
  have g3 : m 0x04#16 = x := H 0x04 _ rfl
  have hx : (x - 1).toNat < 256 := (x - 1).isLt
  let m1 := put (put m 0xEEED 0x00#8) 0xEEEC 0x08#8
  have H1 : Holds (factorialCode x).flatten m1 :=
    (H.put _ (show 52 ≤ _ by decide) (by decide)).put _ (show 52 ≤ _ by decide) (by decide)
  obtain ⟨m', run, frame⟩ := factorial_fact (x0 := x) _ x b c d e errs 0xEEEC m1 0x08#16 fc fz rfl H1 (by omega)
    (by decide) (by
      show (put (put m 0xEEED 0x00#8) 0xEEEC 0x08#8 0xEEED#16 ++ put (put m 0xEEED 0x00#8) 0xEEEC 0x08#8 0xEEEC#16 : BitVec 16) = _
      rw [put_same, put_ne _ _ (by decide) (by decide), put_same]
      rfl)
  refine ⟨m', ?_, ?_⟩
  · follow .inisp (H 0x00 _ rfl) [g1, g2]
    follow (.mov .imm .ac) (H 0x03 _ rfl) [g3]
    refine runs_call (k := 0xEEEC) 0x05 (H 0x05 _ rfl) (H 0x06 _ rfl) (H 0x07 _ rfl) (by decide) (a := 0x09#16) rfl
      (by decide) ?_
    exact run
  · intro i hi
    rw [frame i (by omega)]
    show put (put m 0xEEED 0x00#8) 0xEEEC 0x08#8 i = _
    rw [put_ne _ _ (by omega) (by decide), put_ne _ _ (by omega) (by decide)]

end Mpp.Front
