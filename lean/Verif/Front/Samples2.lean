import Verif.Front.Samples
/-!
# The example programs: SEARCH IN BUFFER FOR '05' and CALL FUNCTION
-/
namespace Mpp.Front

/-! ## SEARCH IN BUFFER FOR '05' -/

def searchText : Str := "MOV 01, RD\nMOV 02, RE\nMOV 05, AC\nSTAX\n\nMOV 00, RD\nMOV FE, RE\nTS LDAX\n\nCMP 05\nBEQ TF\n\nMOV RE, AC\nCMP FF\nBEQ TD\nJMP TE\n\nTD INC RD\nTE INC RE\n\nJMP TS\nTF FIN".toList

def searchProg : List (Stmt × Str) :=
  [(⟨none, .mov .imm (.reg .d), .num 1⟩, "01".toList), (⟨none, .mov .imm (.reg .e), .num 2⟩, "02".toList),
    (⟨none, .mov .imm .ac, .num 5⟩, "05".toList), (⟨none, .stax, .none⟩, []),
    (⟨none, .mov .imm (.reg .d), .num 0⟩, "00".toList), (⟨none, .mov .imm (.reg .e), .num 0xFE⟩, "FE".toList),
    (⟨some "TS".toList, .ldax, .none⟩, []), (⟨none, .alu .cmp .imm, .num 5⟩, "05".toList),
    (⟨none, .beq, .label "TF".toList⟩, "TF".toList), (⟨none, .mov (.reg .e) .ac, .none⟩, []),
    (⟨none, .alu .cmp .imm, .num 0xFF⟩, "FF".toList), (⟨none, .beq, .label "TD".toList⟩, "TD".toList),
    (⟨none, .jmp, .label "TE".toList⟩, "TE".toList), (⟨some "TD".toList, .inc (.reg .d), .none⟩, []),
    (⟨some "TE".toList, .inc (.reg .e), .none⟩, []), (⟨none, .jmp, .label "TS".toList⟩, "TS".toList),
    (⟨some "TF".toList, .fin, .none⟩, [])]

def searchCode : List (List (BitVec 8)) :=
  [[0x62, 0x01], [0x63, 0x02], [0x64, 0x05], [0x90], [0x62, 0x00], [0x63, 0xFE], [0xB0], [0x67, 0x05],
    [0x72, 0x00, 0x1F], [0x13], [0x67, 0xFF], [0x72, 0x00, 0x1A], [0x74, 0x00, 0x1B], [0x2E], [0x2F],
    [0x74, 0x00, 0x0B], [0xFF]]

theorem search_source : Source searchText (searchProg.map (·.1)) :=
  source_of searchProg (by decide +kernel) (by decide +kernel) (by decide +kernel)

theorem search_valid : Valid (searchProg.map (·.1)) ∧ LabelsAreAddresses (searchProg.map (·.1)) := by
  constructor <;> decide +kernel

/-- The address of a label, from its place in the program. -/
theorem labelAt {prog : List Stmt} {l : Str} {n : Nat} (k : Nat) (st : Stmt) (hs : prog[k]? = some st)
    (hl : st.label = some l) (hb : ∀ x ∈ prog.take k, x.label ≠ some l) (hn : sizeOf (prog.take k) = n) :
    LabelAt prog l n := by
  refine ⟨prog.take k, st, prog.drop (k + 1), ?_, hl, hb, hn.symm⟩
  obtain ⟨hk, e⟩ := List.getElem?_eq_some_iff.1 hs
  rw [← e, ← List.drop_eq_getElem_cons hk, List.take_append_drop]

/-- Code of an instruction without operand. -/
theorem stmtCode_bare (q : List Stmt) (l : Option Str) (i : Instr) (op : BitVec 8) (hd : decode op = some i)
    (hk : kindOf i = .none) : StmtCode q ⟨l, i, .none⟩ [op] := by
  refine ⟨op, [], 0, rfl, hd, trivial, ?_⟩
  simp only [hk]

/-- Code of an instruction with a byte. -/
theorem stmtCode_byte (q : List Stmt) (l : Option Str) (i : Instr) (op x : BitVec 8)
    (hd : decode op = some i) (hk : kindOf i = .byte) : StmtCode q ⟨l, i, .num x.toNat⟩ [op, x] := by
  refine ⟨op, _, x.toNat, rfl, hd, rfl, ?_⟩
  simp only [hk]
  exact ⟨x.isLt, by simp⟩

/-- Code of a jump to a label. -/
theorem stmtCode_jump (q : List Stmt) (l : Option Str) (i : Instr) (op hi lo : BitVec 8) (t : Str) (n : Nat)
    (hd : decode op = some i) (hk : kindOf i = .addr) (hl : LabelAt q t n) (hn : n < 65536)
    (e : BitVec.ofNat 8 (n / 256) = hi) (e' : BitVec.ofNat 8 (n % 256) = lo) :
    StmtCode q ⟨l, i, .label t⟩ [op, hi, lo] := by
  refine ⟨op, _, n, rfl, hd, hl, ?_⟩
  simp only [hk]
  exact ⟨hn, by rw [e, e']⟩

theorem search_code : Code (searchProg.map (·.1)) searchCode := by
  have ls : LabelAt (searchProg.map (·.1)) "TS".toList 0x0B :=
    labelAt 6 _ rfl rfl (by decide +kernel) (by decide +kernel)
  have lf : LabelAt (searchProg.map (·.1)) "TF".toList 0x1F :=
    labelAt 16 _ rfl rfl (by decide +kernel) (by decide +kernel)
  have ld : LabelAt (searchProg.map (·.1)) "TD".toList 0x1A :=
    labelAt 13 _ rfl rfl (by decide +kernel) (by decide +kernel)
  have le : LabelAt (searchProg.map (·.1)) "TE".toList 0x1B :=
    labelAt 14 _ rfl rfl (by decide +kernel) (by decide +kernel)
  exact .cons (stmtCode_byte _ _ _ _ 0x01 (by decide +kernel) rfl)
    (.cons (stmtCode_byte _ _ _ _ 0x02 (by decide +kernel) rfl)
    (.cons (stmtCode_byte _ _ _ _ 0x05 (by decide +kernel) rfl)
    (.cons (stmtCode_bare _ _ _ _ (by decide +kernel) rfl)
    (.cons (stmtCode_byte _ _ _ _ 0x00 (by decide +kernel) rfl)
    (.cons (stmtCode_byte _ _ _ _ 0xFE (by decide +kernel) rfl)
    (.cons (stmtCode_bare _ _ _ _ (by decide +kernel) rfl)
    (.cons (stmtCode_byte _ _ _ _ 0x05 (by decide +kernel) rfl)
    (.cons (stmtCode_jump _ _ _ _ _ _ _ _ (by decide +kernel) rfl lf (by decide) rfl rfl)
    (.cons (stmtCode_bare _ _ _ _ (by decide +kernel) rfl)
    (.cons (stmtCode_byte _ _ _ _ 0xFF (by decide +kernel) rfl)
    (.cons (stmtCode_jump _ _ _ _ _ _ _ _ (by decide +kernel) rfl ld (by decide) rfl rfl)
    (.cons (stmtCode_jump _ _ _ _ _ _ _ _ (by decide +kernel) rfl le (by decide) rfl rfl)
    (.cons (stmtCode_bare _ _ _ _ (by decide +kernel) rfl)
    (.cons (stmtCode_bare _ _ _ _ (by decide +kernel) rfl)
    (.cons (stmtCode_jump _ _ _ _ _ _ _ _ (by decide +kernel) rfl ls (by decide) rfl rfl)
    (.cons (stmtCode_bare _ _ _ _ (by decide +kernel) rfl) .nil))))))))))))))))

/-- Memory after the program has stored the 5 it will find at the latest. -/
def planted (m : BitVec 16 → BitVec 8) : BitVec 16 → BitVec 8 := fun i => if i = 0x0102#16 then 5#8 else m i

theorem search_runs {m : BitVec 16 → BitVec 8} {m0 : BitVec 16 → BitVec 8}
    (w : Written m0 0 searchCode.flatten m) (p : P) :
    ∃ d e : BitVec 8, 0xFE ≤ (d ++ e).toNat ∧ (d ++ e).toNat ≤ 0x102 ∧ planted m (d ++ e) = 5#8 ∧
      (∀ i : BitVec 16, 0xFE ≤ i.toNat → i.toNat < (d ++ e).toNat → planted m i ≠ 5#8) ∧
      Runs { p with mem := m, pc := 0 }
        { p with mem := planted m, pc := 0x1F, ac := 5, d := d, e := e, fz := true, fc := false } := by
  have f0 : m 0x00#16 = 0x62#8 := w.here 0x00 _ rfl
  have f1 : m 0x01#16 = 0x01#8 := w.here 0x01 _ rfl
  have f2 : m 0x02#16 = 0x63#8 := w.here 0x02 _ rfl
  have f3 : m 0x03#16 = 0x02#8 := w.here 0x03 _ rfl
  have f4 : m 0x04#16 = 0x64#8 := w.here 0x04 _ rfl
  have f5 : m 0x05#16 = 0x05#8 := w.here 0x05 _ rfl
  have f6 : m 0x06#16 = 0x90#8 := w.here 0x06 _ rfl
  have f7 : planted m 0x07#16 = 0x62#8 := w.here 0x07 _ rfl
  have f8 : planted m 0x08#16 = 0x00#8 := w.here 0x08 _ rfl
  have f9 : planted m 0x09#16 = 0x63#8 := w.here 0x09 _ rfl
  have fA : planted m 0x0A#16 = 0xFE#8 := w.here 0x0A _ rfl
  have fB : planted m 0x0B#16 = 0xB0#8 := w.here 0x0B _ rfl
  have fC : planted m 0x0C#16 = 0x67#8 := w.here 0x0C _ rfl
  have fD : planted m 0x0D#16 = 0x05#8 := w.here 0x0D _ rfl
  have fE : planted m 0x0E#16 = 0x72#8 := w.here 0x0E _ rfl
  have fF : planted m 0x0F#16 = 0x00#8 := w.here 0x0F _ rfl
  have f10 : planted m 0x10#16 = 0x1F#8 := w.here 0x10 _ rfl
  have f11 : planted m 0x11#16 = 0x13#8 := w.here 0x11 _ rfl
  have f12 : planted m 0x12#16 = 0x67#8 := w.here 0x12 _ rfl
  have f13 : planted m 0x13#16 = 0xFF#8 := w.here 0x13 _ rfl
  have f14 : planted m 0x14#16 = 0x72#8 := w.here 0x14 _ rfl
  have f15 : planted m 0x15#16 = 0x00#8 := w.here 0x15 _ rfl
  have f16 : planted m 0x16#16 = 0x1A#8 := w.here 0x16 _ rfl
  have f17 : planted m 0x17#16 = 0x74#8 := w.here 0x17 _ rfl
  have f18 : planted m 0x18#16 = 0x00#8 := w.here 0x18 _ rfl
  have f19 : planted m 0x19#16 = 0x1B#8 := w.here 0x19 _ rfl
  have f1A : planted m 0x1A#16 = 0x2E#8 := w.here 0x1A _ rfl
  have f1B : planted m 0x1B#16 = 0x2F#8 := w.here 0x1B _ rfl
  have f1C : planted m 0x1C#16 = 0x74#8 := w.here 0x1C _ rfl
  have f1D : planted m 0x1D#16 = 0x00#8 := w.here 0x1D _ rfl
  have f1E : planted m 0x1E#16 = 0x0B#8 := w.here 0x1E _ rfl
  have fp : planted m 0x102#16 = 5#8 := rfl
  obtain ⟨ac, b, c, d0, e0, pc, sp, fc0, fz0, mem, errs⟩ := p
  -- found at D:E
  have found : ∀ (ac d e : BitVec 8) (fc fz : Bool), planted m (d ++ e) = 5#8 →
      Runs ⟨ac, b, c, d, e, 0x0B#16, sp, fc, fz, planted m, errs⟩
        ⟨5#8, b, c, d, e, 0x1F#16, sp, false, true, planted m, errs⟩ := by
    intro ac d e fc fz h
    follow .ldax fB [h]
    follow (.alu .cmp .imm) fC [fD]
    follow .beq fE [fF, f10]
    exact .refl _
  -- not at D:E: go on at the next address
  have lower : ∀ (ac d e : BitVec 8) (fc fz : Bool) (q : P), planted m (d ++ e) ≠ 5#8 → e ≠ 0xFF#8 →
      (∀ ac fc fz, Runs ⟨ac, b, c, d, e + 1#8, 0x0B#16, sp, fc, fz, planted m, errs⟩ q) →
      Runs ⟨ac, b, c, d, e, 0x0B#16, sp, fc, fz, planted m, errs⟩ q := by
    intro ac d e fc fz q h he hq
    follow .ldax fB []
    follow (.alu .cmp .imm) fC [fD, h]
    follow .beq fE []
    follow (.mov (.reg .e) .ac) f11 []
    follow (.alu .cmp .imm) f12 [f13, he]
    follow .beq f14 []
    follow .jmp f17 [f18, f19]
    follow (.inc (.reg .e)) f1B []
    follow .jmp f1C [f1D, f1E]
    exact hq _ _ _
  have page : ∀ (ac d : BitVec 8) (fc fz : Bool) (q : P), planted m (d ++ 0xFF#8) ≠ 5#8 →
      (∀ ac fc fz, Runs ⟨ac, b, c, d + 1#8, 0#8, 0x0B#16, sp, fc, fz, planted m, errs⟩ q) →
      Runs ⟨ac, b, c, d, 0xFF#8, 0x0B#16, sp, fc, fz, planted m, errs⟩ q := by
    intro ac d fc fz q h hq
    follow .ldax fB []
    follow (.alu .cmp .imm) fC [fD, h]
    follow .beq fE []
    follow (.mov (.reg .e) .ac) f11 []
    follow (.alu .cmp .imm) f12 [f13]
    follow .beq f14 [f15, f16]
    follow (.inc (.reg .d)) f1A []
    follow (.inc (.reg .e)) f1B []
    follow .jmp f1C [f1D, f1E]
    exact hq _ _ _
  have start : ∀ q : P, (∀ ac fc fz,
        Runs ⟨ac, b, c, 0x00#8, 0xFE#8, 0x0B#16, sp, fc, fz, planted m, errs⟩ q) →
      Runs ⟨ac, b, c, d0, e0, 0, sp, fc0, fz0, m, errs⟩ q := by
    intro q hq
    follow (.mov .imm (.reg .d)) f0 [f1]
    follow (.mov .imm (.reg .e)) f2 [f3]
    follow (.mov .imm .ac) f4 [f5]
    follow .stax f6 []
    show Runs ⟨5#8, b, c, 1#8, 2#8, 7#16, sp, fc0, fz0, planted m, errs⟩ q
    follow (.mov .imm (.reg .d)) f7 [f8]
    follow (.mov .imm (.reg .e)) f9 [fA]
    exact hq _ _ _
  -- the least address among the five
  have least : ∀ (a : Nat), 0xFE ≤ a → a ≤ 0x102 →
      (∀ k, 0xFE ≤ k → k < a → planted m (BitVec.ofNat 16 k) ≠ 5#8) →
      ∀ i : BitVec 16, 0xFE ≤ i.toNat → i.toNat < a → planted m i ≠ 5#8 := by
    intro a _ _ h i h1 h2
    have := h i.toNat h1 h2
    rwa [BitVec.ofNat_toNat, BitVec.setWidth_eq] at this
  by_cases h0 : planted m 0xFE#16 = 5#8
  · exact ⟨0x00, 0xFE, by decide, by decide, h0, least 0xFE (by decide) (by decide) (by omega),
      start _ fun _ _ _ => found _ _ _ _ _ h0⟩
  by_cases h1 : planted m 0xFF#16 = 5#8
  · refine ⟨0x00, 0xFF, by decide, by decide, h1, least 0xFF (by decide) (by decide) ?_,
      start _ fun _ _ _ => lower _ _ _ _ _ _ h0 (by decide) fun _ _ _ => found _ _ _ _ _ h1⟩
    intro k _ _
    obtain rfl : k = 0xFE := by omega
    exact h0
  by_cases h2 : planted m 0x100#16 = 5#8
  · refine ⟨0x01, 0x00, by decide, by decide, h2, least 0x100 (by decide) (by decide) ?_,
      start _ fun _ _ _ => lower _ _ _ _ _ _ h0 (by decide) fun _ _ _ => page _ _ _ _ _ h1
        fun _ _ _ => found _ _ _ _ _ h2⟩
    intro k _ _
    obtain rfl | rfl : k = 0xFE ∨ k = 0xFF := by omega
    · exact h0
    · exact h1
  by_cases h3 : planted m 0x101#16 = 5#8
  · refine ⟨0x01, 0x01, by decide, by decide, h3, least 0x101 (by decide) (by decide) ?_,
      start _ fun _ _ _ => lower _ _ _ _ _ _ h0 (by decide) fun _ _ _ => page _ _ _ _ _ h1
        fun _ _ _ => lower _ _ _ _ _ _ h2 (by decide) fun _ _ _ => found _ _ _ _ _ h3⟩
    intro k _ _
    obtain rfl | rfl | rfl : k = 0xFE ∨ k = 0xFF ∨ k = 0x100 := by omega
    · exact h0
    · exact h1
    · exact h2
  · refine ⟨0x01, 0x02, by decide, by decide, fp, least 0x102 (by decide) (by decide) ?_,
      start _ fun _ _ _ => lower _ _ _ _ _ _ h0 (by decide) fun _ _ _ => page _ _ _ _ _ h1
        fun _ _ _ => lower _ _ _ _ _ _ h2 (by decide) fun _ _ _ =>
          lower _ _ _ _ _ _ h3 (by decide) fun _ _ _ => found _ _ _ _ _ fp⟩
    intro k _ _
    obtain rfl | rfl | rfl | rfl : k = 0xFE ∨ k = 0xFF ∨ k = 0x100 ∨ k = 0x101 := by omega
    · exact h0
    · exact h1
    · exact h2
    · exact h3

/-! ## CALL FUNCTION -/

/-- The text, with `x` and `y` in place of the two `02`. -/
def callText (x y : Str) : Str :=
  "INISP 0123\n\nMOV FF, RD\nMOV FA, RE\n\nMOV 10, AC\nSTAX\n\nINC RE\nMOV 31, AC\nSTAX\n\nINC RE\nMOV 42, AC\nSTAX\n\nINC RE\nMOV C5, AC\nSTAX\n\n\nMOV ".toList ++ x ++ ", RB\nMOV ".toList ++ y ++
  ", RC\nCALL FFFA\nFIN".toList

example : callText "02".toList "02".toList = "INISP 0123\n\nMOV FF, RD\nMOV FA, RE\n\nMOV 10, AC\nSTAX\n\nINC RE\nMOV 31, AC\nSTAX\n\nINC RE\nMOV 42, AC\nSTAX\n\nINC RE\nMOV C5, AC\nSTAX\n\n\nMOV 02, RB\nMOV 02, RC\nCALL FFFA\nFIN".toList := by decide +kernel

/-- The statements before the two numbers. -/
def callHead : List (Stmt × Str) :=
  [(⟨none, .inisp, .num 0x0123⟩, "0123".toList), (⟨none, .mov .imm (.reg .d), .num 0xFF⟩, "FF".toList),
    (⟨none, .mov .imm (.reg .e), .num 0xFA⟩, "FA".toList), (⟨none, .mov .imm .ac, .num 0x10⟩, "10".toList),
    (⟨none, .stax, .none⟩, []), (⟨none, .inc (.reg .e), .none⟩, []),
    (⟨none, .mov .imm .ac, .num 0x31⟩, "31".toList), (⟨none, .stax, .none⟩, []),
    (⟨none, .inc (.reg .e), .none⟩, []), (⟨none, .mov .imm .ac, .num 0x42⟩, "42".toList),
    (⟨none, .stax, .none⟩, []), (⟨none, .inc (.reg .e), .none⟩, []),
    (⟨none, .mov .imm .ac, .num 0xC5⟩, "C5".toList), (⟨none, .stax, .none⟩, [])]

/-- The statements after them. -/
def callTail : List (Stmt × Str) :=
  [(⟨none, .call, .num 0xFFFA⟩, "FFFA".toList), (⟨none, .fin, .none⟩, [])]

def callProg (x y : BitVec 8) : List Stmt :=
  callHead.map (·.1) ++ ⟨none, .mov .imm (.reg .b), .num x.toNat⟩ ::
    ⟨none, .mov .imm (.reg .c), .num y.toNat⟩ :: callTail.map (·.1)

def callCode (x y : BitVec 8) : List (List (BitVec 8)) :=
  [[0xC3, 0x01, 0x23], [0x62, 0xFF], [0x63, 0xFA], [0x64, 0x10], [0x90], [0x2F], [0x64, 0x31], [0x90],
    [0x2F], [0x64, 0x42], [0x90], [0x2F], [0x64, 0xC5], [0x90], [0x60, x], [0x61, y], [0xC4, 0xFF, 0xFA],
    [0xFF]]

/-- The lines before and after the two numbers. -/
def callHeadLines : List Str :=
  ["INISP 0123", "", "MOV FF, RD", "MOV FA, RE", "", "MOV 10, AC", "STAX", "", "INC RE", "MOV 31, AC",
    "STAX", "", "INC RE", "MOV 42, AC", "STAX", "", "INC RE", "MOV C5, AC", "STAX", "", ""].map String.toList
def callTailLines : List Str := ["CALL FFFA", "FIN"].map String.toList

theorem join_cons' (c : Char) (a : Str) {ws : List Str} (h : ws ≠ []) :
    join c (a :: ws) = a ++ c :: join c ws := by
  cases ws with
  | nil => exact absurd rfl h
  | cons b ws => rfl

theorem join_append (c : Char) {vs ws : List Str} (h : vs ≠ []) (h' : ws ≠ []) :
    join c (vs ++ ws) = join c vs ++ c :: join c ws := by
  induction vs with
  | nil => exact absurd rfl h
  | cons v vs ih =>
    cases vs with
    | nil => rw [List.singleton_append, join_cons' c v h']; rfl
    | cons v' vs =>
      rw [List.cons_append, join_cons' c v (by simp), ih (by simp), join_cons' c v (by simp),
        List.append_assoc, List.cons_append]

theorem call_lines (x y : Str) : callText x y =
    join '\n' (callHeadLines ++ productLine x ", RB".toList :: productLine y ", RC".toList ::
      callTailLines) := by
  have e1 : "INISP 0123\n\nMOV FF, RD\nMOV FA, RE\n\nMOV 10, AC\nSTAX\n\nINC RE\nMOV 31, AC\nSTAX\n\nINC RE\nMOV 42, AC\nSTAX\n\nINC RE\nMOV C5, AC\nSTAX\n\n\nMOV ".toList =
    join '\n' callHeadLines ++ '\n' :: "MOV ".toList := by decide +kernel
  have e2 : ", RB\nMOV ".toList = ", RB".toList ++ '\n' :: "MOV ".toList := by decide +kernel
  have e3 : ", RC\nCALL FFFA\nFIN".toList = ", RC".toList ++ '\n' :: join '\n' callTailLines := by
    decide +kernel
  have hh : callHeadLines ≠ [] := by decide
  have ht : callTailLines ≠ [] := by decide
  unfold callText productLine
  rw [e1, e2, e3]
  generalize callHeadLines = hd at *
  generalize callTailLines = tl at *
  rw [join_append _ hh (by simp), join_cons' _ _ (by simp), join_cons' _ _ ht]
  simp only [List.append_assoc, List.cons_append]

/-- A line with a number. -/
theorem line_core {x : Str} {b : BitVec 8} (h : ByteText x b) (g : G) (rest : Str)
    (hr : rest = ", ".toList ++ G.name g) : productLine x rest = textOf (.mov .imm (.reg g)) x ∧
      Neat (textOf (.mov .imm (.reg g)) x) := by
  refine ⟨?_, neat_textOf (.mov .imm (.reg g)) (w := x) fun _ => h.plain⟩
  rw [hr]
  simp only [productLine, textOf, syntaxOf, Slot.ofOperand, Slot.ofDest, Slot.text]
  have e1 : "MOV ".toList = "MOV".toList ++ [' '] := by decide
  have e2 : ", ".toList = [',', ' '] := by decide
  rw [e1, e2]
  simp only [List.append_assoc, List.cons_append, List.nil_append]

theorem reads_all {ps : List (Stmt × Str)}
    (h2 : ∀ p ∈ ps, ArgText p.1.instr p.2 p.1.arg ∧ ∀ l ∈ p.1.label, IsLabel l) :
    List.Forall₂ Reads (ps.map fun p => lineOf p.1 p.2) (ps.map (·.1)) := by
  induction ps with
  | nil => exact .nil
  | cons p ps ih =>
    rw [List.map_cons, List.map_cons]
    refine .cons (reads_lineOf (h2 p (by simp)).1 fun l hl => (h2 p (by simp)).2 l (by simp [hl])) ?_
    exact ih fun q hq => h2 q (by simp [hq])

theorem call_source {x y : Str} {a b : BitVec 8} (hx : ByteText x a) (hy : ByteText y b) :
    Source (callText x y) (callProg a b) := by
  obtain ⟨c1, n1⟩ := line_core hx .b ", RB".toList (by decide +kernel)
  obtain ⟨c2, n2⟩ := line_core hy .c ", RC".toList (by decide +kernel)
  have hclean : cleanLines (callText x y) = callHeadLines ++ textOf (.mov .imm (.reg .b)) x ::
      textOf (.mov .imm (.reg .c)) y :: callTailLines := by
    rw [cleanLines_eq, call_lines, c1, c2, split_join (by simp)]
    · have e1 : callHeadLines.map clean = callHeadLines := by decide +kernel
      have e2 : callTailLines.map clean = callTailLines := by decide +kernel
      rw [List.map_append, List.map_cons, List.map_cons, clean_of_core n1.core, clean_of_core n2.core,
        e1, e2]
    · intro w hw
      simp only [List.mem_append, List.mem_cons] at hw
      rcases hw with hw | rfl | rfl | hw
      · revert w
        decide +kernel
      · exact n1.noNl
      · exact n2.noNl
      · revert w
        decide +kernel
  rw [source_iff, hclean]
  constructor
  · intro l hl
    simp only [List.mem_append, List.mem_cons] at hl
    rcases hl with hl | rfl | rfl | hl
    · revert l
      decide +kernel
    · exact n1.noTerms
    · exact n2.noTerms
    · revert l
      decide +kernel
  · have e1 : callHeadLines.filter (fun c => c ≠ []) = callHead.map fun p => lineOf p.1 p.2 := by
      decide +kernel
    have e2 : callTailLines.filter (fun c => c ≠ []) = callTail.map fun p => lineOf p.1 p.2 := by
      decide +kernel
    rw [List.filter_append, List.filter_cons_of_pos (by simpa using n1.ne),
      List.filter_cons_of_pos (by simpa using n2.ne), e1, e2]
    refine List.rel_append (reads_all (by decide +kernel))
      (.cons (reads_lineOf (st := ⟨none, .mov .imm (.reg .b), .num a.toNat⟩) hx (by simp))
      (.cons (reads_lineOf (st := ⟨none, .mov .imm (.reg .c), .num b.toNat⟩) hy (by simp))
      (reads_all (by decide +kernel))))

/-- Code of an instruction with an address in digits. -/
theorem stmtCode_addr (q : List Stmt) (l : Option Str) (i : Instr) (op hi lo : BitVec 8) (n : Nat)
    (hd : decode op = some i) (hk : kindOf i = .addr) (hn : n < 65536)
    (e : BitVec.ofNat 8 (n / 256) = hi) (e' : BitVec.ofNat 8 (n % 256) = lo) :
    StmtCode q ⟨l, i, .num n⟩ [op, hi, lo] := by
  refine ⟨op, _, n, rfl, hd, rfl, ?_⟩
  simp only [hk]
  exact ⟨hn, by rw [e, e']⟩

theorem call_code (a b : BitVec 8) : Code (callProg a b) (callCode a b) :=
  .cons (stmtCode_addr _ _ _ _ _ _ _ (by decide +kernel) rfl (by decide) rfl rfl)
    (.cons (stmtCode_byte _ _ _ _ 0xFF (by decide +kernel) rfl)
    (.cons (stmtCode_byte _ _ _ _ 0xFA (by decide +kernel) rfl)
    (.cons (stmtCode_byte _ _ _ _ 0x10 (by decide +kernel) rfl)
    (.cons (stmtCode_bare _ _ _ _ (by decide +kernel) rfl)
    (.cons (stmtCode_bare _ _ _ _ (by decide +kernel) rfl)
    (.cons (stmtCode_byte _ _ _ _ 0x31 (by decide +kernel) rfl)
    (.cons (stmtCode_bare _ _ _ _ (by decide +kernel) rfl)
    (.cons (stmtCode_bare _ _ _ _ (by decide +kernel) rfl)
    (.cons (stmtCode_byte _ _ _ _ 0x42 (by decide +kernel) rfl)
    (.cons (stmtCode_bare _ _ _ _ (by decide +kernel) rfl)
    (.cons (stmtCode_bare _ _ _ _ (by decide +kernel) rfl)
    (.cons (stmtCode_byte _ _ _ _ 0xC5 (by decide +kernel) rfl)
    (.cons (stmtCode_bare _ _ _ _ (by decide +kernel) rfl)
    (.cons (stmtCode_byte _ _ _ _ a (by decide +kernel) rfl)
    (.cons (stmtCode_byte _ _ _ _ b (by decide +kernel) rfl)
    (.cons (stmtCode_addr _ _ _ _ _ _ _ (by decide +kernel) rfl (by decide) rfl rfl)
    (.cons (stmtCode_bare _ _ _ _ (by decide +kernel) rfl) .nil)))))))))))))))))

theorem call_valid (a b : BitVec 8) : Valid (callProg a b) ∧ LabelsAreAddresses (callProg a b) := by
  have v : ∀ st ∈ callHead.map (·.1) ++ callTail.map (·.1),
      st.arg = .none ∨ ∃ n, st.arg = .num n ∧ n < 256 ^ (st.instr.size - 1) := by
    have : ∀ st ∈ callHead.map (·.1) ++ callTail.map (·.1), (match st.arg with
      | .none => true
      | .num n => decide (n < 256 ^ (st.instr.size - 1))
      | .label _ => false) = true := by decide +kernel
    intro st hst
    have h := this st hst
    cases ha : st.arg with
    | none => exact .inl rfl
    | num n => rw [ha] at h; exact .inr ⟨n, rfl, by simpa using h⟩
    | label l => rw [ha] at h; cases h
  have v' : ∀ st ∈ callProg a b, st.arg = .none ∨ ∃ n, st.arg = .num n ∧ n < 256 ^ (st.instr.size - 1) := by
    intro st hst
    simp only [callProg, List.mem_append, List.mem_cons] at hst
    rcases hst with hst | rfl | rfl | hst
    · exact v st (List.mem_append_left _ hst)
    · exact .inr ⟨_, rfl, a.isLt⟩
    · exact .inr ⟨_, rfl, b.isLt⟩
    · exact v st (List.mem_append_right _ hst)
  constructor
  · intro st hst
    rcases v' st hst with h | ⟨n, h, hn⟩
    · rw [h]; trivial
    · rw [h]; exact hn
  · intro st hst l hl
    rcases v' st hst with h | ⟨n, h, hn⟩
    · rw [h] at hl; cases hl
    · rw [h] at hl; cases hl

/-- Memory with the function at 0xFFFA and the return address on the stack. -/
def withFunction (m : BitVec 16 → BitVec 8) : BitVec 16 → BitVec 8 := fun i =>
  if i = 0x0121#16 then 0x1D#8 else if i = 0x0122#16 then 0x00#8 else if i = 0xFFFD#16 then 0xC5#8
  else if i = 0xFFFC#16 then 0x42#8 else if i = 0xFFFB#16 then 0x31#8 else if i = 0xFFFA#16 then 0x10#8
  else m i

theorem call_runs {m : BitVec 16 → BitVec 8} {m0 : BitVec 16 → BitVec 8} {x y : BitVec 8}
    (w : Written m0 0 (callCode x y).flatten m) (p : P) :
    Runs { p with mem := m, pc := 0 }
      { p with mem := withFunction m, pc := 0x1D, sp := 0x0123, ac := x + y, b := x, c := y, d := x + y,
               e := 0xFD, fc := decide (x.toNat + y.toNat ≥ 256), fz := decide (x + y = 0) } := by
  have f0 : m 0x00#16 = 0xC3#8 := w.here 0x00 _ rfl
  have f1 : m 0x01#16 = 0x01#8 := w.here 0x01 _ rfl
  have f2 : m 0x02#16 = 0x23#8 := w.here 0x02 _ rfl
  have f3 : m 0x03#16 = 0x62#8 := w.here 0x03 _ rfl
  have f4 : m 0x04#16 = 0xFF#8 := w.here 0x04 _ rfl
  have f5 : m 0x05#16 = 0x63#8 := w.here 0x05 _ rfl
  have f6 : m 0x06#16 = 0xFA#8 := w.here 0x06 _ rfl
  have f7 : m 0x07#16 = 0x64#8 := w.here 0x07 _ rfl
  have f8 : m 0x08#16 = 0x10#8 := w.here 0x08 _ rfl
  have f9 : m 0x09#16 = 0x90#8 := w.here 0x09 _ rfl
  have fA : m 0x0A#16 = 0x2F#8 := w.here 0x0A _ rfl
  have fB : m 0x0B#16 = 0x64#8 := w.here 0x0B _ rfl
  have fC : m 0x0C#16 = 0x31#8 := w.here 0x0C _ rfl
  have fD : m 0x0D#16 = 0x90#8 := w.here 0x0D _ rfl
  have fE : m 0x0E#16 = 0x2F#8 := w.here 0x0E _ rfl
  have fF : m 0x0F#16 = 0x64#8 := w.here 0x0F _ rfl
  have f10 : m 0x10#16 = 0x42#8 := w.here 0x10 _ rfl
  have f11 : m 0x11#16 = 0x90#8 := w.here 0x11 _ rfl
  have f12 : m 0x12#16 = 0x2F#8 := w.here 0x12 _ rfl
  have f13 : m 0x13#16 = 0x64#8 := w.here 0x13 _ rfl
  have f14 : m 0x14#16 = 0xC5#8 := w.here 0x14 _ rfl
  have f15 : m 0x15#16 = 0x90#8 := w.here 0x15 _ rfl
  have f16 : m 0x16#16 = 0x60#8 := w.here 0x16 _ rfl
  have f17 : m 0x17#16 = x := w.here 0x17 _ rfl
  have f18 : m 0x18#16 = 0x61#8 := w.here 0x18 _ rfl
  have f19 : m 0x19#16 = y := w.here 0x19 _ rfl
  have f1A : m 0x1A#16 = 0xC4#8 := w.here 0x1A _ rfl
  have f1B : m 0x1B#16 = 0xFF#8 := w.here 0x1B _ rfl
  have f1C : m 0x1C#16 = 0xFA#8 := w.here 0x1C _ rfl
  obtain ⟨ac, b, c, d, e, pc, sp, fc, fz, mem, errs⟩ := p
  follow .inisp f0 [f1, f2]
  follow (.mov .imm (.reg .d)) f3 [f4]
  follow (.mov .imm (.reg .e)) f5 [f6]
  follow (.mov .imm .ac) f7 [f8]
  follow .stax f9 []
  follow (.inc (.reg .e)) fA []
  follow (.mov .imm .ac) fB [fC]
  follow .stax fD []
  follow (.inc (.reg .e)) fE []
  follow (.mov .imm .ac) fF [f10]
  follow .stax f11 []
  follow (.inc (.reg .e)) f12 []
  follow (.mov .imm .ac) f13 [f14]
  follow .stax f15 []
  follow (.mov .imm (.reg .b)) f16 [f17]
  follow (.mov .imm (.reg .c)) f18 [f19]
  follow .call f1A [f1B, f1C]
  show Runs ⟨0xC5#8, x, y, 0xFF#8, 0xFD#8, 0xFFFA#16, 0x0121#16, false, false, withFunction m, errs⟩ _
  have g0 : withFunction m 0xFFFA#16 = 0x10#8 := rfl
  have g1 : withFunction m 0xFFFB#16 = 0x31#8 := rfl
  have g2 : withFunction m 0xFFFC#16 = 0x42#8 := rfl
  have g3 : withFunction m 0xFFFD#16 = 0xC5#8 := rfl
  have g4 : withFunction m 0x0121#16 = 0x1D#8 := rfl
  have g5 : withFunction m 0x0122#16 = 0x00#8 := rfl
  follow (.mov (.reg .b) .ac) g0 []
  follow (.alu .add (.reg .c)) g1 []
  follow (.mov .ac (.reg .d)) g2 []
  follow .ret g3 [g4, g5]
  exact .refl _

end Mpp.Front
