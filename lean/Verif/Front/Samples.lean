import Verif.Front.Runs
import Verif.Props.Drawer
/-!
# The example programs

The texts are those of `mpp-front/src/pages/Coder/constants/examples.json`; in the multiplication the
two numbers are left open.
-/
namespace Mpp.Front

/-! ## Saving a program and setting PC -/

theorem Editor.codes {actions : List Action} (hcode : ∀ a ∈ actions, ∃ t, a = .code t) {e : Editor}
    (he : Editor.start.acts actions = some e) :
    e.offset = 0 ∧ e.shownOffset = 0 ∧ e.offsetValid = true := by
  have : ∀ (e0 : Editor), e0.offset = 0 ∧ e0.shownOffset = 0 ∧ e0.offsetValid = true →
      e0.acts actions = some e → e.offset = 0 ∧ e.shownOffset = 0 ∧ e.offsetValid = true := by
    clear he
    induction actions with
    | nil => intro e0 h0 he; cases he; exact h0
    | cons a as ih =>
      intro e0 h0 he
      obtain ⟨t, rfl⟩ := hcode a (by simp)
      simp only [Editor.acts, Editor.act, Option.bind_eq_some_iff, Option.map_eq_some_iff] at he
      obtain ⟨e1, ⟨r, hr, rfl⟩, h2⟩ := he
      refine ih (fun a ha => hcode a (by simp [ha])) _ ?_ h2
      cases r with
      | none => exact h0
      | some lines => exact h0
  exact this _ (by decide) he

theorem execAll_append (as bs : List Call) (h : H) : execAll (as ++ bs) h =
    (execAll as h).bind fun r => (execAll bs r.2).map fun r2 => (r.1 ++ r2.1, r2.2) := by
  induction as generalizing h with
  | nil =>
    simp only [List.nil_append, execAll, Option.bind_some]
    cases execAll bs h <;> rfl
  | cons a as ih =>
    simp only [List.cons_append, execAll]
    cases exec a h with
    | none => rfl
    | some r =>
      simp only [Option.bind_some]
      rw [ih]
      cases execAll as r.2 with
      | none => rfl
      | some r1 =>
        simp only [Option.bind_some, Option.map_some]
        cases execAll bs r1.2 <;> rfl

/-- A program is typed, whatever code was there before, saved, and PC is set to its beginning. The
machine may have stopped anywhere. -/
theorem saved {text : Str} {prog : List Stmt} {bss : List (List (BitVec 8))} (hs : Source text prog)
    (hne : prog ≠ []) (hv : Valid prog) (ha : LabelsAreAddresses prog) (hc : Code prog bss)
    (hsz : bss.flatten.length ≤ 65536) {actions : List Action}
    (hcode : ∀ a ∈ actions, ∃ t, a = .code t) {ph : Phase} {h : H} {p : P} (r : Reach ph h)
    (on : ph.on = true) (ui : ph.ui = true) (s : Shows h p) :
    ∃ e, Editor.start.acts (actions ++ [.code text]) = some e ∧ e.canSave = true ∧
      ∃ vs h' m, execAll (e.saveCalls ++ e.pcCalls) h = some (vs, h') ∧
        Ready h' { p with mem := m, pc := 0 } ∧ Written p.mem 0 bss.flatten m := by
  obtain ⟨e, he⟩ := Editor.start.acts_total (actions ++ [.code text])
  have hcs : ∀ a ∈ actions ++ [.code text], ∃ t, a = Action.code t := by
    intro a ha
    rcases List.mem_append.1 ha with ha | ha
    · exact hcode a ha
    · exact ⟨text, by simpa using ha⟩
  obtain ⟨o1, o2, o3⟩ := Editor.codes hcs he
  have hplain : Plain text := by
    obtain ⟨lines, cores, h1, h2, h3, _⟩ := hs
    exact ⟨lines, cores, h1, h2, h3⟩
  obtain ⟨slots, bss', t1, t2, t3⟩ := translation_code hs hne hv ha (by
    have := flatten_size hc
    omega)
  have hb : bss' = bss := (C37_unique text prog prog hs hs bss' bss t2 hc).2
  subst hb
  have hslots : e.canSave = true ∧ e.slots = slots := by
    have he' := he
    rw [Editor.acts_append] at he'
    simp only [Option.bind_eq_some_iff, Editor.acts, Option.some.injEq] at he'
    obtain ⟨e0, h0, e1, h1, rfl⟩ := he'
    simp only [Editor.act, t1, Option.map_some, Option.some.injEq] at h1
    subst h1
    have hlen := t3.length_eq
    refine ⟨?_, rfl⟩
    simp only [Editor.newTranslation, Editor.check, decide_eq_true_eq]
    have := (Editor.codes hcode h0).1
    omega
  refine ⟨e, he, hslots.1, ?_⟩
  obtain ⟨prog', q1, q2, q3, q4⟩ := C41_program actions text e he hslots.1 hplain ph h p r on ui s
  have hp : prog' = prog := q1.unique hs
  subst hp
  obtain ⟨bss'', vs, h1, m, c1, c2, c3, c4, c5⟩ := q4 ha
  have hb : bss'' = bss' := (C37_unique text prog' prog' hs hs _ _ c1 hc).2
  subst hb
  rw [o1] at c4
  obtain ⟨h2, e2, r2⟩ := c3.setPc 0
  refine ⟨vs ++ [0], h2, m, ?_, r2, c4⟩
  have hpc : e.pcCalls = [.setRegisterPc ((0 : BitVec 16).setWidth 32)] := by
    unfold Editor.pcCalls
    rw [o3, o2]
    rfl
  rw [execAll_append, c2, hpc]
  simp only [Option.bind_some, execAll, e2, Option.map_some]

/-! ## SUM ACC UNTIL AC=5 -/

def countingText : Str := "MOV 00, AC\nT2 INC AC\nCMP 05\nBEQ T1\nJMP T2\nT1 FIN".toList

def countingProg : List (Stmt × Str) :=
  [(⟨none, .mov .imm .ac, .num 0⟩, "00".toList), (⟨some "T2".toList, .inc .ac, .none⟩, []),
    (⟨none, .alu .cmp .imm, .num 5⟩, "05".toList), (⟨none, .beq, .label "T1".toList⟩, "T1".toList),
    (⟨none, .jmp, .label "T2".toList⟩, "T2".toList), (⟨some "T1".toList, .fin, .none⟩, [])]

theorem counting_source : Source countingText (countingProg.map (·.1)) :=
  source_of countingProg (by decide +kernel) (by decide +kernel) (by decide +kernel)

theorem counting_code : Code (countingProg.map (·.1)) sampleCode := sample_code

theorem counting_runs {m : BitVec 16 → BitVec 8} {m0 : BitVec 16 → BitVec 8}
    (w : Written m0 0 sampleCode.flatten m) (p : P) :
    Runs { p with mem := m, pc := 0 }
      { p with mem := m, pc := 11, ac := 5, fz := true, fc := false } := by
  have f0 : m 0#16 = 0x64#8 := w.here 0 _ rfl
  have f1 : m 1#16 = 0x00#8 := w.here 1 _ rfl
  have f2 : m 2#16 = 0x4B#8 := w.here 2 _ rfl
  have f3 : m 3#16 = 0x67#8 := w.here 3 _ rfl
  have f4 : m 4#16 = 0x05#8 := w.here 4 _ rfl
  have f5 : m 5#16 = 0x72#8 := w.here 5 _ rfl
  have f6 : m 6#16 = 0x00#8 := w.here 6 _ rfl
  have f7 : m 7#16 = 0x0B#8 := w.here 7 _ rfl
  have f8 : m 8#16 = 0x74#8 := w.here 8 _ rfl
  have f9 : m 9#16 = 0x00#8 := w.here 9 _ rfl
  have f10 : m 10#16 = 0x02#8 := w.here 10 _ rfl
  obtain ⟨ac, b, c, d, e, pc, sp, fc, fz, mem, errs⟩ := p
  follow (.mov .imm .ac) f0 [f1]
  iterate 4
    follow (.inc .ac) f2 []
    follow (.alu .cmp .imm) f3 [f4]
    follow .beq f5 [f6, f7]
    follow .jmp f8 [f9, f10]
  follow (.inc .ac) f2 []
  follow (.alu .cmp .imm) f3 [f4]
  follow .beq f5 [f6, f7]
  exact .refl _

/-! ## MULTIPLICATION -/

/-- The text, with `x` and `y` in place of `05` and `03`. -/
def productText (x y : Str) : Str :=
  "# 5x3\nMOV ".toList ++ x ++ ", RB # <== modify this\nMOV ".toList ++ y ++
  ", RC # <== modify this\n\nINISP 1234\nMOV RB, AC\nPUSH\n\nTSTART MOV RC, AC\nCMP 01\nBEQ TFIN\nPOP\nADD RB\nPUSH\nMOV RC, AC\nSUB 01\nMOV AC, RC\nJMP TSTART\nTFIN POP\nFIN".toList

example : productText "05".toList "03".toList = "# 5x3\nMOV 05, RB # <== modify this\nMOV 03, RC # <== modify this\n\nINISP 1234\nMOV RB, AC\nPUSH\n\nTSTART MOV RC, AC\nCMP 01\nBEQ TFIN\nPOP\nADD RB\nPUSH\nMOV RC, AC\nSUB 01\nMOV AC, RC\nJMP TSTART\nTFIN POP\nFIN".toList := by decide +kernel

/-- The statements from `INISP` on. -/
def productTail : List (Stmt × Str) :=
  [(⟨none, .inisp, .num 0x1234⟩, "1234".toList), (⟨none, .mov (.reg .b) .ac, .none⟩, []),
    (⟨none, .push, .none⟩, []), (⟨some "TSTART".toList, .mov (.reg .c) .ac, .none⟩, []),
    (⟨none, .alu .cmp .imm, .num 1⟩, "01".toList), (⟨none, .beq, .label "TFIN".toList⟩, "TFIN".toList),
    (⟨none, .pop, .none⟩, []), (⟨none, .alu .add (.reg .b), .none⟩, []), (⟨none, .push, .none⟩, []),
    (⟨none, .mov (.reg .c) .ac, .none⟩, []), (⟨none, .alu .sub .imm, .num 1⟩, "01".toList),
    (⟨none, .mov .ac (.reg .c), .none⟩, []), (⟨none, .jmp, .label "TSTART".toList⟩, "TSTART".toList),
    (⟨some "TFIN".toList, .pop, .none⟩, []), (⟨none, .fin, .none⟩, [])]

def productProg (x y : BitVec 8) : List Stmt :=
  ⟨none, .mov .imm (.reg .b), .num x.toNat⟩ :: ⟨none, .mov .imm (.reg .c), .num y.toNat⟩ ::
    productTail.map (·.1)

def productCode (x y : BitVec 8) : List (List (BitVec 8)) :=
  [[0x60, x], [0x61, y], [0xC3, 0x12, 0x34], [0x10], [0xC1], [0x11], [0x67, 0x01], [0x72, 0x00, 0x19],
    [0xC2], [0x30], [0xC1], [0x11], [0x66, 0x01], [0x41], [0x74, 0x00, 0x09], [0xC2], [0xFF]]

/-- A text for the byte `b`: hexadecimal digits, not the name of the accumulator. -/
def ByteText (s : Str) (b : BitVec 8) : Prop := HexValue s b.toNat ∧ ¬ SameName s acName

/-- The lines after the two numbers. -/
def productRest : List Str :=
  ["", "INISP 1234", "MOV RB, AC", "PUSH", "", "TSTART MOV RC, AC", "CMP 01", "BEQ TFIN", "POP",
    "ADD RB", "PUSH", "MOV RC, AC", "SUB 01", "MOV AC, RC", "JMP TSTART", "TFIN POP", "FIN"].map
    String.toList

def productLine (x : Str) (r : Str) : Str := "MOV ".toList ++ x ++ r

theorem product_lines (x y : Str) : productText x y =
    join '\n' ("# 5x3".toList :: productLine x ", RB # <== modify this".toList ::
      productLine y ", RC # <== modify this".toList :: productRest) := by
  have e1 : "# 5x3\nMOV ".toList = "# 5x3".toList ++ '\n' :: "MOV ".toList := by decide +kernel
  have e2 : ", RB # <== modify this\nMOV ".toList =
    ", RB # <== modify this".toList ++ '\n' :: "MOV ".toList := by decide +kernel
  have e3 : ", RC # <== modify this\n\nINISP 1234\nMOV RB, AC\nPUSH\n\nTSTART MOV RC, AC\nCMP 01\nBEQ TFIN\nPOP\nADD RB\nPUSH\nMOV RC, AC\nSUB 01\nMOV AC, RC\nJMP TSTART\nTFIN POP\nFIN".toList =
    ", RC # <== modify this".toList ++ '\n' :: join '\n' productRest := by decide +kernel
  have j : ∀ (w v : Str) (vs : List Str), join '\n' (w :: v :: vs) = w ++ '\n' :: join '\n' (v :: vs) :=
    fun _ _ _ => rfl
  have hr : ∃ v vs, productRest = v :: vs := ⟨_, _, rfl⟩
  unfold productText productLine
  rw [e1, e2, e3]
  generalize productRest = rest at hr
  obtain ⟨v, vs, rfl⟩ := hr
  rw [j, j, j]
  simp only [List.append_assoc, List.cons_append]

theorem ByteText.plain {x : Str} {b : BitVec 8} (h : ByteText x b) : x ≠ [] ∧ ∀ c ∈ x, isWord c = true :=
  ⟨h.1.ne_nil, h.1.word⟩

/-- A line with a number and a comment. -/
theorem productLine_core {x : Str} {b : BitVec 8} (h : ByteText x b) (g : G) (rest : Str)
    (hr : rest = ", ".toList ++ G.name g ++ " ".toList ++ "# <== modify this".toList) :
    Core (productLine x rest) (textOf (.mov .imm (.reg g)) x) ∧ '\n' ∉ productLine x rest ∧
      NoTerm (textOf (.mov .imm (.reg g)) x) ∧ textOf (.mov .imm (.reg g)) x ≠ [] := by
  have hn := neat_textOf (.mov .imm (.reg g)) (w := x) fun _ => h.plain
  have e : productLine x rest = textOf (.mov .imm (.reg g)) x ++ " ".toList ++ "# <== modify this".toList := by
    rw [hr]
    simp only [productLine, textOf, syntaxOf, Slot.ofOperand, Slot.ofDest, Slot.text]
    have e1 : "MOV ".toList = "MOV".toList ++ [' '] := by decide
    have e2 : ", ".toList = [',', ' '] := by decide
    rw [e1, e2]
    simp only [List.append_assoc, List.cons_append, List.nil_append]
  rw [e]
  refine ⟨⟨⟨[], " ".toList, "# <== modify this".toList, by simp, by simp, by decide, .inr (by decide)⟩,
    hn.noHash, hn.first, hn.last⟩, ?_, hn.noTerms, hn.ne⟩
  rw [List.mem_append, List.mem_append]
  rintro ((h1 | h1) | h1)
  · exact hn.noNl h1
  · revert h1; decide
  · revert h1; decide

theorem product_source {x y : Str} {a b : BitVec 8} (hx : ByteText x a) (hy : ByteText y b) :
    Source (productText x y) (productProg a b) := by
  obtain ⟨c1, n1, t1, ne1⟩ := productLine_core hx .b ", RB # <== modify this".toList (by decide +kernel)
  obtain ⟨c2, n2, t2, ne2⟩ := productLine_core hy .c ", RC # <== modify this".toList (by decide +kernel)
  have hclean : cleanLines (productText x y) = [] :: textOf (.mov .imm (.reg .b)) x ::
      textOf (.mov .imm (.reg .c)) y :: productRest := by
    rw [cleanLines_eq, product_lines, split_join (by simp)]
    · rw [List.map_cons, List.map_cons, List.map_cons, clean_of_core c1, clean_of_core c2]
      have e1 : clean "# 5x3".toList = [] := by decide +kernel
      have e2 : productRest.map clean = productRest := by decide +kernel
      rw [e1, e2]
    · intro w hw
      simp only [List.mem_cons] at hw
      rcases hw with rfl | rfl | rfl | hw
      · decide
      · exact n1
      · exact n2
      · revert w
        decide +kernel
  rw [source_iff, hclean]
  constructor
  · intro l hl
    simp only [List.mem_cons] at hl
    rcases hl with rfl | rfl | rfl | hl
    · decide
    · exact t1
    · exact t2
    · revert l
      decide +kernel
  · rw [List.filter_cons_of_neg (by simp), List.filter_cons_of_pos (by simpa using ne1),
      List.filter_cons_of_pos (by simpa using ne2)]
    have e : productRest.filter (fun c => c ≠ []) = productTail.map fun p => lineOf p.1 p.2 := by
      decide +kernel
    rw [e]
    refine .cons (reads_lineOf (st := ⟨none, .mov .imm (.reg .b), .num a.toNat⟩) hx (by simp))
      (.cons (reads_lineOf (st := ⟨none, .mov .imm (.reg .c), .num b.toNat⟩) hy (by simp)) ?_)
    have h2 : ∀ p ∈ productTail, ArgText p.1.instr p.2 p.1.arg ∧ ∀ l ∈ p.1.label, IsLabel l := by
      decide +kernel
    revert h2
    generalize productTail = ps
    intro h2
    induction ps with
    | nil => exact .nil
    | cons p ps ih =>
      rw [List.map_cons, List.map_cons]
      refine .cons (reads_lineOf (h2 p (by simp)).1 fun l hl => (h2 p (by simp)).2 l (by simp [hl])) ?_
      exact ih fun q hq => h2 q (by simp [hq])

theorem product_labels (a b : BitVec 8) : LabelAt (productProg a b) "TFIN".toList 0x19 ∧
    LabelAt (productProg a b) "TSTART".toList 0x09 := by
  have key : ∀ (l : Str) (k n : Nat) (st : Stmt) (after : List Stmt),
      productTail.map (·.1) = (productTail.map (·.1)).take k ++ st :: after → st.label = some l →
      (∀ x ∈ (productTail.map (·.1)).take k, x.label ≠ some l) →
      4 + sizeOf ((productTail.map (·.1)).take k) = n → LabelAt (productProg a b) l n := by
    intro l k n st after h1 h2 h3 h4
    refine ⟨⟨none, .mov .imm (.reg .b), .num a.toNat⟩ :: ⟨none, .mov .imm (.reg .c), .num b.toNat⟩ ::
      (productTail.map (·.1)).take k, st, after, ?_, h2, ?_, ?_⟩
    · exact congrArg (fun t => _ :: _ :: t) h1
    · intro x hx
      simp only [List.mem_cons] at hx
      rcases hx with rfl | rfl | hx
      · simp
      · simp
      · exact h3 x hx
    · rw [← h4]
      simp [sizeOf, Instr.size, Operand.size]
      omega
  exact ⟨key _ 13 _ ⟨some "TFIN".toList, .pop, .none⟩ [⟨none, .fin, .none⟩] (by decide +kernel) rfl
      (by decide +kernel) (by decide +kernel),
    key _ 3 _ ⟨some "TSTART".toList, .mov (.reg .c) .ac, .none⟩ ((productTail.map (·.1)).drop 4)
      (by decide +kernel) rfl (by decide +kernel) (by decide +kernel)⟩

theorem product_code (a b : BitVec 8) : Code (productProg a b) (productCode a b) := by
  obtain ⟨l1, l2⟩ := product_labels a b
  have bare : ∀ (q : List Stmt) (l : Option Str) (i : Instr) (op : BitVec 8), decode op = some i →
      kindOf i = .none → StmtCode q ⟨l, i, .none⟩ [op] := by
    intro q l i op hd hk
    refine ⟨op, [], 0, rfl, hd, trivial, ?_⟩
    simp only [hk]
  have num : ∀ (q : List Stmt) (l : Option Str) (i : Instr) (op x : BitVec 8), decode op = some i →
      kindOf i = .byte → StmtCode q ⟨l, i, .num x.toNat⟩ [op, x] := by
    intro q l i op x hd hk
    refine ⟨op, _, x.toNat, rfl, hd, rfl, ?_⟩
    simp only [hk]
    exact ⟨x.isLt, by simp⟩
  refine .cons (num _ _ _ _ _ (by decide +kernel) rfl) (.cons (num _ _ _ _ _ (by decide +kernel) rfl)
    (.cons ⟨_, _, 0x1234, rfl, by decide +kernel, rfl, by decide, rfl⟩
    (.cons (bare _ _ _ _ (by decide +kernel) rfl) (.cons (bare _ _ _ _ (by decide +kernel) rfl)
    (.cons (bare _ _ _ _ (by decide +kernel) rfl)
    (.cons ⟨_, _, 1, rfl, by decide +kernel, rfl, by decide, rfl⟩
    (.cons ⟨_, _, 0x19, rfl, by decide +kernel, l1, by decide, rfl⟩
    (.cons (bare _ _ _ _ (by decide +kernel) rfl) (.cons (bare _ _ _ _ (by decide +kernel) rfl)
    (.cons (bare _ _ _ _ (by decide +kernel) rfl) (.cons (bare _ _ _ _ (by decide +kernel) rfl)
    (.cons ⟨_, _, 1, rfl, by decide +kernel, rfl, by decide, rfl⟩
    (.cons (bare _ _ _ _ (by decide +kernel) rfl)
    (.cons ⟨_, _, 0x09, rfl, by decide +kernel, l2, by decide, rfl⟩
    (.cons (bare _ _ _ _ (by decide +kernel) rfl) (.cons (bare _ _ _ _ (by decide +kernel) rfl)
      .nil))))))))))))))))

theorem product_valid (a b : BitVec 8) : Valid (productProg a b) ∧ LabelsAreAddresses (productProg a b) := by
  have v : ∀ st ∈ productTail.map (·.1), (match st.arg with
      | .none => True
      | .num n => n < 256 ^ (st.instr.size - 1)
      | .label l => ∃ s ∈ productTail.map (·.1), s.label = some l) := by
    have : Valid (productTail.map (·.1)) := by decide +kernel
    exact this
  have la : LabelsAreAddresses (productTail.map (·.1)) := by decide +kernel
  constructor
  · intro st hst
    simp only [productProg, List.mem_cons] at hst
    rcases hst with rfl | rfl | hst
    · exact a.isLt
    · exact b.isLt
    · have := v st hst
      revert this
      cases st.arg with
      | none => exact id
      | num n => exact id
      | label l =>
        rintro ⟨s, h1, h2⟩
        exact ⟨s, by simp only [productProg, List.mem_cons]; exact .inr (.inr h1), h2⟩
  · intro st hst l hl
    simp only [productProg, List.mem_cons] at hst
    rcases hst with rfl | rfl | hst
    · cases hl
    · cases hl
    · exact la st hst l hl

/-- Memory with `v` in the cell that the program uses as its stack. -/
def withTop (m : BitVec 16 → BitVec 8) (v : BitVec 8) : BitVec 16 → BitVec 8 :=
  fun i => if i = 0x1233#16 then v else m i

theorem withTop_other {m : BitVec 16 → BitVec 8} {v : BitVec 8} {i : BitVec 16} (h : i ≠ 0x1233#16) :
    withTop m v i = m i := if_neg h

theorem withTop_again (m : BitVec 16 → BitVec 8) (v v' : BitVec 8) :
    (fun i => if i = 0x1233#16 then v' else withTop m v i) = withTop m v' := by
  funext i
  unfold withTop
  split <;> rfl

theorem mul_step (x c : BitVec 8) : x * c = x + x * (c - 1) := by
  have : c = 1 + (c - 1) := by rw [BitVec.add_comm, BitVec.sub_add_cancel]
  conv_lhs => rw [this]
  rw [BitVec.mul_add]
  exact congrArg (· + _) (BitVec.mul_one x)

theorem product_runs {m : BitVec 16 → BitVec 8} {m0 : BitVec 16 → BitVec 8} {x y : BitVec 8}
    (w : Written m0 0 (productCode x y).flatten m) (p : P) :
    Runs { p with mem := m, pc := 0 }
      { p with mem := withTop m (x * y), pc := 0x1A, sp := 0x1234, ac := x * y, b := x, c := 1,
               fz := true, fc := false } := by
  have f0 : m 0x00#16 = 0x60#8 := w.here 0x00 _ rfl
  have f1 : m 0x01#16 = x := w.here 0x01 _ rfl
  have f2 : m 0x02#16 = 0x61#8 := w.here 0x02 _ rfl
  have f3 : m 0x03#16 = y := w.here 0x03 _ rfl
  have f4 : m 0x04#16 = 0xC3#8 := w.here 0x04 _ rfl
  have f5 : m 0x05#16 = 0x12#8 := w.here 0x05 _ rfl
  have f6 : m 0x06#16 = 0x34#8 := w.here 0x06 _ rfl
  have f7 : m 0x07#16 = 0x10#8 := w.here 0x07 _ rfl
  have f8 : m 0x08#16 = 0xC1#8 := w.here 0x08 _ rfl
  have f9 : ∀ v, withTop m v 0x09#16 = 0x11#8 := fun v => w.here 0x09 _ rfl
  have fA : ∀ v, withTop m v 0x0A#16 = 0x67#8 := fun v => w.here 0x0A _ rfl
  have fB : ∀ v, withTop m v 0x0B#16 = 0x01#8 := fun v => w.here 0x0B _ rfl
  have fC : ∀ v, withTop m v 0x0C#16 = 0x72#8 := fun v => w.here 0x0C _ rfl
  have fD : ∀ v, withTop m v 0x0D#16 = 0x00#8 := fun v => w.here 0x0D _ rfl
  have fE : ∀ v, withTop m v 0x0E#16 = 0x19#8 := fun v => w.here 0x0E _ rfl
  have fF : ∀ v, withTop m v 0x0F#16 = 0xC2#8 := fun v => w.here 0x0F _ rfl
  have f10 : ∀ v, withTop m v 0x10#16 = 0x30#8 := fun v => w.here 0x10 _ rfl
  have f11 : ∀ v, withTop m v 0x11#16 = 0xC1#8 := fun v => w.here 0x11 _ rfl
  have f12 : ∀ v, withTop m v 0x12#16 = 0x11#8 := fun v => w.here 0x12 _ rfl
  have f13 : ∀ v, withTop m v 0x13#16 = 0x66#8 := fun v => w.here 0x13 _ rfl
  have f14 : ∀ v, withTop m v 0x14#16 = 0x01#8 := fun v => w.here 0x14 _ rfl
  have f15 : ∀ v, withTop m v 0x15#16 = 0x41#8 := fun v => w.here 0x15 _ rfl
  have f16 : ∀ v, withTop m v 0x16#16 = 0x74#8 := fun v => w.here 0x16 _ rfl
  have f17 : ∀ v, withTop m v 0x17#16 = 0x00#8 := fun v => w.here 0x17 _ rfl
  have f18 : ∀ v, withTop m v 0x18#16 = 0x09#8 := fun v => w.here 0x18 _ rfl
  have f19 : ∀ v, withTop m v 0x19#16 = 0xC2#8 := fun v => w.here 0x19 _ rfl
  have ft : ∀ v, withTop m v 0x1233#16 = v := fun v => rfl
  obtain ⟨ac, b, c, d, e, pc, sp, fc, fz, mem, errs⟩ := p
  have loop : ∀ (k : Nat) (ac c acc : BitVec 8) (fc fz : Bool), (c - 1).toNat = k →
      Runs ⟨ac, x, c, d, e, 0x09#16, 0x1233#16, fc, fz, withTop m acc, errs⟩
        ⟨acc + x * (c - 1), x, 1#8, d, e, 0x1A#16, 0x1234#16, false, true,
          withTop m (acc + x * (c - 1)), errs⟩ := by
    intro k
    induction k with
    | zero =>
      intro ac c acc fc fz hk
      have hc : c = 1#8 := by
        have : c - 1 = 0 := BitVec.eq_of_toNat_eq hk
        have h2 : c = (c - 1) + 1 := by rw [BitVec.sub_add_cancel]
        rw [h2, this]
        rfl
      subst hc
      follow (.mov (.reg .c) .ac) (f9 acc) []
      follow (.alu .cmp .imm) (fA acc) [fB]
      follow .beq (fC acc) [fD, fE]
      follow .pop (f19 acc) [ft]
      have : acc + x * (1#8 - 1) = acc := by simp
      rw [this]
      exact .refl _
    | succ k ih =>
      intro ac c acc fc fz hk
      have hc : c ≠ 1#8 := by
        rintro rfl
        simp at hk
      follow (.mov (.reg .c) .ac) (f9 acc) []
      follow (.alu .cmp .imm) (fA acc) [fB, hc]
      follow .beq (fC acc) []
      follow .pop (fF acc) [ft]
      follow (.alu .add (.reg .b)) (f10 acc) []
      follow .push (f11 acc) []
      rw [withTop_again]
      follow (.mov (.reg .c) .ac) (f12 (acc + x)) []
      follow (.alu .sub .imm) (f13 (acc + x)) [f14]
      follow (.mov .ac (.reg .c)) (f15 (acc + x)) []
      follow .jmp (f16 (acc + x)) [f17, f18]
      have h1 : (c - 1#8 - 1).toNat = k := by
        have : (c - 1).toNat = k + 1 := hk
        rw [BitVec.toNat_sub] at this ⊢
        simp at this ⊢
        omega
      have h2 := ih (c - 1#8) (c - 1#8) (acc + x) (decide (c.toNat = 0)) (decide (c - 1#8 = 0#8)) h1
      have h3 : acc + x + x * (c - 1#8 - 1) = acc + x * (c - 1) := by
        have := mul_step x (c - 1#8)
        rw [BitVec.add_assoc, ← this]
        rfl
      rw [h3] at h2
      exact h2
  follow (.mov .imm (.reg .b)) f0 [f1]
  follow (.mov .imm (.reg .c)) f2 [f3]
  follow .inisp f4 [f5, f6]
  follow (.mov (.reg .b) .ac) f7 []
  follow .push f8 []
  have h := loop _ x y x fc fz rfl
  rw [← mul_step x y] at h
  exact h

end Mpp.Front
