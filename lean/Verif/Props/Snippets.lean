import Verif.Props.Played
import Verif.Props.Source
import Verif.Front.Snippets
/-!
# C84: the lines of code on the pages about instructions, tried out on the page

The button opens the page with the line in the editor, to which a FIN is added; then the reader saves it, sets PC and
presses run-program.
-/
namespace Mpp.Front

/-- A text of the documentation without FIN: how it comes out, from what its statements say. -/
theorem docs_source {text : Str} {prog : List Stmt} (hs : Source text prog)
    (ht : endsFin text = false ∧ text ≠ []) (hv : Valid prog) (ha : LabelsAreAddresses prog)
    (hne : prog ≠ []) (hsz : sizeOf prog < 65535) {st : Store} {h : H} {es : List Event} {s : Ui}
    (d : FromDocs text st h es s) {p : P} (hp : Shows s.core p) (Q : P → Prop)
    (known : ∀ m, (∀ i : BitVec 16, sizeOf prog < i.toNat → m i = p.mem i) →
      ∃ k x, (Src.start p m).run (prog ++ [finStmt]) k = some x ∧ x.pos = prog.length ∧
        Q ({ x with pos := x.pos + 1 }.machine (prog ++ [finStmt]) p.errs)) : Ends s Q := by
  obtain ⟨ph, hr, on, ui⟩ := d.core
  refine d.ends Q fun u => ?_
  obtain ⟨e, vs, h1, bss, m, k1, k2, k3, k4, k5, k6⟩ := C75_opened text prog hs ht hv ha hne hsz ph s.core p hr on ui hp st
  have hl := flatten_size k4
  obtain ⟨k, x, r, hx, q⟩ := known m fun i hi => k5.elsewhere i (.inr (by rw [List.length_append, hl]; simp; omega))
  obtain ⟨n, h2, r1, r2⟩ := (k6 u).ends k x finStmt r (by simp [hx, finStmt]) rfl
  exact ⟨e, vs, h1, n, h2, _, k1, k2, k3, r1, r2, q⟩

/-! ## One instruction -/

/-- What the pages say that an instruction with the operand `x` does, as an operation on AC, with the flags. -/
def addition (p : P) (x : BitVec 8) : P :=
  { p with ac := p.ac + x, fc := decide (256 ≤ p.ac.toNat + x.toNat), fz := decide (p.ac + x = 0) }

def subtraction (p : P) (x : BitVec 8) : P :=
  { p with ac := p.ac - x, fc := decide (p.ac.toNat < x.toNat), fz := decide (p.ac = x) }

def comparison (p : P) (x : BitVec 8) : P :=
  { p with fc := decide (p.ac.toNat < x.toNat), fz := decide (p.ac = x) }

def bitwise (p : P) (x : BitVec 8) : P := { p with ac := x, fc := false, fz := decide (x = 0) }

/-- What the line is said to do, with the number of bytes of the instruction. -/
def documented : List (String × Nat × (P → P)) :=
  [("ADD RB", 1, fun p => addition p p.b), ("ADD 0F", 2, fun p => addition p 0x0F), ("ADD AC", 1, fun p => addition p p.ac),
   ("AND 0F", 2, fun p => bitwise p (p.ac &&& 0x0F)), ("AND RB", 1, fun p => bitwise p (p.ac &&& p.b)),
   ("AND AC", 1, fun p => bitwise p p.ac),
   ("CMP RB", 1, fun p => comparison p p.b), ("CMP 0F", 2, fun p => comparison p 0x0F),
   ("INC RB", 1, fun p => { p with b := p.b + 1, fc := false, fz := decide (p.b + 1 = 0) }),
   ("INC AC", 1, fun p => bitwise p (p.ac + 1)),
   ("LDA 001F", 3, fun p => { p with ac := p.mem 0x001F }),
   ("MOV 0F, RB", 2, fun p => { p with b := 0x0F }), ("MOV RB, RC", 1, fun p => { p with c := p.b }),
   ("MOV RB, AC", 1, fun p => { p with ac := p.b }), ("MOV 0F, AC", 2, fun p => { p with ac := 0x0F }),
   ("OR 0F", 2, fun p => bitwise p (p.ac ||| 0x0F)), ("OR RB", 1, fun p => bitwise p (p.ac ||| p.b)),
   ("OR AC", 1, fun p => bitwise p p.ac),
   ("STA 001F", 3, fun p => { p with mem := fun i => if i = 0x001F then p.ac else p.mem i }),
   ("SUB RB", 1, fun p => subtraction p p.b), ("SUB 0F", 2, fun p => subtraction p 0x0F),
   ("SUB AC", 1, fun p => subtraction p p.ac),
   ("XOR 0F", 2, fun p => bitwise p (p.ac ^^^ 0x0F)), ("XOR RB", 1, fun p => bitwise p (p.ac ^^^ p.b)),
   ("XOR AC", 1, fun p => bitwise p 0)]

/-- **C84.** There is a description of every line on the pages. -/
theorem C84_pages : documented.map (·.1) = snippets.map (·.text) := by decide

/-- `q` is what `f` makes of `p`, but for PC and the first cells, in which the program lies. -/
def Made (f : P → P) (n : Nat) (p q : P) : Prop :=
  q = { f p with pc := BitVec.ofNat 16 n, mem := q.mem } ∧ ∀ i : BitVec 16, n ≤ i.toNat → q.mem i = (f p).mem i

/-- What a snippet comes to, from its statement. -/
def Carried (sn : Snippet) (f : P → P) : Prop :=
  ∀ (p : P) (m : BitVec 16 → BitVec 8), (∀ i : BitVec 16, sn.stmt.instr.size < i.toNat → m i = p.mem i) →
    ∃ x, (Src.start p m).run [sn.stmt, finStmt] 1 = some x ∧ x.pos = 1 ∧
      Made f (sn.stmt.instr.size + 1) p
        ({ x with pos := x.pos + 1 }.machine [sn.stmt, finStmt] p.errs)

theorem beq_is {a b : BitVec 8} : (a == b) = decide (a = b) := by
  rw [Bool.eq_iff_iff]; simp

theorem carried_all : List.Forall₂ (fun sn d => Carried sn d.2.2 ∧ sn.stmt.instr.size = d.2.1 ∧ d.1 = sn.text)
    snippets documented := by
  unfold snippets documented
  refine .cons ?_ (.cons ?_ (.cons ?_ (.cons ?_ (.cons ?_ (.cons ?_ (.cons ?_ (.cons ?_ (.cons ?_ (.cons ?_
    (.cons ?_ (.cons ?_ (.cons ?_ (.cons ?_ (.cons ?_ (.cons ?_ (.cons ?_ (.cons ?_ (.cons ?_ (.cons ?_
    (.cons ?_ (.cons ?_ (.cons ?_ (.cons ?_ (.cons ?_ .nil))))))))))))))))))))))))
  all_goals
    refine ⟨?_, rfl, rfl⟩
    intro p m hm
    refine ⟨_, rfl, rfl, ?_, fun i hi => ?_⟩
  all_goals first
    | rfl
    | exact hm i hi
    | (have e := hm 0x001F#16 (by decide)
       show P.mk (m 0x001F#16) _ _ _ _ _ _ _ _ _ _ = _
       rw [e]; rfl)
    | (show (if i = 0x001F#16 then p.ac else m i) = if i = 0x001F#16 then p.ac else p.mem i
       rw [hm i hi])
    | (have e := BitVec.and_self (x := p.ac)
       show P.mk (p.ac &&& p.ac) _ _ _ _ _ _ _ (p.ac &&& p.ac == 0) _ _ = _
       rw [e, beq_is]; rfl)
    | (have e := BitVec.or_self (x := p.ac)
       show P.mk (p.ac ||| p.ac) _ _ _ _ _ _ _ (p.ac ||| p.ac == 0) _ _ = _
       rw [e, beq_is]; rfl)
    | (have e := BitVec.xor_self (x := p.ac)
       show P.mk (p.ac ^^^ p.ac) _ _ _ _ _ _ _ (p.ac ^^^ p.ac == 0) _ _ = _
       rw [e, beq_is]; rfl)

theorem snippet_source : ∀ sn ∈ snippets, Source sn.text.toList [sn.stmt] ∧ endsFin sn.text.toList = false ∧
    sn.text.toList ≠ [] ∧ Valid [sn.stmt] ∧ LabelsAreAddresses [sn.stmt] ∧ sn.stmt.instr.size ≤ 3 := by
  have key : ∀ sn ∈ snippets, ((∀ l ∈ [sn.text.toList], '\n' ∉ l) ∧
      ([sn.text.toList].map clean).filter (fun c => c ≠ []) = [lineOf sn.stmt sn.word.toList] ∧
      (ArgText sn.stmt.instr sn.word.toList sn.stmt.arg ∧ ∀ l ∈ sn.stmt.label, IsLabel l) ∧
      ∀ l ∈ [sn.text.toList], NoTerm (clean l)) ∧
      endsFin sn.text.toList = false ∧
    sn.text.toList ≠ [] ∧ Valid [sn.stmt] ∧ LabelsAreAddresses [sn.stmt] ∧ sn.stmt.instr.size ≤ 3 := by decide +kernel
  intro sn h
  obtain ⟨⟨k1, k2, k3, k4⟩, rest⟩ := key sn h
  exact ⟨(TextPart.fixed [(sn.stmt, sn.word.toList)] k1 k2 (by simpa using k3) k4).source (by simp), rest⟩

/-- **C84.** A reader presses the button beside a line, and on the page that opens saves it, sets PC and presses
run-program, at once or after whatever they do there while the text stays as it came. The run can be brought to its
end by waiting; as soon as it is over, registers and memory are those before with the change that the page
describes, but for PC, which is behind the FIN, and for the cells with the program. -/
theorem C84_line (text : String) (n : Nat) (f : P → P) (ht : (text, n, f) ∈ documented) (st : Store) (h : H)
    (es : List Event) (s : Ui) (d : FromDocs text.toList st h es s) (p : P) (hp : Shows s.core p) :
    Ends s (Made f (n + 1) p) := by
  obtain ⟨sn, hsn, c, e1, e2⟩ := Forall₂.of_right carried_all ht
  obtain rfl : text = sn.text := e2
  obtain rfl : sn.stmt.instr.size = n := e1
  obtain ⟨k1, k2, k3, k4, k5, k6⟩ := snippet_source sn hsn
  refine docs_source k1 ⟨k2, k3⟩ k4 k5 (by simp) (by simp [sizeOf]; omega) d hp _ fun m hm => ?_
  obtain ⟨x, r, hx, q⟩ := c p m fun i hi => hm i (by simpa [sizeOf] using hi)
  exact ⟨1, x, r, hx, q⟩

/-! ## The parts of the multiplication -/

theorem parts_source {lines : List Str} {ps : List (Stmt × Str)} (hne : lines ≠ []) (h0 : ∀ l ∈ lines, '\n' ∉ l)
    (h1 : (lines.map clean).filter (fun c => c ≠ []) = ps.map fun p => lineOf p.1 p.2)
    (h2 : ∀ p ∈ ps, ArgText p.1.instr p.2 p.1.arg ∧ ∀ l ∈ p.1.label, IsLabel l)
    (h3 : ∀ l ∈ lines, NoTerm (clean l)) : Source (join '\n' lines) (ps.map (·.1)) :=
  (TextPart.fixed ps h0 h1 h2 h3).source hne

/-- **C84.** The part that sets the stack pointer. -/
theorem C84_inisp (st : Store) (h : H) (es : List Event) (s : Ui) (d : FromDocs inispText st h es s) (p : P)
    (hp : Shows s.core p) : Ends s (Made (fun p => { p with sp := 0x1234 }) 4 p) := by
  have hs : Source inispText [⟨none, .inisp, .num 0x1234⟩] :=
    parts_source (lines := [inispText]) (ps := [(⟨none, .inisp, .num 0x1234⟩, "1234".toList)]) (by simp) (by decide +kernel)
      (by decide +kernel) (by decide +kernel) (by decide +kernel)
  refine docs_source hs (by decide +kernel) (by decide +kernel) (by decide +kernel) (by simp) (by decide) d hp _ fun m hm => ?_
  exact ⟨1, _, rfl, rfl, rfl, fun i hi => hm i hi⟩

theorem push_some {prog : List Stmt} {s : Src} (h0 : s.sp ≠ 0) (h1 : sizeOf prog ≤ (s.sp - 1).toNat) (x : BitVec 8) :
    s.push prog x = some { s with sp := s.sp - 1, mem := fun i => if i = s.sp - 1 then x else s.mem i } := by
  rw [Src.push, if_neg h0, Src.write, if_neg (Nat.not_lt.2 h1)]

/-- RB on the stack. -/
def pushB (p : P) : P :=
  { p with ac := p.b, sp := p.sp - 1, mem := fun i => if i = p.sp - 1 then p.b else p.mem i }

/-- **C84.** The part that puts RB on the stack, where the stack does not meet the program. -/
theorem C84_push (st : Store) (h : H) (es : List Event) (s : Ui) (d : FromDocs pushText st h es s) (p : P)
    (hp : Shows s.core p) (hsp : 4 ≤ p.sp.toNat) :
    Ends s (Made pushB 3 p) := by
  have hs : Source pushText [⟨none, .mov (.reg .b) .ac, .none⟩, ⟨none, .push, .none⟩] :=
    parts_source (lines := ["MOV RB, AC".toList, "PUSH".toList])
      (ps := [(⟨none, .mov (.reg .b) .ac, .none⟩, []), (⟨none, .push, .none⟩, [])]) (by simp) (by decide +kernel)
      (by decide +kernel) (by decide +kernel) (by decide +kernel)
  refine docs_source hs (by decide +kernel) (by decide +kernel) (by decide +kernel) (by simp) (by decide) d hp _ fun m hm => ?_
  have h0 : p.sp ≠ 0 := by rintro e; rw [e] at hsp; simp at hsp
  have h1 : (p.sp - 1).toNat = p.sp.toNat - 1 := by
    have := p.sp.isLt
    rw [BitVec.toNat_sub]
    simp only [BitVec.ofNat_eq_ofNat, BitVec.toNat_ofNat]
    omega
  refine ⟨2, ⟨2, p.b, p.b, p.c, p.d, p.e, p.sp - 1, p.fc, p.fz, fun i => if i = p.sp - 1 then p.b else m i⟩, ?_, rfl,
    rfl, fun i hi => ?_⟩
  · exact congrArg (Option.bind · _) (push_some
      (prog := [⟨none, .mov (.reg .b) .ac, .none⟩, ⟨none, .push, .none⟩, finStmt]) (s := ⟨2, p.b, p.b, p.c, p.d, p.e, p.sp, p.fc, p.fz, m⟩)
      h0 (show 3 ≤ (p.sp - 1).toNat by omega) p.b)
  · show (if i = p.sp - 1 then p.b else m i) = if i = p.sp - 1 then p.b else p.mem i
    rw [hm i hi]

/-- **C84.** The part that sets the two numbers, with any numerals. -/
theorem C84_moves (x y : Str) (a b : BitVec 8) (hx : HexValue x a.toNat) (hx' : ¬ SameName x acName)
    (hy : HexValue y b.toNat) (hy' : ¬ SameName y acName) (st : Store) (h : H) (es : List Event) (s : Ui)
    (d : FromDocs (movesText x y) st h es s) (p : P) (hp : Shows s.core p) :
    Ends s (Made (fun p => { p with b := a, c := b }) 5 p) := by
  have hs : Source (movesText x y)
      [⟨none, .mov .imm (.reg .b), .num a.toNat⟩, ⟨none, .mov .imm (.reg .c), .num b.toNat⟩] := by
    have hx : ByteText x a := ⟨hx, hx'⟩
    have hy : ByteText y b := ⟨hy, hy'⟩
    have := ((TextPart.byte (i := .mov .imm (.reg .b)) hx rfl [] [] (by simp) (by simp) (.inl rfl) (by simp)).append
      (TextPart.byte (i := .mov .imm (.reg .c)) hy rfl [] [] (by simp) (by simp) (.inl rfl) (by simp))).source (by simp)
    rw [← product0_line, ← product0_line] at this
    have e : movesText x y = join '\n' ([("MOV ".toList ++ x ++ (", ".toList ++ G.name .b))] ++
        [("MOV ".toList ++ y ++ (", ".toList ++ G.name .c))]) := by
      simp [movesText, join, G.name]
    rw [e]; exact this
  refine docs_source hs ⟨endsFin_false ("MOV ".toList ++ x ++ ", RB\nMOV ".toList ++ y ++ ", R".toList) 'C' ?_ (by decide),
    by simp [movesText]⟩ (by intro st hst; simp at hst; rcases hst with rfl | rfl <;> exact BitVec.isLt _)
    (by intro st hst l hl; simp at hst; rcases hst with rfl | rfl <;> cases hl) (by simp)
    (show 4 < 65535 by decide) d hp _ fun m hm => ?_
  · simp [movesText]
  · refine ⟨2, _, rfl, rfl, ?_, fun i hi => hm i hi⟩
    show P.mk p.ac (BitVec.ofNat 8 a.toNat) (BitVec.ofNat 8 b.toNat) _ _ _ _ _ _ _ _ = _
    rw [BitVec.ofNat_toNat, BitVec.ofNat_toNat, BitVec.setWidth_eq, BitVec.setWidth_eq]
    rfl

/-! ### The loop -/

/-- The statements of the loop, with the texts of their operands. -/
def loopStmts : List (Stmt × Str) :=
  [(⟨some "TSTART".toList, .mov (.reg .c) .ac, .none⟩, []), (⟨none, .alu .cmp .imm, .num 0x1⟩, "01".toList),
    (⟨none, .beq, .label "TFIN".toList⟩, "TFIN".toList), (⟨none, .pop, .none⟩, []),
    (⟨none, .alu .add (.reg .b), .none⟩, []), (⟨none, .push, .none⟩, []),
    (⟨none, .mov (.reg .c) .ac, .none⟩, []), (⟨none, .alu .sub .imm, .num 0x1⟩, "01".toList),
    (⟨none, .mov .ac (.reg .c), .none⟩, []), (⟨none, .jmp, .label "TSTART".toList⟩, "TSTART".toList),
    (⟨some "TFIN".toList, .pop, .none⟩, [])]

def loopProg : List Stmt := loopStmts.map (·.1) ++ [finStmt]

theorem loop_dest : (Arg.label "TFIN".toList).dest loopProg = some 10 ∧
    (Arg.label "TSTART".toList).dest loopProg = some 0 ∧ sizeOf loopProg = 18 := by decide +kernel

theorem run_next {prog : List Stmt} {n : Nat} {s t : Src} (h : s.step prog = some t) :
    s.run prog (n + 1) = t.run prog n := by
  rw [Src.run, h, Option.bind_some]

theorem pop_some {s : Src} (h : s.sp ≠ 0xFFFF) : s.pop = some (s.mem s.sp, { s with sp := s.sp + 1 }) := if_neg h

theorem loop_round (s : Src) (h0 : s.pos = 0) (h1 : 18 ≤ s.sp.toNat) (h2 : s.sp.toNat < 65535) (hc : s.c ≠ 1) :
    ∃ t, s.run loopProg 10 = some t ∧ t.pos = 0 ∧ t.b = s.b ∧ t.c = s.c - 1 ∧ t.d = s.d ∧ t.e = s.e ∧ t.sp = s.sp ∧
      t.mem = fun i => if i = s.sp then s.mem s.sp + s.b else s.mem i := by
  obtain ⟨d1, d2, sz⟩ := loop_dest
  have n1 : s.sp ≠ 0xFFFF := by rintro e; rw [e] at h2; simp at h2
  have n2 : s.sp + 1 ≠ 0 := by
    intro e
    have := congrArg BitVec.toNat e
    rw [BitVec.toNat_add] at this
    simp at this
    omega
  have n3 : s.sp + 1 - 1 = s.sp := BitVec.add_sub_cancel _ _
  obtain ⟨pos, ac, b, c, d, e, sp, fc, fz, mem⟩ := s
  simp only at h0 h1 h2 hc n1 n2 n3
  subst h0
  refine ⟨⟨0, c - 1, b, c - 1, d, e, sp, decide (c < 1), c == 1, fun i => if i = sp then mem sp + b else mem i⟩, ?_,
    rfl, rfl, rfl, rfl, rfl, rfl, rfl⟩
  have pushed := push_some (prog := loopProg)
      (s := ⟨6, mem sp + b, b, c, d, e, sp + 1, decide (255 < (mem sp).toNat + b.toNat), mem sp + b == 0, mem⟩)
      n2 (by rw [sz]; show 18 ≤ (sp + 1 - 1).toNat; rw [n3]; exact h1) (mem sp + b)
  simp only [n3] at pushed
  refine Eq.trans (run_next (t := ⟨1, c, b, c, d, e, sp, fc, fz, mem⟩) ?_) ?_
  · rfl
  refine Eq.trans (run_next (t := ⟨2, c, b, c, d, e, sp, decide (c < 1), c == 1, mem⟩) ?_) ?_
  · rfl
  refine Eq.trans (run_next (t := ⟨3, c, b, c, d, e, sp, decide (c < 1), c == 1, mem⟩) ?_) ?_
  · exact if_neg (fun e => hc (beq_iff_eq.1 e))
  refine Eq.trans (run_next (t := ⟨4, mem sp, b, c, d, e, sp + 1, decide (c < 1), c == 1, mem⟩) ?_) ?_
  · exact congrArg (Option.map _) (pop_some (s := ⟨4, c, b, c, d, e, sp, decide (c < 1), c == 1, mem⟩) n1)
  refine Eq.trans (run_next (t := ⟨5, mem sp + b, b, c, d, e, sp + 1, decide (255 < (mem sp).toNat + b.toNat), mem sp + b == 0, mem⟩) ?_) ?_
  · rfl
  refine Eq.trans (run_next (t := ⟨6, mem sp + b, b, c, d, e, sp, decide (255 < (mem sp).toNat + b.toNat), mem sp + b == 0,
    fun i => if i = sp then mem sp + b else mem i⟩) ?_) ?_
  · exact pushed
  refine Eq.trans (run_next (t := ⟨7, c, b, c, d, e, sp, decide (255 < (mem sp).toNat + b.toNat), mem sp + b == 0,
    fun i => if i = sp then mem sp + b else mem i⟩) ?_) ?_
  · rfl
  refine Eq.trans (run_next (t := ⟨8, c - 1, b, c, d, e, sp, decide (c < 1), c == 1,
    fun i => if i = sp then mem sp + b else mem i⟩) ?_) ?_
  · rfl
  refine Eq.trans (run_next (t := ⟨9, c - 1, b, c - 1, d, e, sp, decide (c < 1), c == 1,
    fun i => if i = sp then mem sp + b else mem i⟩) ?_) ?_
  · rfl
  refine Eq.trans (run_next (t := ⟨0, c - 1, b, c - 1, d, e, sp, decide (c < 1), c == 1,
    fun i => if i = sp then mem sp + b else mem i⟩) ?_) ?_
  · exact congrArg (Option.map fun j => (⟨j, c - 1, b, c - 1, d, e, sp, decide (c < 1), c == 1,
      fun i => if i = sp then mem sp + b else mem i⟩ : Src)) d2
  rfl

theorem loop_leave (s : Src) (h0 : s.pos = 0) (h2 : s.sp.toNat < 65535) (hc : s.c = 1) :
    s.run loopProg 4 = some ⟨11, s.mem s.sp, s.b, 1, s.d, s.e, s.sp + 1, false, true, s.mem⟩ := by
  obtain ⟨d1, d2, sz⟩ := loop_dest
  have n1 : s.sp ≠ 0xFFFF := by rintro e; rw [e] at h2; simp at h2
  obtain ⟨pos, ac, b, c, d, e, sp, fc, fz, mem⟩ := s
  simp only at h0 h2 hc n1
  subst h0 hc
  refine Eq.trans (run_next (t := ⟨1, 1, b, 1, d, e, sp, fc, fz, mem⟩) ?_) ?_
  · rfl
  refine Eq.trans (run_next (t := ⟨2, 1, b, 1, d, e, sp, false, true, mem⟩) ?_) ?_
  · rfl
  refine Eq.trans (run_next (t := ⟨10, 1, b, 1, d, e, sp, false, true, mem⟩) ?_) ?_
  · exact congrArg (Option.map fun j => (⟨j, 1, b, 1, d, e, sp, false, true, mem⟩ : Src)) d1
  refine Eq.trans (run_next (t := ⟨11, mem sp, b, 1, d, e, sp + 1, false, true, mem⟩) ?_) ?_
  · exact congrArg (Option.map _) (pop_some (s := ⟨11, 1, b, 1, d, e, sp, false, true, mem⟩) n1)
  rfl

theorem run_add (prog : List Stmt) (a b : Nat) (s : Src) :
    s.run prog (a + b) = (s.run prog a).bind (Src.run prog b) := by
  induction a generalizing s with
  | zero => simp [Src.run]
  | succ a ih =>
    rw [Nat.succ_add, Src.run, Src.run, Option.bind_assoc]
    congr 1
    funext t
    exact ih t

theorem loop_run : ∀ (n : Nat) (s : Src), (s.c - 1).toNat = n → s.pos = 0 → 18 ≤ s.sp.toNat → s.sp.toNat < 65535 →
    ∃ k m, s.run loopProg k = some ⟨11, s.mem s.sp + (s.c - 1) * s.b, s.b, 1, s.d, s.e, s.sp + 1, false, true, m⟩ ∧
      ∀ i, m i = if i = s.sp then s.mem s.sp + (s.c - 1) * s.b else s.mem i := by
  intro n
  induction n with
  | zero =>
    intro s hn h0 h1 h2
    have hc : s.c - 1 = 0 := BitVec.eq_of_toNat_eq hn
    have hc' : s.c = 1 := by simpa using (BitVec.sub_eq_iff_eq_add.1 hc)
    refine ⟨4, s.mem, ?_, ?_⟩
    · rw [loop_leave s h0 h2 hc', hc]; simp
    · intro i
      rw [hc]
      split <;> simp_all
  | succ n ih =>
    intro s hn h0 h1 h2
    have hc : s.c ≠ 1 := by rintro e; rw [e] at hn; simp at hn
    obtain ⟨t, r, t0, tb, tc, td, te, tsp, tm⟩ := loop_round s h0 h1 h2 hc
    have hn' : (t.c - 1).toNat = n := by
      rw [tc, BitVec.toNat_sub, hn]
      simp
      have := (s.c - 1).isLt
      omega
    obtain ⟨k, m, r', hm⟩ := ih t hn' t0 (tsp ▸ h1) (tsp ▸ h2)
    have e : t.mem t.sp + (t.c - 1) * t.b = s.mem s.sp + (s.c - 1) * s.b := by
      rw [tm, tsp, tb, tc]
      simp only [if_true]
      generalize s.c - 1 = x
      have : x * s.b = s.b + (x - 1) * s.b := by
        conv => lhs; rw [show x = 1#8 + (x - 1) by rw [BitVec.add_comm]; exact (BitVec.sub_add_cancel _ _).symm]
        rw [BitVec.add_mul, BitVec.one_mul]
      rw [this, BitVec.add_assoc]
    refine ⟨10 + k, m, ?_, ?_⟩
    · rw [run_add, r, Option.bind_some, r', e, tb, td, te, tsp]
    · intro i
      rw [hm i, e, tsp, tm]
      split <;> simp_all

/-- What the loop does: to the number on the stack RB is added RC - 1 times. -/
def looped (p : P) : P :=
  { p with ac := p.mem p.sp + (p.c - 1) * p.b, c := 1, sp := p.sp + 1, fc := false, fz := true,
           mem := fun i => if i = p.sp then p.mem p.sp + (p.c - 1) * p.b else p.mem i }

/-- **C84.** The part with the loop, wherever the stack is behind the program and not at the end of memory: RB is added
RC - 1 times to what is on the stack (255 times if RC is 0), and the sum is in AC. -/
theorem C84_loop (st : Store) (h : H) (es : List Event) (s : Ui) (d : FromDocs loopText st h es s) (p : P)
    (hp : Shows s.core p) (h1 : 18 ≤ p.sp.toNat) (h2 : p.sp.toNat < 65535) : Ends s (Made looped 18 p) := by
  have hs : Source loopText (loopStmts.map (·.1)) :=
    parts_source (lines := ["TSTART MOV RC, AC", "CMP 01", "BEQ TFIN", "POP", "ADD RB", "PUSH", "MOV RC, AC", "SUB 01",
      "MOV AC, RC", "JMP TSTART", "TFIN POP"].map String.toList) (ps := loopStmts) (by simp) (by decide +kernel)
      (by decide +kernel) (by decide +kernel) (by decide +kernel)
  refine docs_source hs (by decide +kernel) (by decide +kernel) (by decide +kernel) (by decide) (by decide) d hp _ fun m hm => ?_
  obtain ⟨k, m', r, hm'⟩ := loop_run _ (Src.start p m) rfl rfl h1 h2
  have e : m p.sp = p.mem p.sp := hm p.sp (show 17 < p.sp.toNat by omega)
  refine ⟨k, _, r, rfl, ?_, fun i hi => ?_⟩
  · show P.mk (m p.sp + _) _ _ _ _ _ _ _ _ _ _ = _
    rw [e]; rfl
  · have := hm' i
    show m' i = if i = p.sp then p.mem p.sp + (p.c - 1) * p.b else p.mem i
    rw [this]
    show (if i = p.sp then m p.sp + (p.c - 1) * p.b else m i) = _
    rw [e, hm i hi]

/-- Every text can be opened with every machine between two instructions. -/
theorem docs_open (text : Str) (p : P) (he : p.errs = []) :
    ∃ h s, FromDocs text emptyStore h [] s ∧ Shows s.core p := by
  obtain ⟨h, ph, hr, on, ui, _, hq⟩ := ready_all p he
  obtain ⟨s0, h0, _⟩ := C59_defined ph h (load emptyStore (codeParam (locationSearch (openCode text)))) hr on ui
  exact ⟨h, s0, ⟨⟨ph, hr, on, ui⟩, ⟨s0, h0, rfl⟩, fun _ h => (by cases h), (start_inv h0).2.2.1,
      by rw [(start_inv h0).2.2.2.2.1]⟩, (start_inv h0).1 ▸ hq⟩

example : ∃ h s, FromDocs "ADD RB".toList emptyStore h [] s ∧ Ends s fun q => q.ac = 3 ∧ q.fc = true ∧ q.mem 0x1234 = 7 := by
  obtain ⟨h, s, d, sh⟩ := docs_open "ADD RB".toList ⟨0xFF, 4, 0, 0, 0, 0, 0, false, false, fun _ => 7, []⟩ rfl
  refine ⟨h, s, d, ?_⟩
  obtain ⟨s1, e1, k1, k2⟩ := C84_line "ADD RB" 1 (fun p => addition p p.b) (by simp [documented]) _ h [] s d _ sh
  refine ⟨s1, e1, fun es' s' hl hs' over => ?_, k2⟩
  obtain ⟨q, r, ⟨e, em⟩, m⟩ := k1 es' s' hl hs' over
  exact ⟨q, r, ⟨by rw [e]; rfl, by rw [e]; rfl, em _ (by decide)⟩, m⟩

example : ∃ h s, FromDocs loopText emptyStore h [] s ∧ Ends s fun q => q.ac = 15 ∧ q.sp = 0x1234 ∧ q.mem 0x1233 = 15 := by
  obtain ⟨h, s, d, sh⟩ := docs_open loopText ⟨0, 5, 3, 0, 0, 0, 0x1233, false, false, fun _ => 5, []⟩ rfl
  refine ⟨h, s, d, ?_⟩
  obtain ⟨s1, e1, k1, k2⟩ := C84_loop _ h [] s d _ sh (by decide) (by decide)
  refine ⟨s1, e1, fun es' s' hl hs' over => ?_, k2⟩
  obtain ⟨q, r, ⟨e, em⟩, m⟩ := k1 es' s' hl hs' over
  exact ⟨q, r, ⟨by rw [e]; rfl, by rw [e]; rfl, em _ (by decide)⟩, m⟩

end Mpp.Front
