import Verif.Front.Samples2
/-!
# Tools for the programs of the documentation

Texts put together from lines, a checker for machine code, and rules to follow programs that use the
stack at any depth.
-/
namespace Mpp.Front

/-! ## Texts from lines -/

/-- Some lines of a text and the statements in them. -/
structure TextPart (lines : List Str) (prog : List Stmt) : Prop where
  noNl : ∀ l ∈ lines, '\n' ∉ l
  noTerm : ∀ l ∈ lines, NoTerm (clean l)
  reads : List.Forall₂ Reads ((lines.map clean).filter fun c => c ≠ []) prog

theorem TextPart.append {l1 l2 : List Str} {p1 p2 : List Stmt} (h1 : TextPart l1 p1) (h2 : TextPart l2 p2) :
    TextPart (l1 ++ l2) (p1 ++ p2) := by
  refine ⟨?_, ?_, ?_⟩
  · intro l hl
    rcases List.mem_append.1 hl with hl | hl
    · exact h1.noNl l hl
    · exact h2.noNl l hl
  · intro l hl
    rcases List.mem_append.1 hl with hl | hl
    · exact h1.noTerm l hl
    · exact h2.noTerm l hl
  · rw [List.map_append, List.filter_append]
    exact List.rel_append h1.reads h2.reads

/-- Lines without open places. -/
theorem TextPart.fixed {lines : List Str} (ps : List (Stmt × Str)) (h0 : ∀ l ∈ lines, '\n' ∉ l)
    (h1 : (lines.map clean).filter (fun c => c ≠ []) = ps.map fun p => lineOf p.1 p.2)
    (h2 : ∀ p ∈ ps, ArgText p.1.instr p.2 p.1.arg ∧ ∀ l ∈ p.1.label, IsLabel l)
    (h3 : ∀ l ∈ lines, NoTerm (clean l)) : TextPart lines (ps.map (·.1)) :=
  ⟨h0, h3, by rw [h1]; exact reads_all h2⟩

/-- A line with an open byte operand, and perhaps a comment after a space. -/
theorem TextPart.byte {i : Instr} {x : Str} {a : BitVec 8} (hx : ByteText x a) (hk : kindOf i = .byte)
    (b c : Str) (hb : ∀ y ∈ b, Blank y) (hb' : '\n' ∉ b) (hc : c = [] ∨ c.head? = some '#')
    (hc' : '\n' ∉ c) : TextPart [textOf i x ++ b ++ c] [⟨none, i, .num a.toNat⟩] := by
  have hn := neat_textOf i (w := x) fun _ => hx.plain
  have core : Core (textOf i x ++ b ++ c) (textOf i x) :=
    ⟨⟨[], b, c, by simp, by simp, hb, hc⟩, hn.noHash, hn.first, hn.last⟩
  have e := clean_of_core core
  refine ⟨?_, ?_, ?_⟩
  · intro l hl
    rw [List.mem_singleton] at hl
    subst hl
    simp only [List.mem_append, not_or]
    exact ⟨⟨hn.noNl, hb'⟩, hc'⟩
  · intro l hl
    rw [List.mem_singleton] at hl
    subst hl
    rw [e]
    exact hn.noTerms
  · rw [List.map_singleton, e, List.filter_cons_of_pos (by simpa using hn.ne), List.filter_nil]
    refine .cons (reads_lineOf (st := ⟨none, i, .num a.toNat⟩) ?_ (by simp)) .nil
    unfold ArgText
    simp only [hk]
    exact hx

theorem TextPart.source {lines : List Str} {prog : List Stmt} (h : TextPart lines prog) (hne : lines ≠ []) :
    Source (join '\n' lines) prog := by
  rw [source_iff, cleanLines_eq, split_join hne h.noNl]
  refine ⟨?_, h.reads⟩
  intro l hl
  obtain ⟨l', h1, rfl⟩ := List.mem_map.1 hl
  exact h.noTerm l' h1

/-! ## Machine code -/

/-- Address of the first statement with a label. -/
def labelAddr : List Stmt → Str → Option Nat
  | [], _ => none
  | s :: r, l => if s.label = some l then some 0 else (labelAddr r l).map (· + s.instr.size)

theorem labelAddr_sound {prog : List Stmt} {l : Str} {n : Nat} (h : labelAddr prog l = some n) :
    LabelAt prog l n := by
  induction prog generalizing n with
  | nil => cases h
  | cons s r ih =>
    rw [labelAddr] at h
    split at h
    · rename_i hl
      cases h
      exact ⟨[], s, r, rfl, hl, by simp, rfl⟩
    · rename_i hl
      obtain ⟨k, hk, rfl⟩ := Option.map_eq_some_iff.1 h
      obtain ⟨before, st, after, e1, e2, e3, e4⟩ := ih hk
      refine ⟨s :: before, st, after, by rw [e1]; rfl, e2, ?_, ?_⟩
      · intro x hx
        rcases List.mem_cons.1 hx with rfl | hx
        · exact hl
        · exact e3 x hx
      · rw [e4]
        simp only [sizeOf, List.map_cons, List.sum_cons]
        exact Nat.add_comm _ _

/-- The number an operand stands for. -/
def argVal (q : List Stmt) : Arg → Option Nat
  | .none => some 0
  | .num n => some n
  | .label l => labelAddr q l

/-- Check the bytes of one statement. -/
def stmtOk (q : List Stmt) (st : Stmt) : List (BitVec 8) → Bool
  | [] => false
  | op :: rest =>
    decide (decode op = some st.instr) &&
    match argVal q st.arg with
    | none => false
    | some v =>
      match kindOf st.instr with
      | .none => decide (rest = [])
      | .byte => decide (v < 256 ∧ rest = [BitVec.ofNat 8 v])
      | .addr => decide (v < 65536 ∧ rest = [BitVec.ofNat 8 (v / 256), BitVec.ofNat 8 (v % 256)])

/-- Check the bytes of statements of `q`. -/
def codeOk (q : List Stmt) : List Stmt → List (List (BitVec 8)) → Bool
  | [], [] => true
  | st :: sts, bs :: bss => stmtOk q st bs && codeOk q sts bss
  | _, _ => false

theorem stmtOk_sound {q : List Stmt} {st : Stmt} {bs : List (BitVec 8)} (h : stmtOk q st bs = true) :
    StmtCode q st bs := by
  unfold stmtOk at h
  split at h
  · cases h
  · rename_i op rest
    rw [Bool.and_eq_true, decide_eq_true_eq] at h
    obtain ⟨h1, h2⟩ := h
    split at h2
    · cases h2
    · rename_i v hv
      refine ⟨op, rest, v, rfl, h1, ?_, ?_⟩
      · revert hv
        cases st.arg with
        | none => intro _; trivial
        | num n => intro hv; cases hv; rfl
        | label l => exact labelAddr_sound
      · revert h2
        cases kindOf st.instr <;> exact of_decide_eq_true

theorem codeOk_sound {q sts : List Stmt} {bss : List (List (BitVec 8))} (h : codeOk q sts bss = true) :
    List.Forall₂ (StmtCode q) sts bss := by
  induction sts generalizing bss with
  | nil => cases bss with
    | nil => exact .nil
    | cons => cases h
  | cons st sts ih => cases bss with
    | nil => cases h
    | cons bs bss =>
      rw [codeOk, Bool.and_eq_true] at h
      exact .cons (stmtOk_sound h.1) (ih h.2)

theorem codeOk_congr {q q' : List Stmt} (h : ∀ l, labelAddr q l = labelAddr q' l) (sts : List Stmt)
    (bss : List (List (BitVec 8))) : codeOk q sts bss = codeOk q' sts bss := by
  have h1 : ∀ st bs, stmtOk q st bs = stmtOk q' st bs := by
    intro st bs
    have : argVal q st.arg = argVal q' st.arg := by
      cases st.arg <;> first | rfl | exact h _
    unfold stmtOk
    rw [this]
  induction sts generalizing bss with
  | nil => cases bss <;> rfl
  | cons st sts ih => cases bss with
    | nil => rfl
    | cons bs bss => simp only [codeOk, h1, ih]

theorem Valid.append {p q : List Stmt} (hp : Valid p) (hq : Valid q) : Valid (p ++ q) := by
  intro st hst
  rcases List.mem_append.1 hst with h | h
  · have := hp st h
    revert this
    cases st.arg with
    | none => exact id
    | num n => exact id
    | label l => rintro ⟨s, h1, h2⟩; exact ⟨s, List.mem_append_left _ h1, h2⟩
  · have := hq st h
    revert this
    cases st.arg with
    | none => exact id
    | num n => exact id
    | label l => rintro ⟨s, h1, h2⟩; exact ⟨s, List.mem_append_right _ h1, h2⟩

theorem LabelsAreAddresses.append {p q : List Stmt} (hp : LabelsAreAddresses p) (hq : LabelsAreAddresses q) :
    LabelsAreAddresses (p ++ q) := by
  intro st hst
  rcases List.mem_append.1 hst with h | h
  · exact hp st h
  · exact hq st h

/-! ## Stacks of any depth -/

/-- A cell is written. -/
def put (m : BitVec 16 → BitVec 8) (k : Nat) (v : BitVec 8) : BitVec 16 → BitVec 8 :=
  fun i => if i = BitVec.ofNat 16 k then v else m i

theorem put_same (m : BitVec 16 → BitVec 8) (k : Nat) (v : BitVec 8) : put m k v (BitVec.ofNat 16 k) = v :=
  if_pos rfl

theorem ofNat16_ne {j k : Nat} (hj : j < 65536) (hk : k < 65536) (h : j ≠ k) :
    BitVec.ofNat 16 j ≠ BitVec.ofNat 16 k := by
  intro e
  have := congrArg BitVec.toNat e
  simp only [BitVec.toNat_ofNat] at this
  omega

theorem ofNat16_ne_zero {j : Nat} (hj : j < 65536) (h : j ≠ 0) : BitVec.ofNat 16 j ≠ 0 := by
  intro e
  have := congrArg BitVec.toNat e
  simp at this
  omega

theorem ofNat16_ne_last {j : Nat} (hj : j < 65535) : BitVec.ofNat 16 j ≠ 0xFFFF := by
  intro e
  have := congrArg BitVec.toNat e
  simp at this
  omega

theorem put_ne (m : BitVec 16 → BitVec 8) {k : Nat} (v : BitVec 8) {i : BitVec 16} (h : i.toNat ≠ k) (hk : k < 65536) :
    put m k v i = m i := by
  refine if_neg fun e => h ?_
  rw [e, BitVec.toNat_ofNat]
  omega

theorem put_other (m : BitVec 16 → BitVec 8) {j k : Nat} (v : BitVec 8) (hj : j < 65536) (hk : k < 65536)
    (h : j ≠ k) : put m k v (BitVec.ofNat 16 j) = m (BitVec.ofNat 16 j) := if_neg (ofNat16_ne hj hk h)

theorem put_put (m : BitVec 16 → BitVec 8) (k : Nat) (v w : BitVec 8) : put (put m k v) k w = put m k w := by
  funext i
  unfold put
  split <;> rfl

/-- The bytes of a program are in memory from cell 0 on. -/
def Holds (bs : List (BitVec 8)) (m : BitVec 16 → BitVec 8) : Prop :=
  ∀ k b, bs[k]? = some b → m (BitVec.ofNat 16 k) = b

theorem Holds.of_written {bs : List (BitVec 8)} {m0 m : BitVec 16 → BitVec 8} (w : Written m0 0 bs m) :
    Holds bs m := fun k b h => by
  have := w.here k b h
  rwa [Nat.zero_add] at this

theorem Holds.put {bs : List (BitVec 8)} {m : BitVec 16 → BitVec 8} (h : Holds bs m) {k : Nat} (v : BitVec 8)
    (h1 : bs.length ≤ k) (h2 : k < 65536) : Holds bs (put m k v) := fun j b hj => by
  have hl := (List.getElem?_eq_some_iff.1 hj).1
  rw [put_other _ _ (by omega) h2 (by omega)]
  exact h j b hj

section
variable {ac b c d e : BitVec 8} {pc pc' : BitVec 16} {fc fz : Bool} {mem : BitVec 16 → BitVec 8}
  {errs : List Err} {q : P} {k : Nat}

theorem ofNat16_succ (k : Nat) : BitVec.ofNat 16 (k + 1) - 1 = BitVec.ofNat 16 k := by
  apply BitVec.eq_of_toNat_eq
  simp
  omega

theorem ofNat16_add (k : Nat) : BitVec.ofNat 16 k + 1 = BitVec.ofNat 16 (k + 1) := by
  apply BitVec.eq_of_toNat_eq
  simp

theorem step_push (ho : mem pc = 0xC1#8) (hp : pc ≠ 0xFFFF) (hk : k + 1 < 65536) :
    P.step ⟨ac, b, c, d, e, pc, BitVec.ofNat 16 (k + 1), fc, fz, mem, errs⟩ =
      some ⟨ac, b, c, d, e, pc + 1, BitVec.ofNat 16 k, fc, fz, put mem k ac, errs⟩ := by
  rw [P.step_of .push (by show decode (mem _) = _; rw [ho]; decide +kernel) (by decide) (by simp)]
  have h0 : BitVec.ofNat 16 (k + 1) ≠ 0 := ofNat16_ne_zero hk (by omega)
  simp only [P.instr, P.next_mk, if_neg hp, P.down_mk, if_neg h0, ofNat16_succ]
  rfl

theorem step_pop (ho : mem pc = 0xC2#8) (hp : pc ≠ 0xFFFF) (hk : k + 1 < 65536) :
    P.step ⟨ac, b, c, d, e, pc, BitVec.ofNat 16 k, fc, fz, mem, errs⟩ =
      some ⟨mem (BitVec.ofNat 16 k), b, c, d, e, pc + 1, BitVec.ofNat 16 (k + 1), fc, fz, mem, errs⟩ := by
  rw [P.step_of .pop (by show decode (mem _) = _; rw [ho]; decide +kernel) (by decide) (by simp)]
  have h0 : BitVec.ofNat 16 k ≠ 0xFFFF := ofNat16_ne_last (by omega)
  simp only [P.instr, P.next_mk, if_neg hp, P.up_mk, if_neg h0, ofNat16_add]
  rfl

theorem step_call {hi lo : BitVec 8} (n : Nat) (ho : mem (BitVec.ofNat 16 n) = 0xC4#8)
    (hh : mem (BitVec.ofNat 16 (n + 1)) = hi) (hl : mem (BitVec.ofNat 16 (n + 2)) = lo) (hn : n + 3 < 65536)
    (hk : k + 2 < 65536) :
    P.step ⟨ac, b, c, d, e, BitVec.ofNat 16 n, BitVec.ofNat 16 (k + 2), fc, fz, mem, errs⟩ =
      some ⟨ac, b, c, d, e, hi ++ lo, BitVec.ofNat 16 k, fc, fz,
        put (put mem (k + 1) ((BitVec.ofNat 16 (n + 3)).extractLsb' 8 8)) k
          ((BitVec.ofNat 16 (n + 3)).extractLsb' 0 8), errs⟩ := by
  have f (j : Nat) (hj : j < 0xFFFF) : BitVec.ofNat 16 j ≠ 0xFFFF := ofNat16_ne_last hj
  have z (j : Nat) (h0 : 0 < j) (hj : j < 65536) : BitVec.ofNat 16 j ≠ 0 :=
    ofNat16_ne_zero hj (by omega)
  rw [P.step_of .call (by show decode (mem _) = _; rw [ho]; decide +kernel) (by decide) (fun _ => f n (by omega))]
  simp only [P.instr, P.next_mk, P.address, P.byte, if_neg (f n (by omega)), if_neg (f (n + 1) (by omega)),
    if_neg (f (n + 2) (by omega)), ofNat16_add, hh, hl, P.down_mk, if_neg (z (k + 2) (by omega) hk),
    ofNat16_succ, P.store, if_neg (z (k + 1) (by omega) (by omega))]
  rfl

theorem step_ret (ho : mem pc = 0xC5#8) (hp : pc ≠ 0xFFFF) (hk : k + 2 < 65536) :
    P.step ⟨ac, b, c, d, e, pc, BitVec.ofNat 16 k, fc, fz, mem, errs⟩ =
      some ⟨ac, b, c, d, e, mem (BitVec.ofNat 16 (k + 1)) ++ mem (BitVec.ofNat 16 k),
        BitVec.ofNat 16 (k + 2), fc, fz, mem, errs⟩ := by
  rw [P.step_of .ret (by show decode (mem _) = _; rw [ho]; decide +kernel) (by decide) (by simp)]
  have f (j : Nat) (hj : j < 0xFFFF) : BitVec.ofNat 16 j ≠ 0xFFFF := ofNat16_ne_last hj
  simp only [P.instr, P.next_mk, if_neg hp, P.up_mk, if_neg (f k (by omega)), ofNat16_add,
    if_neg (f (k + 1) (by omega)), P.top]

theorem runs_push (ho : mem pc = 0xC1#8) (hp : pc ≠ 0xFFFF) (hn : pc + 1 = pc') (hk : k + 1 < 65536)
    (r : Runs ⟨ac, b, c, d, e, pc', BitVec.ofNat 16 k, fc, fz, put mem k ac, errs⟩ q) :
    Runs ⟨ac, b, c, d, e, pc, BitVec.ofNat 16 (k + 1), fc, fz, mem, errs⟩ q :=
  .step (step_push ho hp hk) (hn ▸ r)

theorem runs_pop (ho : mem pc = 0xC2#8) (hp : pc ≠ 0xFFFF) (hn : pc + 1 = pc') (hk : k + 1 < 65536)
    (r : Runs ⟨mem (BitVec.ofNat 16 k), b, c, d, e, pc', BitVec.ofNat 16 (k + 1), fc, fz, mem, errs⟩ q) :
    Runs ⟨ac, b, c, d, e, pc, BitVec.ofNat 16 k, fc, fz, mem, errs⟩ q :=
  .step (step_pop ho hp hk) (hn ▸ r)

theorem runs_call {hi lo : BitVec 8} {a : BitVec 16} (n : Nat) (ho : mem (BitVec.ofNat 16 n) = 0xC4#8)
    (hh : mem (BitVec.ofNat 16 (n + 1)) = hi) (hl : mem (BitVec.ofNat 16 (n + 2)) = lo) (hn : n + 3 < 65536)
    (ha : hi ++ lo = a) (hk : k + 2 < 65536)
    (r : Runs ⟨ac, b, c, d, e, a, BitVec.ofNat 16 k, fc, fz,
      put (put mem (k + 1) ((BitVec.ofNat 16 (n + 3)).extractLsb' 8 8)) k
        ((BitVec.ofNat 16 (n + 3)).extractLsb' 0 8), errs⟩ q) :
    Runs ⟨ac, b, c, d, e, BitVec.ofNat 16 n, BitVec.ofNat 16 (k + 2), fc, fz, mem, errs⟩ q :=
  .step (step_call n ho hh hl hn hk) (ha ▸ r)

theorem runs_ret {a : BitVec 16} (ho : mem pc = 0xC5#8) (hp : pc ≠ 0xFFFF) (hk : k + 2 < 65536)
    (ha : mem (BitVec.ofNat 16 (k + 1)) ++ mem (BitVec.ofNat 16 k) = a)
    (r : Runs ⟨ac, b, c, d, e, a, BitVec.ofNat 16 (k + 2), fc, fz, mem, errs⟩ q) :
    Runs ⟨ac, b, c, d, e, pc, BitVec.ofNat 16 k, fc, fz, mem, errs⟩ q :=
  .step (step_ret ho hp hk) (ha ▸ r)

end

/-! ## Runs with something true all the way -/

/-- `k` instructions lead from `p` to `q`, and `I` holds in all states before the last. -/
def Via (I : P → Prop) (k : Nat) (p q : P) : Prop :=
  p.run k = some q ∧ ∀ j < k, ∀ r, p.run j = some r → I r

theorem Via.refl (I : P → Prop) (p : P) : Via I 0 p p := ⟨rfl, fun j h => absurd h (by omega)⟩

theorem Via.step {I : P → Prop} {k : Nat} {p p' q : P} (hi : I p) (h : p.step = some p') (r : Via I k p' q) :
    Via I (k + 1) p q := by
  refine ⟨by rw [P.run, h]; exact r.1, fun j hj t ht => ?_⟩
  cases j with
  | zero => cases ht; exact hi
  | succ j =>
    rw [P.run, h] at ht
    exact r.2 j (by omega) t ht

theorem P.run_add (m n : Nat) (p : P) : p.run (m + n) = (p.run m).bind (P.run n) := by
  induction m generalizing p with
  | zero => rw [Nat.zero_add]; rfl
  | succ m ih =>
    rw [Nat.succ_add, P.run, P.run]
    cases p.step with
    | none => rfl
    | some p' => exact ih p'

theorem Via.trans {I : P → Prop} {m n : Nat} {p q r : P} (h1 : Via I m p q) (h2 : Via I n q r) :
    Via I (m + n) p r := by
  refine ⟨by rw [P.run_add, h1.1]; exact h2.1, fun j hj t ht => ?_⟩
  by_cases h : j < m
  · exact h1.2 j h t ht
  · obtain ⟨i, rfl⟩ := Nat.exists_eq_add_of_le (Nat.le_of_not_lt h)
    rw [P.run_add, h1.1] at ht
    exact h2.2 i (by omega) t ht

/-- One instruction: `op` is the opcode at PC. -/
theorem Via.next {I : P → Prop} {k : Nat} {p p' q : P} {op : BitVec 8} (hi : I p) (i : Instr)
    (ho : p.mem p.pc = op) (hd : decode op = some i) (hf : i ≠ .fin) (hc : i = .call → p.pc ≠ 0xFFFF)
    (he : p.instr i = p') (r : Via I k p' q) : Via I (k + 1) p q :=
  .step hi (P.step_of i (by rw [ho]; exact hd) hf hc) (by rw [he]; exact r)

section
variable {ac b c d e : BitVec 8} {pc pc' : BitVec 16} {fc fz : Bool} {mem mem' : BitVec 16 → BitVec 8}
  {errs : List Err} {q : P} {k n : Nat} {I : P → Prop}

theorem via_push (hi : I ⟨ac, b, c, d, e, pc, BitVec.ofNat 16 (k + 1), fc, fz, mem, errs⟩)
    (ho : mem pc = 0xC1#8) (hp : pc ≠ 0xFFFF) (hn : pc + 1 = pc') (hk : k + 1 < 65536)
    (hm : put mem k ac = mem')
    (r : Via I n ⟨ac, b, c, d, e, pc', BitVec.ofNat 16 k, fc, fz, mem', errs⟩ q) :
    Via I (n + 1) ⟨ac, b, c, d, e, pc, BitVec.ofNat 16 (k + 1), fc, fz, mem, errs⟩ q :=
  .step hi (step_push ho hp hk) (hn ▸ hm ▸ r)

theorem via_pop {ac' : BitVec 8} (hi : I ⟨ac, b, c, d, e, pc, BitVec.ofNat 16 k, fc, fz, mem, errs⟩)
    (ho : mem pc = 0xC2#8) (hp : pc ≠ 0xFFFF) (hn : pc + 1 = pc') (hk : k + 1 < 65536)
    (ha : mem (BitVec.ofNat 16 k) = ac')
    (r : Via I n ⟨ac', b, c, d, e, pc', BitVec.ofNat 16 (k + 1), fc, fz, mem, errs⟩ q) :
    Via I (n + 1) ⟨ac, b, c, d, e, pc, BitVec.ofNat 16 k, fc, fz, mem, errs⟩ q :=
  .step hi (step_pop ho hp hk) (hn ▸ ha ▸ r)

theorem via_call {hi lo rh rl : BitVec 8} {a : BitVec 16} (j : Nat)
    (hI : I ⟨ac, b, c, d, e, BitVec.ofNat 16 j, BitVec.ofNat 16 (k + 2), fc, fz, mem, errs⟩)
    (ho : mem (BitVec.ofNat 16 j) = 0xC4#8)
    (hh : mem (BitVec.ofNat 16 (j + 1)) = hi) (hl : mem (BitVec.ofNat 16 (j + 2)) = lo) (hn : j + 3 < 65536)
    (ha : hi ++ lo = a) (hk : k + 2 < 65536) (hrh : (BitVec.ofNat 16 (j + 3)).extractLsb' 8 8 = rh)
    (hrl : (BitVec.ofNat 16 (j + 3)).extractLsb' 0 8 = rl)
    (hm : put (put mem (k + 1) rh) k rl = mem')
    (r : Via I n ⟨ac, b, c, d, e, a, BitVec.ofNat 16 k, fc, fz, mem', errs⟩ q) :
    Via I (n + 1) ⟨ac, b, c, d, e, BitVec.ofNat 16 j, BitVec.ofNat 16 (k + 2), fc, fz, mem, errs⟩ q :=
  .step hI (step_call j ho hh hl hn hk) (ha ▸ hrh ▸ hrl ▸ hm ▸ r)

theorem via_ret {a : BitVec 16} {h l : BitVec 8}
    (hi : I ⟨ac, b, c, d, e, pc, BitVec.ofNat 16 k, fc, fz, mem, errs⟩)
    (ho : mem pc = 0xC5#8) (hp : pc ≠ 0xFFFF) (hk : k + 2 < 65536) (h1 : mem (BitVec.ofNat 16 (k + 1)) = h)
    (h2 : mem (BitVec.ofNat 16 k) = l) (ha : h ++ l = a)
    (r : Via I n ⟨ac, b, c, d, e, a, BitVec.ofNat 16 (k + 2), fc, fz, mem, errs⟩ q) :
    Via I (n + 1) ⟨ac, b, c, d, e, pc, BitVec.ofNat 16 k, fc, fz, mem, errs⟩ q :=
  .step hi (step_ret ho hp hk) (by rw [h1, h2, ha]; exact r)

end

/-! ## From runs to the machine -/

theorem _root_.Mpp.Ready.instructions {u : Bool} {h : H} {p q : P} (r : Ready h p) (k : Nat) (e : p.run k = some q) :
    ∃ h', RunInstructions u k h h' ∧ Ready h' q := by
  induction k generalizing h p with
  | zero => cases e; exact ⟨h, .none, r⟩
  | succ k ih =>
    rw [P.run] at e
    cases e1 : p.step with
    | none => rw [e1] at e; cases e
    | some p1 =>
      rw [e1] at e
      obtain ⟨_, n1, h1, i1, r1⟩ := r.step (u := u) e1
      obtain ⟨h2, i2, r2⟩ := ih r1 e
      exact ⟨h2, .step i1 i2, r2⟩

/-- Run-program does not end if the instruction set leads on for ever. -/
theorem never_stops {u : Bool} {h : H} {p : P} (r : Ready h p) (run : ∀ k, (p.run k).isSome) (n : Nat) (h' : H) :
    ¬ RunProgram u n h h' := by
  intro l
  obtain ⟨k, h1, p1, nf, r1, hf, _⟩ := C18_only_at_fin u h h' n p r l
  have go : ∀ k h h1, NoFin u k h h1 → ∀ p, Ready h p → (∀ k, (p.run k).isSome) →
      ∃ q, Ready h1 q ∧ ∀ k, (q.run k).isSome := by
    intro k h h1 nf
    induction nf with
    | none => intro p r run; exact ⟨p, r, run⟩
    | step before ne first rest ih =>
      intro p r run
      have h1 := run 1
      rw [P.run] at h1
      cases e1 : p.step with
      | none => rw [e1] at h1; cases h1
      | some p' =>
        obtain ⟨_, n', h'', i, r'⟩ := r.step (u := u) e1
        obtain ⟨_, rfl⟩ := i.det first
        refine ih p' r' fun k => ?_
        have := run (k + 1)
        rwa [P.run, e1] at this
  obtain ⟨q, r2, run2⟩ := go k h h1 nf p r run
  have : p1 = q := r1.unique r2
  subst this
  have h1 := run2 1
  rw [P.run] at h1
  cases e1 : p1.step with
  | none => rw [e1] at h1; cases h1
  | some p' => exact (r1.step (u := u) e1).1 hf

end Mpp.Front
