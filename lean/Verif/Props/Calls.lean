import Verif.Props.Depth
/-!
# C106: programs with functions that do not call themselves

The machine keeps return addresses on the same stack as the data of PUSH. A program with CALL and RET comes back to
where it was called only if each function takes away what it put on the stack, if nothing is stored on the stack, and
if there is room for the deepest chain of calls. Under these conditions, which are about the text of the program alone,
every RET leads to the statement after the CALL, and the program does not go wrong.
-/
namespace Mpp.Front

theorem place_lt_succ {prog : List Stmt} {i : Nat} (h : i < prog.length) : place prog i < place prog (i + 1) := by
  rw [place_succ (List.getElem?_eq_getElem h)]
  have : 0 < (prog[i]).instr.size := Instr.size_pos _
  omega

theorem place_lt {prog : List Stmt} {i j : Nat} (h : i < j) (hj : j ≤ prog.length) :
    place prog i < place prog j := by
  induction j with
  | zero => omega
  | succ j ih =>
    have h1 := place_lt_succ (prog := prog) (i := j) (by omega)
    rcases Nat.lt_or_ge i j with h2 | h2
    · have := ih h2 (by omega); omega
    · have : i = j := by omega
      subst this; exact h1

theorem place_inj {prog : List Stmt} {i j : Nat} (hi : i < prog.length) (hj : j < prog.length)
    (h : place prog i = place prog j) : i = j := by
  rcases Nat.lt_trichotomy i j with h1 | h1 | h1
  · have := place_lt h1 (Nat.le_of_lt hj); omega
  · exact h1
  · have := place_lt h1 (Nat.le_of_lt hi); omega

/-- What the statements other than STAX, PUSH and CALL do to memory. -/
theorem step_mem {prog : List Stmt} {s s' : Src} {st : Stmt} (h : s.step prog = some s')
    (hst : prog[s.pos]? = some st) (hw : Instr.setsSomewhere st.instr = false) (c : BitVec 16)
    (hc : st.instr = .sta → st.arg.addr prog ≠ some c) : s'.mem c = s.mem c := by
  unfold Src.step at h
  rw [hst, Option.bind_some] at h
  cases hi : st.instr <;> rw [hi] at h <;> simp only at h
  case mov src dst =>
    obtain ⟨x, -, rfl⟩ := Option.map_eq_some_iff.1 h
    exact congrFun (put_spares _ _ _).2.2.2.1 c
  case alu op src =>
    obtain ⟨x, -, rfl⟩ := Option.map_eq_some_iff.1 h
    exact congrFun (compute_same _ _ _).2.1 c
  case inc dst => cases h; exact congrFun (put_spares { s with pos := s.pos + 1 } _ _).2.2.2.1 c
  case sta =>
    obtain ⟨a, ha, h⟩ := Option.bind_eq_some_iff.1 h
    obtain ⟨-, rfl⟩ := Src.write_inv h
    exact if_neg fun e => hc hi (by rw [e]; exact ha)
  case stax => rw [hi] at hw; cases hw
  case push => rw [hi] at hw; cases hw
  case call => rw [hi] at hw; cases hw
  case ret => obtain ⟨i, -, rfl⟩ := Src.back_inv h; rfl
  case iret =>
    obtain ⟨t, h1, h⟩ := Option.bind_eq_some_iff.1 h
    obtain ⟨i, -, rfl⟩ := Src.back_inv h1
    obtain ⟨f, h2, rfl⟩ := Option.map_eq_some_iff.1 h
    unfold Src.pop at h2
    split at h2 <;> cases h2
    rfl
  case pop =>
    obtain ⟨x, h2, rfl⟩ := Option.map_eq_some_iff.1 h
    unfold Src.pop at h2
    split at h2 <;> cases h2
    rfl
  case beq =>
    split at h
    · obtain ⟨i, -, rfl⟩ := Option.map_eq_some_iff.1 h; rfl
    · cases h; rfl
  case bc =>
    split at h
    · obtain ⟨i, -, rfl⟩ := Option.map_eq_some_iff.1 h; rfl
    · cases h; rfl
  case jmp => obtain ⟨i, -, rfl⟩ := Option.map_eq_some_iff.1 h; rfl
  case inisp => obtain ⟨i, -, rfl⟩ := Option.map_eq_some_iff.1 h; rfl
  case lda => obtain ⟨i, -, rfl⟩ := Option.map_eq_some_iff.1 h; rfl
  case fin => cases h
  all_goals cases h; rfl

/-! ## Functions -/

/-- What is written beside a program: for each statement the number of its function and how many bytes are on the
stack before it since the function was called; for each function how many bytes of stack it needs, with the functions
it calls; the number of the main program; where the stack begins. -/
structure Nest where
  dep : Nat → Nat
  fn : Nat → Nat
  need : Nat → Nat
  main : Nat
  base : Nat

/-- The statements `i` and `j` are in the same function at the same depth. -/
def Nest.Same (N : Nest) (i j : Nat) : Prop := N.fn j = N.fn i ∧ N.dep j = N.dep i

/-- The statement `st` with the number `i` does what `N` says. A function is called at its beginning, needs less stack
than what is left to the caller, and returns with what it put on the stack taken away. STA writes neither on the
program nor on the stack. -/
def NestStmt (prog : List Stmt) (N : Nest) (i : Nat) (st : Stmt) : Prop :=
  match st.instr with
  | .stax | .iret | .inisp => False
  | .push => N.fn (i + 1) = N.fn i ∧ N.dep (i + 1) = N.dep i + 1 ∧ N.dep i + 1 ≤ N.need (N.fn i)
  | .pop => N.fn (i + 1) = N.fn i ∧ N.dep i = N.dep (i + 1) + 1
  | .sta => N.Same i (i + 1) ∧ ∀ b, st.arg.addr prog = some b → sizeOf prog ≤ b.toNat ∧
      (N.base ≤ b.toNat ∨ b.toNat + N.need N.main < N.base)
  | .jmp => (∀ n, st.arg = .num n → ∃ j < prog.length, place prog j = n) ∧
      ∀ j, st.arg.dest prog = some j → j ≠ 0 ∧ N.Same i j
  | .beq | .bc => N.Same i (i + 1) ∧ (∀ n, st.arg = .num n → ∃ j < prog.length, place prog j = n) ∧
      ∀ j, st.arg.dest prog = some j → j ≠ 0 ∧ N.Same i j
  | .call => N.Same i (i + 1) ∧ (∀ n, st.arg = .num n → ∃ j < prog.length, place prog j = n) ∧
      ∀ j, st.arg.dest prog = some j → j ≠ 0 ∧ N.dep j = 0 ∧ N.dep i + 2 + N.need (N.fn j) ≤ N.need (N.fn i)
  | .ret => N.dep i = 0 ∧ N.fn i ≠ N.main
  | .fin => True
  | _ => N.Same i (i + 1)

/-- A program that begins with INISP, has room for the stack it needs, and does what `N` says; at the end a FIN, a
JMP or a RET. -/
structure NestProg (prog : List Stmt) (N : Nest) : Prop where
  first : ∃ st, prog[0]? = some st ∧ st.instr = .inisp ∧ ∀ b, st.arg.addr prog = some b → b.toNat = N.base
  begins : N.dep 1 = 0 ∧ N.fn 1 = N.main
  room : sizeOf prog + N.need N.main ≤ N.base
  stmts : ∀ i st, 0 < i → prog[i]? = some st → NestStmt prog N i st
  last : ∃ l st, prog = l ++ [st] ∧ (st.instr = .fin ∨ st.instr = .jmp ∨ st.instr = .ret)

/-- The statement before `r` calls the function `f`. -/
def ComesBack (prog : List Stmt) (N : Nest) (f r : Nat) : Prop :=
  ∃ i st j, r = i + 1 ∧ prog[i]? = some st ∧ st.instr = .call ∧ st.arg.dest prog = some j ∧ N.fn j = f

/-- The return addresses on the stack: the function `f` was called when SP was `b + 2`, to come back to the first
of the statements, which is in a function that was called to come back to the next one, and so on to the main
program. -/
def Framed (prog : List Stmt) (N : Nest) (mem : BitVec 16 → BitVec 8) : Nat → Nat → List Nat → Prop
  | b, f, [] => b = N.base ∧ f = N.main
  | b, f, r :: rs => N.base + N.need f ≤ b + N.need N.main ∧ ComesBack prog N f r ∧ r < prog.length ∧
      mem (BitVec.ofNat 16 b) = BitVec.ofNat 8 (place prog r) ∧
      mem (BitVec.ofNat 16 (b + 1)) = BitVec.ofNat 8 (place prog r / 256) ∧
      Framed prog N mem (b + 2 + N.dep r) (N.fn r) rs

/-- The stack is in order before a statement. -/
def Nested (prog : List Stmt) (N : Nest) (s : Src) : Prop :=
  s.pos < prog.length ∧
    (s.pos = 0 ∨ ∃ rs, Framed prog N s.mem (s.sp.toNat + N.dep s.pos) (N.fn s.pos) rs)

/-- The same with the return statements. -/
def NestedBy (prog : List Stmt) (N : Nest) (s : Src) (rs : List Nat) : Prop :=
  s.pos < prog.length ∧ (s.pos = 0 ∧ rs = [] ∨
    s.pos ≠ 0 ∧ Framed prog N s.mem (s.sp.toNat + N.dep s.pos) (N.fn s.pos) rs)

theorem nested_iff {prog : List Stmt} {N : Nest} {s : Src} : Nested prog N s ↔ ∃ rs, NestedBy prog N s rs := by
  constructor
  · intro ⟨h1, h2⟩
    by_cases hz : s.pos = 0
    · exact ⟨[], h1, .inl ⟨hz, rfl⟩⟩
    · obtain ⟨rs, hf⟩ := h2.resolve_left hz
      exact ⟨rs, h1, .inr ⟨hz, hf⟩⟩
  · intro ⟨rs, h1, h2⟩
    exact ⟨h1, h2.imp (·.1) fun h => ⟨rs, h.2⟩⟩

/-- Where the statement `st` with the number `i` leads, and what becomes of the return statements. -/
def Moves (prog : List Stmt) (i : Nat) (st : Stmt) (i' : Nat) (rs rs' : List Nat) : Prop :=
  (st.instr = .call ∧ st.arg.dest prog = some i' ∧ rs' = (i + 1) :: rs) ∨
    (st.instr = .ret ∧ rs = i' :: rs') ∨
    (st.instr ≠ .call ∧ st.instr ≠ .ret ∧ rs' = rs ∧ (i' = i + 1 ∧ st.instr ≠ .jmp ∨
      st.arg.dest prog = some i' ∧ (st.instr = .jmp ∨ st.instr = .beq ∨ st.instr = .bc)))

theorem Framed.le {prog : List Stmt} {N : Nest} {mem : BitVec 16 → BitVec 8} {b f : Nat} {rs : List Nat}
    (h : Framed prog N mem b f rs) : b ≤ N.base ∧ N.base + N.need f ≤ b + N.need N.main := by
  induction rs generalizing b f with
  | nil => obtain ⟨rfl, rfl⟩ := h; exact ⟨Nat.le_refl _, Nat.le_refl _⟩
  | cons r rs ih => exact ⟨by have := (ih h.2.2.2.2.2).1; omega, h.1⟩

theorem Framed.keep {prog : List Stmt} {N : Nest} {mem mem' : BitVec 16 → BitVec 8} {b f : Nat} {rs : List Nat}
    (h : Framed prog N mem b f rs) (hb : N.base < 65536)
    (same : ∀ c : BitVec 16, b ≤ c.toNat → c.toNat < N.base → mem' c = mem c) : Framed prog N mem' b f rs := by
  induction rs generalizing b f with
  | nil => exact h
  | cons r rs ih =>
    obtain ⟨h1, h2, h3, h4, h5, h6⟩ := h
    have hle := h6.le.1
    have e1 : (BitVec.ofNat 16 b).toNat = b := by rw [BitVec.toNat_ofNat]; omega
    have e2 : (BitVec.ofNat 16 (b + 1)).toNat = b + 1 := by rw [BitVec.toNat_ofNat]; omega
    refine ⟨h1, h2, h3, ?_, ?_, ih h6 fun c hc => same c (by omega)⟩
    · rw [same _ (by omega) (by omega), h4]
    · rw [same _ (by omega) (by omega), h5]

theorem Src.back_place {prog : List Stmt} {s s' : Src} (h : s.back prog = some s') :
    place prog s'.pos = 256 * (s.mem (s.sp + 1)).toNat + (s.mem s.sp).toNat ∧ s'.pos < prog.length ∧
      s'.sp = s.sp + 1 + 1 ∧ s'.mem = s.mem := by
  unfold Src.back at h
  obtain ⟨lo, h1, h⟩ := Option.bind_eq_some_iff.1 h
  obtain ⟨hi, h2, h⟩ := Option.bind_eq_some_iff.1 h
  obtain ⟨i, h3, rfl⟩ := Option.map_eq_some_iff.1 h
  unfold Src.pop at h1 h2
  split at h1 <;> cases h1
  split at h2 <;> cases h2
  exact ⟨(startsAt_place h3).1, (startsAt_place h3).2, rfl, rfl⟩

/-- An operand of a jump leads somewhere, unless it is a number that is no address of a statement. -/
theorem dest_some {text : Str} {prog : List Stmt} (hs : Source text prog) (hv : Valid prog) {st : Stmt}
    (hm : st ∈ prog) (hk : kindOf st.instr = .addr)
    (hn : ∀ n, st.arg = .num n → ∃ j < prog.length, place prog j = n) : ∃ j, st.arg.dest prog = some j := by
  have harg : ∃ w, ArgText st.instr w st.arg := by
    obtain ⟨_, _, _, _, _, hr⟩ := hs
    obtain ⟨_, _, w, _, _, h, _⟩ := Forall₂.of_right hr hm
    exact ⟨w, h⟩
  obtain ⟨w, harg⟩ := harg
  cases hg : st.arg with
  | none => unfold ArgText at harg; rw [hk, hg] at harg; exact harg.elim
  | num n => exact Option.isSome_iff_exists.1 (startsAt_some (hn n hg))
  | label l =>
    have := hv st hm
    rw [hg] at this
    exact labelled_some this

theorem bytes_back {n : Nat} (h : n < 65536) :
    256 * (BitVec.ofNat 8 (n / 256)).toNat + (BitVec.ofNat 8 n).toNat = n := by
  rw [BitVec.toNat_ofNat, BitVec.toNat_ofNat]
  omega

theorem nest_moves {text : Str} {prog : List Stmt} (hs : Source text prog) (hv : Valid prog)
    (ha : LabelsAreAddresses prog) (hsz : sizeOf prog < 65536) {N : Nest} (hp : NestProg prog N) {s : Src} {st : Stmt}
    {rs : List Nat} (hI : NestedBy prog N s rs) (hst : prog[s.pos]? = some st) (nf : st.instr ≠ .fin) :
    ∃ s' rs', s.step prog = some s' ∧ NestedBy prog N s' rs' ∧ Moves prog s.pos st s'.pos rs rs' := by
  obtain ⟨hpos, hd⟩ := hI
  have hlt : N.base < 65536 := by
    obtain ⟨st0, h0, hi0, hb⟩ := hp.first
    obtain ⟨t, ht⟩ := C75_goes_on text prog hs hv ha { s with pos := 0 } st0 h0 (by
      unfold Src.Clear; rw [hi0]; trivial)
    rcases step_sp ht h0 (by rw [hi0]; nofun) (by rw [hi0]; nofun) (by rw [hi0]; nofun) with
      ⟨e, -⟩ | ⟨e, -⟩ | ⟨-, e⟩ | ⟨e, -⟩
    · rw [hi0] at e; cases e
    · rw [hi0] at e; cases e
    · rw [← hb _ e]; exact t.sp.isLt
    · rw [hi0] at e; cases e
  have hroom := hp.room
  -- behind a statement that can be left behind there is another one
  have after : st.instr ≠ .jmp → st.instr ≠ .ret → s.pos + 1 < prog.length := by
    intro nj nr
    obtain ⟨l, la, el, hl⟩ := hp.last
    have hlt := hpos
    rw [el, List.length_append, List.length_singleton] at hlt ⊢
    rcases Nat.lt_or_ge s.pos l.length with h1 | h1
    · omega
    · have e1 : s.pos = l.length := by omega
      rw [el, e1, List.getElem?_concat_length] at hst
      cases hst
      rcases hl with hl | hl | hl
      · exact absurd hl nf
      · exact absurd hl nj
      · exact absurd hl nr
  by_cases hz : s.pos = 0
  · obtain ⟨-, rfl⟩ := hd.resolve_right fun h => h.1 hz
    obtain ⟨st0, h0, hi0, hb⟩ := hp.first
    rw [hz, h0] at hst
    cases hst
    obtain ⟨s', h⟩ := C75_goes_on text prog hs hv ha s st (by rw [hz]; exact h0) (by
      unfold Src.Clear; rw [hi0]; trivial)
    rw [← hz] at h0
    rcases step_next h h0 (by rw [hi0]; nofun) (by rw [hi0]; nofun) (by rw [hi0]; nofun) with ⟨e, -⟩ | ⟨-, e⟩
    · have hl := after (by rw [hi0]; nofun) (by rw [hi0]; nofun)
      refine ⟨s', [], h, ⟨by rw [e]; exact hl, .inr ⟨by omega, ?_, ?_⟩⟩, .inr (.inr ⟨by rw [hi0]; nofun,
        by rw [hi0]; nofun, rfl, .inl ⟨e, by rw [hi0]; nofun⟩⟩)⟩
      · rw [e, hz, hp.begins.1]
        rcases step_sp h h0 (by rw [hi0]; nofun) (by rw [hi0]; nofun) (by rw [hi0]; nofun) with
          ⟨e, -⟩ | ⟨e, -⟩ | ⟨-, e⟩ | ⟨e, -⟩
        · rw [hi0] at e; cases e
        · rw [hi0] at e; cases e
        · exact hb _ e
        · rw [hi0] at e; cases e
      · rw [e, hz]; exact hp.begins.2
    · rw [hi0] at e
      rcases e with e | e | e <;> cases e
  obtain ⟨-, hf⟩ := hd.resolve_left fun h => hz h.1
  obtain ⟨hle, hbd⟩ := hf.le
  have hS := hp.stmts s.pos st (by omega) hst
  have h1 : (1 : BitVec 16).toNat = 1 := rfl
  by_cases hc : st.instr = .call
  · unfold NestStmt at hS
    rw [hc] at hS
    obtain ⟨hsame, hnum, hdest⟩ := hS
    obtain ⟨j, hj⟩ := dest_some hs hv (List.mem_of_getElem? hst) (by rw [hc]; rfl) hnum
    obtain ⟨hj0, hj1, hj2⟩ := hdest j hj
    have hsp : sizeOf prog + 2 ≤ s.sp.toNat := by omega
    obtain ⟨s', h⟩ := C75_goes_on text prog hs hv ha s st hst (by
      unfold Src.Clear; rw [hc]; exact ⟨hsp, hnum⟩)
    refine ⟨s', (s.pos + 1) :: rs, h, ?_⟩
    unfold Src.step at h
    rw [hst, Option.bind_some] at h
    simp only [hc] at h
    rw [hj, Option.bind_some] at h
    obtain ⟨t1, k1, h⟩ := Option.bind_eq_some_iff.1 h
    obtain ⟨t2, k2, rfl⟩ := Option.map_eq_some_iff.1 h
    obtain ⟨-, rfl⟩ := Src.push_inv k1
    obtain ⟨-, rfl⟩ := Src.push_inv k2
    have e1 : (s.sp - 1).toNat = s.sp.toNat - 1 := by
      rw [BitVec.toNat_sub_of_le (by rw [BitVec.le_def]; omega), h1]
    have e2 : (s.sp - 1 - 1).toNat = s.sp.toNat - 2 := by
      rw [BitVec.toNat_sub_of_le (by rw [BitVec.le_def]; omega), h1, e1]; omega
    have hnext := after (by rw [hc]; nofun) (by rw [hc]; nofun)
    refine ⟨⟨dest_lt hj, .inr ⟨hj0, ?_, ⟨_, _, _, rfl, hst, hc, hj, rfl⟩, hnext, ?_, ?_, ?_⟩⟩, .inl ⟨hc, hj, rfl⟩⟩
    · show N.base + N.need (N.fn j) ≤ (s.sp - 1 - 1).toNat + N.dep j + N.need N.main
      omega
    · show (if BitVec.ofNat 16 ((s.sp - 1 - 1).toNat + N.dep j) = s.sp - 1 - 1 then _ else _) = _
      rw [hj1, Nat.add_zero, BitVec.ofNat_toNat, BitVec.setWidth_eq, if_pos rfl]
    · show (if BitVec.ofNat 16 ((s.sp - 1 - 1).toNat + N.dep j + 1) = s.sp - 1 - 1 then _ else
        if BitVec.ofNat 16 ((s.sp - 1 - 1).toNat + N.dep j + 1) = s.sp - 1 then _ else _) = _
      have e3 : BitVec.ofNat 16 ((s.sp - 1 - 1).toNat + N.dep j + 1) = s.sp - 1 := by
        rw [hj1, Nat.add_zero, e2, show s.sp.toNat - 2 + 1 = (s.sp - 1).toNat by omega, BitVec.ofNat_toNat,
          BitVec.setWidth_eq]
      have ne : s.sp - 1 ≠ s.sp - 1 - 1 := fun e => by
        have := congrArg BitVec.toNat e
        omega
      rw [e3, if_neg ne, if_pos rfl]
    · show Framed prog N _ ((s.sp - 1 - 1).toNat + N.dep j + 2 + N.dep (s.pos + 1)) (N.fn (s.pos + 1)) rs
      rw [hsame.1, hsame.2, show (s.sp - 1 - 1).toNat + N.dep j + 2 + N.dep s.pos = s.sp.toNat + N.dep s.pos by omega]
      refine hf.keep hlt fun c hc _ => ?_
      show (if c = s.sp - 1 - 1 then _ else if c = s.sp - 1 then _ else _) = _
      rw [if_neg, if_neg]
      · intro e; rw [e] at hc; omega
      · intro e; rw [e] at hc; omega
  by_cases hr : st.instr = .ret
  · unfold NestStmt at hS
    rw [hr] at hS
    obtain ⟨hd0, hm⟩ := hS
    cases rs with
    | nil => exact absurd hf.2 hm
    | cons r rs =>
      obtain ⟨-, hr0, hrl, hlo, hhi, hf'⟩ := hf
      have hle' := hf'.le.1
      rw [hd0, Nat.add_zero] at hlo hhi hf' hle'
      have e1 : BitVec.ofNat 16 s.sp.toNat = s.sp := by rw [BitVec.ofNat_toNat, BitVec.setWidth_eq]
      have e2 : (s.sp + 1).toNat = s.sp.toNat + 1 := by rw [BitVec.toNat_add, h1]; omega
      have e3 : BitVec.ofNat 16 (s.sp.toNat + 1) = s.sp + 1 := by
        rw [← e2, BitVec.ofNat_toNat, BitVec.setWidth_eq]
      have e4 : (s.sp + 1 + 1).toNat = s.sp.toNat + 2 := by rw [BitVec.toNat_add, h1, e2]; omega
      have hpl := place_le prog r
      have hback : place prog r = 256 * (s.mem (s.sp + 1)).toNat + (s.mem s.sp).toNat := by
        rw [← e3, hhi, ← e1, e1, ← e1, hlo, bytes_back (by omega)]
      obtain ⟨s', h⟩ := C75_goes_on text prog hs hv ha s st hst (by
        unfold Src.Clear; rw [hr]; exact ⟨by omega, r, hrl, hback⟩)
      refine ⟨s', rs, h, ?_⟩
      unfold Src.step at h
      rw [hst, Option.bind_some] at h
      simp only [hr] at h
      obtain ⟨b1, b2, b3, b4⟩ := Src.back_place h
      have er : s'.pos = r := place_inj b2 hrl (b1.trans hback.symm)
      obtain ⟨i0, -, -, ei, -⟩ := hr0
      refine ⟨⟨b2, .inr ⟨by omega, ?_⟩⟩, .inr (.inl ⟨hr, by rw [er]⟩)⟩
      rw [b4, b3, er, e4]
      exact hf'
  have n3 : st.instr ≠ .iret := by intro e; unfold NestStmt at hS; rw [e] at hS; exact hS
  have hcl : s.Clear prog st := by
    unfold NestStmt at hS
    unfold Src.Clear
    cases hi : st.instr <;> simp only [hi] at hS ⊢
    case fin => exact nf hi
    case push => omega
    case pop => omega
    case sta => exact fun b hb => (hS.2 b hb).1
    case jmp => exact hS.1
    case beq => exact fun _ => hS.2.1
    case bc => exact fun _ => hS.2.1
    case call => exact absurd hi hc
    case ret => exact absurd hi hr
  obtain ⟨s', h⟩ := C75_goes_on text prog hs hv ha s st hst hcl
  refine ⟨s', rs, h, ?_⟩
  by_cases hpu : st.instr = .push
  · have hnext := after (by rw [hpu]; nofun) (by rw [hpu]; nofun)
    unfold NestStmt at hS
    rw [hpu] at hS
    simp only at hS
    unfold Src.step at h
    rw [hst, Option.bind_some] at h
    simp only [hpu] at h
    obtain ⟨-, rfl⟩ := Src.push_inv h
    have e1 : (s.sp - 1).toNat = s.sp.toNat - 1 := by
      rw [BitVec.toNat_sub_of_le (by rw [BitVec.le_def]; omega), h1]
    refine ⟨⟨hnext, .inr ⟨Nat.succ_ne_zero _, ?_⟩⟩, .inr (.inr ⟨hc, hr, rfl, .inl ⟨rfl, by rw [hpu]; nofun⟩⟩)⟩
    show Framed prog N _ ((s.sp - 1).toNat + N.dep (s.pos + 1)) (N.fn (s.pos + 1)) rs
    rw [hS.1, show (s.sp - 1).toNat + N.dep (s.pos + 1) = s.sp.toNat + N.dep s.pos by omega]
    refine hf.keep hlt fun c hb _ => ?_
    show (if c = s.sp - 1 then _ else _) = _
    rw [if_neg]
    intro e; rw [e] at hb; omega
  have hw : Instr.setsSomewhere st.instr = false := by
    unfold NestStmt at hS
    cases hi : st.instr <;> first
      | rfl
      | exact absurd hi hpu
      | exact absurd hi hc
      | (rw [hi] at hS; exact hS.elim)
  have hmem : Framed prog N s'.mem (s.sp.toNat + N.dep s.pos) (N.fn s.pos) rs := by
    refine hf.keep hlt fun c hc1 hc2 => step_mem h hst hw c fun e => ?_
    unfold NestStmt at hS
    rw [e] at hS
    intro hadr
    obtain ⟨-, hb⟩ := hS.2 c hadr
    omega
  -- where it leads
  have lead : (s'.pos = s.pos + 1 ∧ s'.sp.toNat + N.dep (s.pos + 1) = s.sp.toNat + N.dep s.pos ∧
      N.fn (s.pos + 1) = N.fn s.pos ∧ s.pos + 1 < prog.length) ∨
      (s'.pos < prog.length ∧ s'.sp = s.sp ∧ s'.pos ≠ 0 ∧ N.Same s.pos s'.pos) := by
    rcases step_next h hst hc hr n3 with ⟨e1, nj⟩ | ⟨e1, e3⟩
    · refine .inl ⟨e1, ?_, ?_, after nj hr⟩
      · rcases step_sp h hst hc hr n3 with ⟨e, -⟩ | ⟨e, e2⟩ | ⟨e, -⟩ | ⟨e, e2⟩
        · exact absurd e hpu
        · unfold NestStmt at hS
          rw [e] at hS
          simp only at hS
          rw [e2, BitVec.toNat_add, h1]
          omega
        · unfold NestStmt at hS; rw [e] at hS; exact hS.elim
        · rw [e2]
          have : N.dep (s.pos + 1) = N.dep s.pos := by
            unfold NestStmt at hS
            cases hi : st.instr <;> simp only [hi] at hS <;> first
              | exact hS.2
              | exact hS.1.2
              | exact hS.elim
              | exact absurd hi nj
              | exact absurd hi nf
              | exact absurd hi hr
              | (rw [hi] at e; cases e)
          omega
      · unfold NestStmt at hS
        cases hi : st.instr <;> simp only [hi] at hS <;> first
          | exact hS.1
          | exact hS.1.1
          | exact hS.elim
          | exact absurd hi nj
          | exact absurd hi nf
          | exact absurd hi hr
    · refine .inr ⟨dest_lt e1, ?_, ?_⟩
      · rcases step_sp h hst hc hr n3 with ⟨e, -⟩ | ⟨e, -⟩ | ⟨e, -⟩ | ⟨-, e2⟩
        · exact absurd e hpu
        · rw [e] at e3; rcases e3 with e3 | e3 | e3 <;> cases e3
        · rw [e] at e3; rcases e3 with e3 | e3 | e3 <;> cases e3
        · exact e2
      · unfold NestStmt at hS
        rcases e3 with e3 | e3 | e3 <;> rw [e3] at hS <;> simp only at hS
        · exact hS.2 _ e1
        · exact hS.2.2 _ e1
        · exact hS.2.2 _ e1
  refine ⟨?_, .inr (.inr ⟨hc, hr, rfl, step_next h hst hc hr n3⟩)⟩
  rcases lead with ⟨a1, a2, a3, a4⟩ | ⟨a1, a2, a0, a3⟩
  · refine ⟨by rw [a1]; exact a4, .inr ⟨by omega, ?_⟩⟩
    rw [a1, a2, a3]
    exact hmem
  · refine ⟨a1, .inr ⟨a0, ?_⟩⟩
    rw [a2, a3.1, a3.2]
    exact hmem

theorem nest_step {text : Str} {prog : List Stmt} (hs : Source text prog) (hv : Valid prog)
    (ha : LabelsAreAddresses prog) (hsz : sizeOf prog < 65536) {N : Nest} (hp : NestProg prog N) {s : Src} {st : Stmt}
    (hI : Nested prog N s) (hst : prog[s.pos]? = some st) (nf : st.instr ≠ .fin) :
    ∃ s', s.step prog = some s' ∧ Nested prog N s' := by
  obtain ⟨rs, h⟩ := nested_iff.1 hI
  obtain ⟨s', rs', h1, h2, -⟩ := nest_moves hs hv ha hsz hp h hst nf
  exact ⟨s', h1, nested_iff.2 ⟨rs', h2⟩⟩

/-- The main program of `callingProg` needs three bytes of stack, its function one. -/
def callingNest : Nest where
  dep i := if i = 7 then 1 else 0
  fn i := if i < 5 then 0 else 1
  need f := if f = 0 then 3 else 1
  main := 0
  base := 0xFFF0

/-- **C106.** A RET leads back to the statement after a CALL of the function in which it is, and all bytes that were
put on the stack since are taken away. -/
theorem C106_returns (prog : List Stmt) (hsz : sizeOf prog < 65536) (N : Nest) (hp : NestProg prog N) (s s' : Src)
    (st : Stmt) (hI : Nested prog N s) (hst : prog[s.pos]? = some st) (hr : st.instr = .ret) (h : s.step prog = some s') :
    (∃ i c j, s'.pos = i + 1 ∧ prog[i]? = some c ∧ c.instr = .call ∧ c.arg.dest prog = some j ∧
      N.fn j = N.fn s.pos) ∧ s'.sp = s.sp + 2 ∧ s'.mem = s.mem := by
  obtain ⟨st0, h0, hi0, -⟩ := hp.first
  have hz : s.pos ≠ 0 := fun e => by
    rw [e, h0] at hst
    cases hst
    rw [hi0] at hr
    cases hr
  obtain ⟨rs, hf⟩ := hI.2.resolve_left hz
  have hS := hp.stmts s.pos st (by omega) hst
  unfold NestStmt at hS
  rw [hr] at hS
  obtain ⟨hd0, hm⟩ := hS
  cases rs with
  | nil => exact absurd hf.2 hm
  | cons r rs =>
    obtain ⟨-, hb, hrl, hlo, hhi, -⟩ := hf
    have e1 : BitVec.ofNat 16 s.sp.toNat = s.sp := by rw [BitVec.ofNat_toNat, BitVec.setWidth_eq]
    rw [hd0, Nat.add_zero] at hlo hhi
    rw [BitVec.ofNat_add, e1] at hhi
    rw [e1] at hlo
    unfold Src.step at h
    rw [hst, Option.bind_some] at h
    simp only [hr] at h
    obtain ⟨b1, b2, b3, b4⟩ := Src.back_place h
    have hpl := place_le prog r
    have er : s'.pos = r := place_inj b2 hrl (by
      rw [b1, hlo, show s.sp + 1 = s.sp + BitVec.ofNat 16 1 from rfl, hhi, bytes_back (by omega)])
    rw [er]
    refine ⟨hb, ?_, b4⟩
    rw [b3, BitVec.add_assoc]
    rfl
/-- The RET of `callingProg` with its return address on the stack. -/
example : ∃ s s' st, Nested callingProg callingNest s ∧ callingProg[s.pos]? = some st ∧ st.instr = .ret ∧
    s.step callingProg = some s' ∧ s'.pos = 3 :=
  ⟨⟨8, 2, 3, 4, 5, 6, 0xFFEE, false, false, fun c => if c = 0xFFEE then 8 else 0⟩, _, _, ⟨by decide, .inr ⟨[3], by decide,
    ⟨2, _, 5, rfl, rfl, rfl, by decide, rfl⟩, by decide, by decide, by decide, by decide, by decide⟩⟩, rfl, rfl, rfl, rfl⟩

/-- **C106.** A program with functions that do not call themselves cannot go wrong if the statements fit to what is
written beside it (`NestProg`). After it is typed, saved and PC set to its beginning, on any machine that a host can
have brought about, either run-program ends at a FIN of the program, or any number of instructions can be carried out
and run-program does not end. Whenever a statement other than the first is reached, on the stack are the return
addresses of the functions that were called, each to the statement after its CALL; no error is reported, and the
program in memory is as it was saved. -/
theorem C106_calls (text : Str) (prog : List Stmt) (hs : Source text prog) (hv : Valid prog)
    (ha : LabelsAreAddresses prog) (N : Nest) (hp : NestProg prog N)
    (hsz : sizeOf prog < 65536) (actions : List Action)
    (hcode : ∀ a ∈ actions, ∃ t, a = .code t) (ph : Phase) (h : H) (p : P) (r : Reach ph h) (on : ph.on = true)
    (ui : ph.ui = true) (s : Shows h p) :
    ∃ e vs h1 bss m, Editor.start.acts (actions ++ [.code text]) = some e ∧ e.canSave = true ∧
      execAll (e.saveCalls ++ e.pcCalls) h = some (vs, h1) ∧ Code prog bss ∧ Written p.mem 0 bss.flatten m ∧
      ∀ u, (∃ n h' s' st, RunProgram u n h1 h' ∧ Nested prog N s' ∧ prog[s'.pos]? = some st ∧
            st.instr = .fin ∧ Ready h' ({ s' with pos := s'.pos + 1 }.machine prog p.errs) ∧
            Spared prog (.start p m) s') ∨
          ((∀ n h', ¬ RunProgram u n h1 h') ∧
            ∀ k, ∃ h' s', RunInstructions u k h1 h' ∧ Nested prog N s' ∧
              Ready h' (s'.machine prog p.errs) ∧ Spared prog (.start p m) s') := by
  have hne : prog ≠ [] := by
    obtain ⟨l, st, e, -⟩ := hp.last
    rw [e]; simp
  obtain ⟨e, vs, h1, bss, m, a1, a2, a3, a4, a5, o⟩ :=
    C75_saved text prog hs hne hv ha hsz actions hcode ph h p r on ui s
  refine ⟨e, vs, h1, bss, m, a1, a2, a3, a4, a5, fun u => ?_⟩
  exact kept_on (o u) (Nested prog N) (fun s h => h.1)
    (fun s st hI hst nf => nest_step hs hv ha hsz hp hI hst nf) ⟨List.length_pos_iff.2 hne, .inl rfl⟩

example : NestProg callingProg callingNest ∧ Valid callingProg ∧ LabelsAreAddresses callingProg ∧
    sizeOf callingProg < 65536 := by
  refine ⟨⟨⟨_, rfl, rfl, fun b h => by cases h; rfl⟩, ⟨rfl, rfl⟩, by decide, ?_, callingProg.take 8, _, rfl,
    .inr (.inr rfl)⟩, by decide +kernel, by decide +kernel, by decide⟩
  intro i st h0 h
  have hi : i < 9 := (List.getElem?_eq_some_iff.1 h).1
  have : i = 1 ∨ i = 2 ∨ i = 3 ∨ i = 4 ∨ i = 5 ∨ i = 6 ∨ i = 7 ∨ i = 8 := by omega
  rcases this with rfl | rfl | rfl | rfl | rfl | rfl | rfl | rfl <;> cases h
  · exact ⟨rfl, rfl⟩
  · exact ⟨⟨rfl, rfl⟩, nofun, fun j h => by rw [show j = 5 by cases h; rfl]; decide⟩
  · exact ⟨⟨rfl, rfl⟩, fun b h => by rw [show b = 0x2000 by cases h; rfl]; decide⟩
  · trivial
  · exact ⟨rfl, rfl⟩
  · exact ⟨rfl, rfl, by decide⟩
  · exact ⟨rfl, rfl⟩
  · exact ⟨rfl, by decide⟩

/-- **C106.** The bound is needed: a function that calls itself writes its return addresses over the program. -/
theorem C106_calls_wrong : ¬ ∀ prog : List Stmt,
    (∃ st, prog[0]? = some st ∧ st.instr = .inisp ∧ ∀ b, st.arg.addr prog = some b → sizeOf prog ≤ b.toNat) →
    (∃ l st, prog = l ++ [st] ∧ (st.instr = .fin ∨ st.instr = .jmp)) →
    (∀ st ∈ prog, st.instr = .inisp ∨ st.instr = .call ∧ (∃ j, st.arg.dest prog = some j) ∨ PlainStmt prog st) →
    ∀ s : Src, s.pos = 0 → ∀ k, s.run prog k ≠ none ∨
      ∃ j s' st, s.run prog j = some s' ∧ prog[s'.pos]? = some st ∧ st.instr = .fin := by
  intro h
  rcases h [⟨none, .inisp, .num 0xD⟩, ⟨some "T1".toList, .call, .label "T1".toList⟩, ⟨none, .jmp, .label "T1".toList⟩]
    ⟨_, rfl, rfl, fun b hb => by rw [show b = 0xD by cases hb; rfl]; decide⟩ ⟨[_, _], _, rfl, .inr rfl⟩ (by
      intro st h
      simp only [List.mem_cons, List.not_mem_nil, or_false] at h
      rcases h with rfl | rfl | rfl
      · exact .inl rfl
      · exact .inr (.inl ⟨rfl, 1, by decide⟩)
      · exact .inr (.inr nofun))
    ⟨0, 0, 0, 0, 0, 0, 0, false, false, fun _ => 0⟩ rfl 4 with h | ⟨j, s', st, -, h, hf⟩
  · exact h (by decide +kernel)
  · have := List.mem_of_getElem? h
    simp only [List.mem_cons, List.not_mem_nil, or_false] at this
    rcases this with rfl | rfl | rfl <;> cases hf

end Mpp.Front
