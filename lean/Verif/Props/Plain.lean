import Verif.Props.Source
/-!
# C105: what a program does not write stays as it is, and plain programs cannot go wrong
-/
namespace Mpp.Front

/-- A jump leads to a statement of the program. -/
theorem dest_lt {prog : List Stmt} {a : Arg} {i : Nat} (h : a.dest prog = some i) : i < prog.length := by
  cases a with
  | none => cases h
  | num n => exact List.mem_range.1 (List.mem_of_find?_eq_some h)
  | label l =>
    obtain ⟨hi, -⟩ := List.findIdx?_eq_some_iff_getElem.1 h
    exact hi

theorem Src.back_inv {prog : List Stmt} {s s' : Src} (h : s.back prog = some s') :
    ∃ i, i < prog.length ∧ s' = { s with sp := s.sp + 1 + 1, pos := i } := by
  unfold Src.back at h
  obtain ⟨lo, h1, h⟩ := Option.bind_eq_some_iff.1 h
  obtain ⟨hi, h2, h⟩ := Option.bind_eq_some_iff.1 h
  obtain ⟨i, h3, rfl⟩ := Option.map_eq_some_iff.1 h
  unfold Src.pop at h1 h2
  split at h1 <;> cases h1
  split at h2 <;> cases h2
  exact ⟨i, List.mem_range.1 (List.mem_of_find?_eq_some h3), rfl⟩

theorem Src.write_inv {prog : List Stmt} {s s' : Src} {a : BitVec 16} {x : BitVec 8}
    (h : s.write prog a x = some s') :
    sizeOf prog ≤ a.toNat ∧ s' = { s with mem := fun i => if i = a then x else s.mem i } := by
  unfold Src.write at h
  split at h
  · cases h
  · cases h; exact ⟨by omega, rfl⟩

theorem Src.push_inv {prog : List Stmt} {s s' : Src} {x : BitVec 8} (h : s.push prog x = some s') :
    sizeOf prog ≤ (s.sp - 1).toNat ∧
      s' = { s with sp := s.sp - 1, mem := fun i => if i = s.sp - 1 then x else s.mem i } := by
  unfold Src.push at h
  split at h
  · cases h
  · exact Src.write_inv h

/-! ## What statements write -/

/-- The statements that write the register `g`: MOV and INC with this register as destination. -/
def Instr.setsReg (g : G) : Instr → Bool
  | .mov _ (.reg g') => g' = g
  | .inc (.reg g') => g' = g
  | _ => false

/-- The statements that write AC. -/
def Instr.setsAc : Instr → Bool
  | .mov _ .ac => true
  | .alu op _ => op ≠ .cmp
  | .inc .ac => true
  | .cma | .lfa | .lda | .ldax | .pop => true
  | _ => false

/-- The statements that write the flags. -/
def Instr.setsFlags : Instr → Bool
  | .alu _ _ | .inc _ | .cma | .sfa | .iret => true
  | _ => false

/-- The statements that move the stack pointer. -/
def Instr.setsSp : Instr → Bool
  | .inisp | .push | .pop | .call | .ret | .iret => true
  | _ => false

/-- The statements that write at an address which their text does not tell. -/
def Instr.setsSomewhere : Instr → Bool
  | .stax | .push | .call => true
  | _ => false

/-- What is the same in `s` and `s'` if only statements of `prog` were carried out in between. -/
structure Spared (prog : List Stmt) (s s' : Src) : Prop where
  reg : ∀ g, (∀ st ∈ prog, Instr.setsReg g st.instr = false) → s'.get g = s.get g
  ac : (∀ st ∈ prog, Instr.setsAc st.instr = false) → s'.ac = s.ac
  flags : (∀ st ∈ prog, Instr.setsFlags st.instr = false) → s'.fc = s.fc ∧ s'.fz = s.fz
  sp : (∀ st ∈ prog, Instr.setsSp st.instr = false) → s'.sp = s.sp
  mem : (∀ st ∈ prog, Instr.setsSomewhere st.instr = false) → ∀ a,
    (∀ st ∈ prog, st.instr = .sta → st.arg.addr prog ≠ some a) → s'.mem a = s.mem a
  code : ∀ a, a.toNat < sizeOf prog → s'.mem a = s.mem a

theorem Spared.refl (prog : List Stmt) (s : Src) : Spared prog s s :=
  ⟨fun _ _ => rfl, fun _ => rfl, fun _ => ⟨rfl, rfl⟩, fun _ => rfl, fun _ _ _ => rfl, fun _ _ => rfl⟩

theorem Spared.trans {prog : List Stmt} {s t r : Src} (h : Spared prog s t) (h' : Spared prog t r) :
    Spared prog s r :=
  ⟨fun g hg => (h'.reg g hg).trans (h.reg g hg), fun a => (h'.ac a).trans (h.ac a),
    fun a => ⟨(h'.flags a).1.trans (h.flags a).1, (h'.flags a).2.trans (h.flags a).2⟩,
    fun a => (h'.sp a).trans (h.sp a), fun a b c => (h'.mem a b c).trans (h.mem a b c),
    fun a b => (h'.code a b).trans (h.code a b)⟩

theorem put_get (t : Src) (x : BitVec 8) (dst : Dest) (g : G) (h : dst ≠ .reg g) :
    (t.put x dst).get g = t.get g := by
  cases dst with
  | ac => cases g <;> rfl
  | reg g' => cases g <;> cases g' <;> first | rfl | exact absurd rfl h

theorem put_spares (t : Src) (x : BitVec 8) (dst : Dest) :
    (t.put x dst).fc = t.fc ∧ (t.put x dst).fz = t.fz ∧ (t.put x dst).sp = t.sp ∧ (t.put x dst).mem = t.mem ∧
      (t.put x dst).pos = t.pos ∧ (dst ≠ .ac → (t.put x dst).ac = t.ac) := by
  cases dst with
  | ac => exact ⟨rfl, rfl, rfl, rfl, rfl, fun h => absurd rfl h⟩
  | reg g' => cases g' <;> exact ⟨rfl, rfl, rfl, rfl, rfl, fun _ => rfl⟩

theorem compute_same (t : Src) (x : BitVec 8) (op : AluOp) :
    (t.compute x op).sp = t.sp ∧ (t.compute x op).mem = t.mem ∧ (t.compute x op).pos = t.pos ∧
      (op = .cmp → (t.compute x op).ac = t.ac) ∧ ∀ g, (t.compute x op).get g = t.get g := by
  cases op <;> refine ⟨rfl, rfl, rfl, ?_, fun g => by cases g <;> rfl⟩ <;> intro h <;> first | rfl | cases h

theorem step_spared {prog : List Stmt} {s s' : Src} (h : s.step prog = some s') : Spared prog s s' := by
  unfold Src.step at h
  obtain ⟨st, hst, h⟩ := Option.bind_eq_some_iff.1 h
  have hm : st ∈ prog := List.mem_of_getElem? hst
  cases hi : st.instr <;> rw [hi] at h <;> simp only at h
  case mov src dst =>
    obtain ⟨x, -, rfl⟩ := Option.map_eq_some_iff.1 h
    obtain ⟨h1, h2, h3, h4, -, h5⟩ := put_spares { s with pos := s.pos + 1 } x dst
    refine ⟨fun g hg => ?_, fun hg => h5 ?_, fun _ => ⟨h1, h2⟩, fun _ => h3, fun _ _ _ => congrFun h4 _,
      fun _ _ => congrFun h4 _⟩
    · refine (put_get _ x dst g ?_).trans (by cases g <;> rfl)
      rintro rfl
      have := hg st hm
      rw [hi] at this
      simp [Instr.setsReg] at this
    · rintro rfl
      have := hg st hm
      rw [hi] at this
      cases this
  case alu op src =>
    obtain ⟨x, -, rfl⟩ := Option.map_eq_some_iff.1 h
    obtain ⟨h1, h2, -, h3, h4⟩ := compute_same { s with pos := s.pos + 1 } x op
    refine ⟨fun g _ => (h4 g).trans (by cases g <;> rfl), fun hg => h3 ?_, fun hg => ?_, fun _ => h1,
      fun _ _ _ => congrFun h2 _, fun _ _ => congrFun h2 _⟩
    · have := hg st hm
      rw [hi] at this
      simpa [Instr.setsAc] using this
    · have := hg st hm
      rw [hi] at this
      cases this
  case inc dst =>
    cases h
    obtain ⟨-, -, h3, h4, -, h5⟩ := put_spares { s with pos := s.pos + 1 } (s.look dst + 1) dst
    refine ⟨fun g hg => ?_, fun hg => h5 ?_, fun hg => ?_, fun _ => h3, fun _ _ _ => congrFun h4 _,
      fun _ _ => congrFun h4 _⟩
    · refine Eq.trans ?_ ((put_get { s with pos := s.pos + 1 } (s.look dst + 1) dst g ?_).trans
        (by cases g <;> rfl))
      · cases g <;> rfl
      · rintro rfl
        have := hg st hm
        rw [hi] at this
        simp [Instr.setsReg] at this
    · rintro rfl
      have := hg st hm
      rw [hi] at this
      cases this
    · have := hg st hm
      rw [hi] at this
      cases this
  case sta =>
    obtain ⟨a, ha, h⟩ := Option.bind_eq_some_iff.1 h
    obtain ⟨h1, rfl⟩ := Src.write_inv h
    refine ⟨fun g _ => by cases g <;> rfl, fun _ => rfl, fun _ => ⟨rfl, rfl⟩, fun _ => rfl, fun _ b hb => ?_,
      fun b hb => ?_⟩
    · exact if_neg fun e => hb st hm hi (by rw [e]; exact ha)
    · exact if_neg fun e => by subst e; omega
  case stax =>
    obtain ⟨h1, rfl⟩ := Src.write_inv h
    refine ⟨fun g _ => by cases g <;> rfl, fun _ => rfl, fun _ => ⟨rfl, rfl⟩, fun _ => rfl, fun hg => ?_,
      fun b hb => ?_⟩
    · have := hg st hm
      rw [hi] at this
      cases this
    · exact if_neg fun e => by subst e; omega
  case push =>
    obtain ⟨h1, rfl⟩ := Src.push_inv h
    refine ⟨fun g _ => by cases g <;> rfl, fun _ => rfl, fun _ => ⟨rfl, rfl⟩, fun hg => ?_, fun hg => ?_,
      fun b hb => ?_⟩
    · have := hg st hm
      rw [hi] at this
      cases this
    · have := hg st hm
      rw [hi] at this
      cases this
    · exact if_neg fun e => by subst e; exact absurd h1 (Nat.not_le.2 hb)
  case call =>
    obtain ⟨i, -, h⟩ := Option.bind_eq_some_iff.1 h
    obtain ⟨t1, h1, h⟩ := Option.bind_eq_some_iff.1 h
    obtain ⟨t2, h2, rfl⟩ := Option.map_eq_some_iff.1 h
    obtain ⟨k1, rfl⟩ := Src.push_inv h1
    obtain ⟨k2, rfl⟩ := Src.push_inv h2
    refine ⟨fun g _ => by cases g <;> rfl, fun _ => rfl, fun _ => ⟨rfl, rfl⟩, fun hg => ?_, fun hg => ?_,
      fun b hb => ?_⟩
    · have := hg st hm
      rw [hi] at this
      cases this
    · have := hg st hm
      rw [hi] at this
      cases this
    · refine (if_neg fun e => ?_).trans (if_neg fun e => ?_)
      · subst e; exact absurd k2 (Nat.not_le.2 hb)
      · subst e; exact absurd k1 (Nat.not_le.2 hb)
  case ret =>
    obtain ⟨i, -, rfl⟩ := Src.back_inv h
    refine ⟨fun g _ => by cases g <;> rfl, fun _ => rfl, fun _ => ⟨rfl, rfl⟩, fun hg => ?_, fun _ _ _ => rfl,
      fun _ _ => rfl⟩
    have := hg st hm
    rw [hi] at this
    cases this
  case iret =>
    obtain ⟨t, h1, h⟩ := Option.bind_eq_some_iff.1 h
    obtain ⟨i, -, rfl⟩ := Src.back_inv h1
    obtain ⟨f, h2, rfl⟩ := Option.map_eq_some_iff.1 h
    unfold Src.pop at h2
    split at h2 <;> cases h2
    refine ⟨fun g _ => by cases g <;> rfl, fun _ => rfl, fun hg => ?_, fun hg => ?_, fun _ _ _ => rfl,
      fun _ _ => rfl⟩ <;>
    · have := hg st hm
      rw [hi] at this
      cases this
  case pop =>
    obtain ⟨x, h2, rfl⟩ := Option.map_eq_some_iff.1 h
    unfold Src.pop at h2
    split at h2 <;> cases h2
    refine ⟨fun g _ => by cases g <;> rfl, fun hg => ?_, fun _ => ⟨rfl, rfl⟩, fun hg => ?_, fun _ _ _ => rfl,
      fun _ _ => rfl⟩ <;>
    · have := hg st hm
      rw [hi] at this
      cases this
  case beq =>
    split at h
    · obtain ⟨i, -, rfl⟩ := Option.map_eq_some_iff.1 h
      exact ⟨fun g _ => by cases g <;> rfl, fun _ => rfl, fun _ => ⟨rfl, rfl⟩, fun _ => rfl, fun _ _ _ => rfl,
        fun _ _ => rfl⟩
    · cases h
      exact ⟨fun g _ => by cases g <;> rfl, fun _ => rfl, fun _ => ⟨rfl, rfl⟩, fun _ => rfl, fun _ _ _ => rfl,
        fun _ _ => rfl⟩
  case bc =>
    split at h
    · obtain ⟨i, -, rfl⟩ := Option.map_eq_some_iff.1 h
      exact ⟨fun g _ => by cases g <;> rfl, fun _ => rfl, fun _ => ⟨rfl, rfl⟩, fun _ => rfl, fun _ _ _ => rfl,
        fun _ _ => rfl⟩
    · cases h
      exact ⟨fun g _ => by cases g <;> rfl, fun _ => rfl, fun _ => ⟨rfl, rfl⟩, fun _ => rfl, fun _ _ _ => rfl,
        fun _ _ => rfl⟩
  case jmp =>
    obtain ⟨i, -, rfl⟩ := Option.map_eq_some_iff.1 h
    exact ⟨fun g _ => by cases g <;> rfl, fun _ => rfl, fun _ => ⟨rfl, rfl⟩, fun _ => rfl, fun _ _ _ => rfl,
      fun _ _ => rfl⟩
  case inisp =>
    obtain ⟨i, -, rfl⟩ := Option.map_eq_some_iff.1 h
    refine ⟨fun g _ => by cases g <;> rfl, fun _ => rfl, fun _ => ⟨rfl, rfl⟩, fun hg => ?_, fun _ _ _ => rfl,
      fun _ _ => rfl⟩
    have := hg st hm
    rw [hi] at this
    cases this
  case lda =>
    obtain ⟨i, -, rfl⟩ := Option.map_eq_some_iff.1 h
    refine ⟨fun g _ => by cases g <;> rfl, fun hg => ?_, fun _ => ⟨rfl, rfl⟩, fun _ => rfl, fun _ _ _ => rfl,
      fun _ _ => rfl⟩
    have := hg st hm
    rw [hi] at this
    cases this
  case fin => cases h
  case sfa =>
    cases h
    refine ⟨fun g _ => by cases g <;> rfl, fun _ => rfl, fun hg => ?_, fun _ => rfl, fun _ _ _ => rfl,
      fun _ _ => rfl⟩
    have := hg st hm
    rw [hi] at this
    cases this
  case cma =>
    cases h
    refine ⟨fun g _ => by cases g <;> rfl, fun hg => ?_, fun hg => ?_, fun _ => rfl, fun _ _ _ => rfl,
      fun _ _ => rfl⟩ <;>
    · have := hg st hm
      rw [hi] at this
      cases this
  all_goals
    cases h
    refine ⟨fun g _ => by cases g <;> rfl, fun hg => ?_, fun _ => ⟨rfl, rfl⟩, fun _ => rfl, fun _ _ _ => rfl,
      fun _ _ => rfl⟩
    have := hg st hm
    rw [hi] at this
    cases this

theorem run_spared {prog : List Stmt} {k : Nat} {s s' : Src} (h : s.run prog k = some s') :
    Spared prog s s' := by
  induction k generalizing s with
  | zero => cases h; exact Spared.refl prog _
  | succ k ih =>
    obtain ⟨t, h1, h2⟩ := Option.bind_eq_some_iff.1 h
    exact (step_spared h1).trans (ih h2)

/-- **C105.** A text is typed, saved, and PC is set to its beginning, on any machine that a host can have brought
about. However many instructions are carried out, as long as the statements say what happens (C75), the registers,
the flags, the stack pointer and the cells that no statement of the text writes are what they were, and so is the
program in memory. -/
theorem C105_spared (text : Str) (prog : List Stmt) (hs : Source text prog) (hne : prog ≠ []) (hv : Valid prog)
    (ha : LabelsAreAddresses prog) (hsz : sizeOf prog < 65536) (actions : List Action)
    (hcode : ∀ a ∈ actions, ∃ t, a = .code t) (ph : Phase) (h : H) (p : P) (r : Reach ph h) (on : ph.on = true)
    (ui : ph.ui = true) (s : Shows h p) :
    ∃ e vs h1 bss m, Editor.start.acts (actions ++ [.code text]) = some e ∧ e.canSave = true ∧
      execAll (e.saveCalls ++ e.pcCalls) h = some (vs, h1) ∧ Code prog bss ∧ Written p.mem 0 bss.flatten m ∧
      ∀ u k s', (Src.start p m).run prog k = some s' →
        ∃ h', RunInstructions u k h1 h' ∧ Ready h' (s'.machine prog p.errs) ∧ Spared prog (.start p m) s' := by
  obtain ⟨e, vs, h1, bss, m, a1, a2, a3, a4, a5, o⟩ :=
    C75_saved text prog hs hne hv ha hsz actions hcode ph h p r on ui s
  refine ⟨e, vs, h1, bss, m, a1, a2, a3, a4, a5, fun u k s' hk => ?_⟩
  obtain ⟨h', b1, b2⟩ := (o u).instructions k s' hk
  exact ⟨h', b1, b2, run_spared hk⟩

/-! ## Plain programs -/

/-- A statement that cannot go wrong: it uses neither the stack nor the address in D and E to write, it does not
write on the program, and it jumps to statements only. -/
def PlainStmt (prog : List Stmt) (st : Stmt) : Prop :=
  match st.instr with
  | .stax | .push | .pop | .call | .ret | .iret => False
  | .sta => ∀ a, st.arg.addr prog = some a → sizeOf prog ≤ a.toNat
  | .jmp | .beq | .bc => ∀ n, st.arg = .num n → ∃ i < prog.length, place prog i = n
  | _ => True

/-- A plain program: plain statements, and at the end a FIN or a JMP. -/
structure PlainProg (prog : List Stmt) : Prop where
  stmts : ∀ st ∈ prog, PlainStmt prog st
  last : ∃ l st, prog = l ++ [st] ∧ (st.instr = .fin ∨ st.instr = .jmp)

theorem PlainStmt.clear {prog : List Stmt} {st : Stmt} (h : PlainStmt prog st) (nf : st.instr ≠ .fin) (s : Src) :
    s.Clear prog st := by
  unfold PlainStmt at h
  unfold Src.Clear
  cases hi : st.instr <;> simp only [hi] at h ⊢
  case beq => exact fun _ => h
  case bc => exact fun _ => h
  case jmp => exact h
  case sta => exact h
  case fin => exact nf hi

/-- After a statement comes the next one, or one of the program. -/
theorem step_pos {prog : List Stmt} {s s' : Src} {st : Stmt} (h : s.step prog = some s')
    (hst : prog[s.pos]? = some st) :
    (s'.pos = s.pos + 1 ∧ st.instr ≠ .jmp) ∨ s'.pos < prog.length := by
  unfold Src.step at h
  rw [hst, Option.bind_some] at h
  cases hi : st.instr <;> rw [hi] at h <;> simp only at h
  case mov src dst =>
    obtain ⟨x, -, rfl⟩ := Option.map_eq_some_iff.1 h
    exact .inl ⟨(put_spares _ _ _).2.2.2.2.1, nofun⟩
  case alu op src =>
    obtain ⟨x, -, rfl⟩ := Option.map_eq_some_iff.1 h
    exact .inl ⟨(compute_same _ _ _).2.2.1, nofun⟩
  case inc dst => cases h; exact .inl ⟨(put_spares _ _ _).2.2.2.2.1, nofun⟩
  case sta =>
    obtain ⟨a, -, h⟩ := Option.bind_eq_some_iff.1 h
    obtain ⟨-, rfl⟩ := Src.write_inv h
    exact .inl ⟨rfl, nofun⟩
  case stax => obtain ⟨-, rfl⟩ := Src.write_inv h; exact .inl ⟨rfl, nofun⟩
  case push => obtain ⟨-, rfl⟩ := Src.push_inv h; exact .inl ⟨rfl, nofun⟩
  case call =>
    obtain ⟨i, hd, h⟩ := Option.bind_eq_some_iff.1 h
    obtain ⟨t1, -, h⟩ := Option.bind_eq_some_iff.1 h
    obtain ⟨t2, -, rfl⟩ := Option.map_eq_some_iff.1 h
    exact .inr (dest_lt hd)
  case ret => obtain ⟨i, hd, rfl⟩ := Src.back_inv h; exact .inr hd
  case iret =>
    obtain ⟨t, h1, h⟩ := Option.bind_eq_some_iff.1 h
    obtain ⟨i, hd, rfl⟩ := Src.back_inv h1
    obtain ⟨f, h2, rfl⟩ := Option.map_eq_some_iff.1 h
    unfold Src.pop at h2
    split at h2 <;> cases h2
    exact .inr hd
  case pop =>
    obtain ⟨x, h2, rfl⟩ := Option.map_eq_some_iff.1 h
    unfold Src.pop at h2
    split at h2 <;> cases h2
    exact .inl ⟨rfl, nofun⟩
  case beq =>
    split at h
    · obtain ⟨i, hd, rfl⟩ := Option.map_eq_some_iff.1 h; exact .inr (dest_lt hd)
    · cases h; exact .inl ⟨rfl, nofun⟩
  case bc =>
    split at h
    · obtain ⟨i, hd, rfl⟩ := Option.map_eq_some_iff.1 h; exact .inr (dest_lt hd)
    · cases h; exact .inl ⟨rfl, nofun⟩
  case jmp => obtain ⟨i, hd, rfl⟩ := Option.map_eq_some_iff.1 h; exact .inr (dest_lt hd)
  case inisp => obtain ⟨i, -, rfl⟩ := Option.map_eq_some_iff.1 h; exact .inl ⟨rfl, nofun⟩
  case lda => obtain ⟨i, -, rfl⟩ := Option.map_eq_some_iff.1 h; exact .inl ⟨rfl, nofun⟩
  case fin => cases h
  all_goals cases h; exact .inl ⟨rfl, nofun⟩

theorem plain_step {text : Str} {prog : List Stmt} (hs : Source text prog) (hv : Valid prog)
    (ha : LabelsAreAddresses prog) (hp : PlainProg prog) {s : Src} {st : Stmt} (hst : prog[s.pos]? = some st)
    (nf : st.instr ≠ .fin) : ∃ s', s.step prog = some s' ∧ s'.pos < prog.length := by
  have hm : st ∈ prog := List.mem_of_getElem? hst
  obtain ⟨s', h⟩ := C75_goes_on text prog hs hv ha s st hst ((hp.stmts st hm).clear nf s)
  refine ⟨s', h, ?_⟩
  rcases step_pos h hst with ⟨e, nj⟩ | h'
  · obtain ⟨l, la, el, hl⟩ := hp.last
    have hlt : s.pos < prog.length := (List.getElem?_eq_some_iff.1 hst).1
    rw [e]
    rw [el, List.length_append, List.length_singleton] at hlt ⊢
    rcases Nat.lt_or_ge s.pos l.length with h1 | h1
    · omega
    · have e1 : s.pos = l.length := by omega
      rw [el, e1, List.getElem?_concat_length] at hst
      cases hst
      rcases hl with hl | hl
      · exact absurd hl nf
      · exact absurd hl nj
  · exact h'

/-- A plain program goes on, or has come to a FIN. -/
theorem plain_run {text : Str} {prog : List Stmt} (hs : Source text prog) (hv : Valid prog)
    (ha : LabelsAreAddresses prog) (hp : PlainProg prog) (k : Nat) {s : Src} (h0 : s.pos < prog.length) :
    (∃ s', s.run prog k = some s' ∧ s'.pos < prog.length) ∨
      ∃ j < k, ∃ s' st, s.run prog j = some s' ∧ prog[s'.pos]? = some st ∧ st.instr = .fin := by
  induction k generalizing s with
  | zero => exact .inl ⟨s, rfl, h0⟩
  | succ k ih =>
    have hst := List.getElem?_eq_getElem h0
    by_cases nf : prog[s.pos].instr = .fin
    · exact .inr ⟨0, by omega, s, _, rfl, hst, nf⟩
    · obtain ⟨t, h1, h2⟩ := plain_step hs hv ha hp hst nf
      rcases ih h2 with ⟨s', e, l⟩ | ⟨j, hj, s', st', e, a⟩
      · exact .inl ⟨s', by rw [Src.run, h1]; exact e, l⟩
      · exact .inr ⟨j + 1, by omega, s', st', by rw [Src.run, h1]; exact e, a⟩

/-- **C105.** A plain program cannot go wrong. After it is typed, saved and PC set to its beginning, on any machine
that a host can have brought about, either run-program ends, at a FIN of the program, or any number of instructions
can be carried out and run-program does not end. PC is always at the first byte of a statement (behind the FIN in
the first case), no error is reported, the program in memory is as it was saved and what no statement writes is as
it was. -/
theorem C105_plain (text : Str) (prog : List Stmt) (hs : Source text prog) (hv : Valid prog)
    (ha : LabelsAreAddresses prog) (hp : PlainProg prog) (hsz : sizeOf prog < 65536) (actions : List Action)
    (hcode : ∀ a ∈ actions, ∃ t, a = .code t) (ph : Phase) (h : H) (p : P) (r : Reach ph h) (on : ph.on = true)
    (ui : ph.ui = true) (s : Shows h p) :
    ∃ e vs h1 bss m, Editor.start.acts (actions ++ [.code text]) = some e ∧ e.canSave = true ∧
      execAll (e.saveCalls ++ e.pcCalls) h = some (vs, h1) ∧ Code prog bss ∧ Written p.mem 0 bss.flatten m ∧
      ∀ u, (∃ n h' s' st, RunProgram u n h1 h' ∧ prog[s'.pos]? = some st ∧ st.instr = .fin ∧
            Ready h' ({ s' with pos := s'.pos + 1 }.machine prog p.errs) ∧ Spared prog (.start p m) s') ∨
          ((∀ n h', ¬ RunProgram u n h1 h') ∧
            ∀ k, ∃ h' s', RunInstructions u k h1 h' ∧ s'.pos < prog.length ∧
              Ready h' (s'.machine prog p.errs) ∧ Spared prog (.start p m) s') := by
  have hne : prog ≠ [] := by
    obtain ⟨l, st, e, -⟩ := hp.last
    rw [e]; simp
  obtain ⟨e, vs, h1, bss, m, a1, a2, a3, a4, a5, o⟩ :=
    C75_saved text prog hs hne hv ha hsz actions hcode ph h p r on ui s
  refine ⟨e, vs, h1, bss, m, a1, a2, a3, a4, a5, fun u => ?_⟩
  have h0 : (Src.start p m).pos < prog.length := List.length_pos_iff.2 hne
  by_cases hf : ∃ k s' st, (Src.start p m).run prog k = some s' ∧ prog[s'.pos]? = some st ∧ st.instr = .fin
  · obtain ⟨k, s', st, hk, hst, hi⟩ := hf
    obtain ⟨n, h', b1, b2⟩ := (o u).ends k s' st hk hst hi
    exact .inl ⟨n, h', s', st, b1, hst, hi, b2, run_spared hk⟩
  · have go : ∀ k, ∃ s', (Src.start p m).run prog k = some s' ∧ s'.pos < prog.length := fun k => by
      rcases plain_run hs hv ha hp k h0 with h | ⟨j, -, s', st, h⟩
      · exact h
      · exact absurd ⟨j, s', st, h⟩ hf
    refine .inr ⟨(o u).never fun k hk => ?_, fun k => ?_⟩
    · obtain ⟨s', hk', -⟩ := go k
      rw [hk] at hk'
      cases hk'
    · obtain ⟨s', hk, hl⟩ := go k
      obtain ⟨h', b1, b2⟩ := (o u).instructions k s' hk
      exact ⟨h', s', b1, hl, b2, run_spared hk⟩

/-- The counting sample is plain and writes neither B, C, D, E nor SP. -/
example : PlainProg sampleProg ∧ (∀ g, ∀ st ∈ sampleProg, Instr.setsReg g st.instr = false) ∧
    ∀ st ∈ sampleProg, Instr.setsSp st.instr = false := by
  refine ⟨⟨?_, ?_⟩, ?_, ?_⟩
  · simp [sampleProg, PlainStmt]
  · exact ⟨sampleProg.dropLast, sampleProg.getLast (by decide), by decide, by decide⟩
  · intro g; cases g <;> decide
  · decide

/-- A plain program that stores, loops for ever and keeps D: `T1 INC AC`, `STA 2000`, `JMP 0000`. -/
def storingProg : List Stmt :=
  [⟨some "T1".toList, .inc .ac, .none⟩, ⟨none, .sta, .num 0x2000⟩, ⟨none, .jmp, .num 0⟩]
example : PlainProg storingProg ∧ (∀ st ∈ storingProg, Instr.setsReg .d st.instr = false) ∧
    (∀ st ∈ storingProg, Instr.setsSomewhere st.instr = false) ∧
    (∀ st ∈ storingProg, st.instr = .sta → st.arg.addr storingProg ≠ some 0x2001) ∧
    ((Src.start ⟨1, 2, 3, 4, 5, 6, 0, true, true, fun _ => 9, []⟩ fun _ => 9).run storingProg 6).map
      (fun s => (s.pos, s.ac, s.mem 0x2000, s.mem 0x2001, s.d)) = some (0, 3, 3, 9, 4) := by
  refine ⟨⟨?_, storingProg.take 2, ⟨none, .jmp, .num 0⟩, rfl, .inr rfl⟩, by decide, by decide, by decide,
    by decide +kernel⟩
  intro st h
  simp only [storingProg, List.mem_cons, List.not_mem_nil, or_false] at h
  rcases h with rfl | rfl | rfl
  · trivial
  · intro a h; cases h; decide
  · intro n h; cases h; exact ⟨0, by decide, rfl⟩

/-- **C105.** The conditions are needed: without the FIN at the end the last statement is left behind, and a
statement that writes on the program may change what is run. -/
theorem C105_conditions_wrong :
    (¬ ∀ prog : List Stmt, prog ≠ [] → (∀ st ∈ prog, PlainStmt prog st) → ∀ s : Src, s.pos < prog.length →
      ∀ k, s.run prog k ≠ none ∨ ∃ j s' st, s.run prog j = some s' ∧ prog[s'.pos]? = some st ∧ st.instr = .fin) ∧
    ¬ ∀ prog : List Stmt, (∃ l st, prog = l ++ [st] ∧ (st.instr = .fin ∨ st.instr = .jmp)) → ∀ s : Src,
      s.pos < prog.length → ∀ k, s.run prog k ≠ none ∨
        ∃ j s' st, s.run prog j = some s' ∧ prog[s'.pos]? = some st ∧ st.instr = .fin := by
  constructor
  · intro h
    rcases h [⟨none, .cma, .none⟩] (by simp) (by simp [PlainStmt])
      ⟨0, 0, 0, 0, 0, 0, 0, false, false, fun _ => 0⟩ (by decide) 2 with h | ⟨j, s', st, -, h, hf⟩
    · exact h rfl
    · have := List.mem_of_getElem? h
      simp only [List.mem_singleton] at this
      subst this
      cases hf
  · intro h
    rcases h [⟨none, .sta, .num 0⟩, ⟨none, .jmp, .num 0⟩] ⟨[_], _, rfl, .inr rfl⟩
      ⟨0, 0, 0, 0, 0, 0, 0, false, false, fun _ => 0⟩ (by decide) 1 with h | ⟨j, s', st, -, h, hf⟩
    · exact h rfl
    · have := List.mem_of_getElem? h
      simp only [List.mem_cons, List.not_mem_nil, or_false] at this
      rcases this with rfl | rfl <;> cases hf

end Mpp.Front
