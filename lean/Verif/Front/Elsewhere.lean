import Verif.Front.SourceSim
/-!
# Programs that do not lie at the beginning of memory

A specification like the one in `Front/SourceRun`, for a program whose first byte is at the address `o`. A number in
the text is an address of the memory, so a jump to a number leads to the statement that begins there; a label still
names a statement; the return address that CALL pushes is that of the statement after it. With `o = 0` this is
`Front/SourceRun` (`Src.stepFrom_zero`).
-/
namespace Mpp.Front

/-- The statement that begins at an address. -/
def startsFrom (o : Nat) (prog : List Stmt) (a : Nat) : Option Nat :=
  (List.range prog.length).find? fun i => o + place prog i = a

/-- Where a jump with this operand leads. -/
def Arg.destFrom (o : Nat) (prog : List Stmt) : Arg → Option Nat
  | .none => Option.none
  | .num n => startsFrom o prog n
  | .label l => labelled prog l

/-- The address that an operand stands for. -/
def Arg.addrFrom (o : Nat) (prog : List Stmt) : Arg → Option (BitVec 16)
  | .none => Option.none
  | .num n => some (BitVec.ofNat 16 n)
  | .label l => (labelled prog l).map fun i => BitVec.ofNat 16 (o + place prog i)

namespace Src

/-- Write into memory, not on the program. -/
def writeFrom (o : Nat) (prog : List Stmt) (s : Src) (a : BitVec 16) (x : BitVec 8) : Option Src :=
  if o ≤ a.toNat ∧ a.toNat < o + sizeOf prog then none
  else some { s with mem := fun i => if i = a then x else s.mem i }

def pushFrom (o : Nat) (prog : List Stmt) (s : Src) (x : BitVec 8) : Option Src :=
  if s.sp = 0 then none else { s with sp := s.sp - 1 }.writeFrom o prog (s.sp - 1) x

/-- Come back to where the popped address points. -/
def backFrom (o : Nat) (prog : List Stmt) (s : Src) : Option Src :=
  s.pop.bind fun lo => lo.2.pop.bind fun hi =>
    (startsFrom o prog (256 * hi.1.toNat + lo.1.toNat)).map fun i => { hi.2 with pos := i }

/-- One statement. -/
def stepFrom (o : Nat) (prog : List Stmt) (s : Src) : Option Src :=
  prog[s.pos]?.bind fun st =>
    let t := { s with pos := s.pos + 1 }
    match st.instr with
    | .mov src dst => (s.value st.arg src).map fun x => t.put x dst
    | .alu op src => (s.value st.arg src).map fun x => t.compute x op
    | .inc dst => some { t.put (s.look dst + 1) dst with fc := false, fz := s.look dst + 1 == 0 }
    | .cma => some (t.logic (~~~ s.ac))
    | .lfa => some { t with ac := (if s.fc then 128 else 0) + (if s.fz then 1 else 0) }
    | .sfa => some { t with fc := s.ac.getLsbD 7, fz := s.ac.getLsbD 0 }
    | .lda => (st.arg.addrFrom o prog).map fun a => { t with ac := s.mem a }
    | .sta => (st.arg.addrFrom o prog).bind fun a => t.writeFrom o prog a s.ac
    | .ldax => some { t with ac := s.mem (s.d ++ s.e) }
    | .stax => t.writeFrom o prog (s.d ++ s.e) s.ac
    | .jmp => (st.arg.destFrom o prog).map fun i => { t with pos := i }
    | .beq => if s.fz then (st.arg.destFrom o prog).map fun i => { t with pos := i } else some t
    | .bc => if s.fc then (st.arg.destFrom o prog).map fun i => { t with pos := i } else some t
    | .inisp => (st.arg.addrFrom o prog).map fun a => { t with sp := a }
    | .push => t.pushFrom o prog s.ac
    | .pop => t.pop.map fun x => { x.2 with ac := x.1 }
    | .call => (st.arg.destFrom o prog).bind fun i =>
        (t.pushFrom o prog (BitVec.ofNat 8 ((o + place prog (s.pos + 1)) / 256))).bind fun t =>
          (t.pushFrom o prog (BitVec.ofNat 8 (o + place prog (s.pos + 1)))).map fun t => { t with pos := i }
    | .ret => s.backFrom o prog
    | .iret => (s.backFrom o prog).bind fun t => t.pop.map fun f =>
        { f.2 with fc := f.1.getLsbD 7, fz := f.1.getLsbD 0 }
    | .fin => none

/-- `n` statements. -/
def runFrom (o : Nat) (prog : List Stmt) : Nat → Src → Option Src
  | 0, s => some s
  | n + 1, s => (s.stepFrom o prog).bind (runFrom o prog n)

end Src

/-- The program is in memory. -/
def LoadedFrom (o : Nat) (bss : List (List (BitVec 8))) (mem : BitVec 16 → BitVec 8) : Prop :=
  ∀ k b, bss.flatten[k]? = some b → mem (BitVec.ofNat 16 (o + k)) = b

/-- No operand is a label. -/
def NoLabels (prog : List Stmt) : Prop := ∀ st ∈ prog, ∀ l, st.arg ≠ .label l

theorem startsFrom_place {o : Nat} {prog : List Stmt} {a i : Nat} (h : startsFrom o prog a = some i) :
    o + place prog i = a ∧ i < prog.length := by
  unfold startsFrom at h
  have h1 := List.find?_some h
  have h2 := List.mem_of_find?_eq_some h
  exact ⟨by simpa using h1, by simpa using h2⟩

/-- The state of the machine that belongs to a state of the source. -/
def Src.machineFrom (o : Nat) (prog : List Stmt) (errs : List Err) (s : Src) : P :=
  ⟨s.ac, s.b, s.c, s.d, s.e, BitVec.ofNat 16 (o + place prog s.pos), s.sp, s.fc, s.fz, s.mem, errs⟩

theorem Src.writeFrom_loaded {o : Nat} {prog : List Stmt} {bss : List (List (BitVec 8))}
    (hl : bss.flatten.length = sizeOf prog) (hsz : o + sizeOf prog < 65536) {s s' : Src} {a : BitVec 16} {x : BitVec 8}
    (hm : LoadedFrom o bss s.mem)
    (h : s.writeFrom o prog a x = some s') : LoadedFrom o bss s'.mem := by
  unfold Src.writeFrom at h
  split at h
  · cases h
  · rename_i ha
    cases h
    intro k b hk
    show (if _ then _ else _) = _
    rw [if_neg, hm k b hk]
    have := (List.getElem?_eq_some_iff.1 hk).1
    rintro rfl
    simp only [BitVec.toNat_ofNat] at ha
    omega

theorem Src.pushFrom_loaded {o : Nat} {prog : List Stmt} {bss : List (List (BitVec 8))}
    (hl : bss.flatten.length = sizeOf prog) (hsz : o + sizeOf prog < 65536) {s s' : Src} {x : BitVec 8}
    (hm : LoadedFrom o bss s.mem) (h : s.pushFrom o prog x = some s') : LoadedFrom o bss s'.mem := by
  unfold Src.pushFrom at h
  split at h
  · cases h
  · exact Src.writeFrom_loaded hl hsz (s := { s with sp := s.sp - 1 }) hm h

theorem Src.backFrom_mem {o : Nat} {prog : List Stmt} {s s' : Src} (h : s.backFrom o prog = some s') : s'.mem = s.mem := by
  simp only [Src.backFrom, Option.bind_eq_some_iff, Option.map_eq_some_iff] at h
  obtain ⟨lo, h1, hi, h2, i, _, rfl⟩ := h
  exact (Src.pop_mem h2).trans (Src.pop_mem h1)

/-- The program stays in memory. -/
theorem Src.stepFrom_loaded {o : Nat} {prog : List Stmt} {bss : List (List (BitVec 8))}
    (hl : bss.flatten.length = sizeOf prog) (hsz : o + sizeOf prog < 65536) {s s' : Src}
    (hm : LoadedFrom o bss s.mem) (h : s.stepFrom o prog = some s') : LoadedFrom o bss s'.mem := by
  unfold Src.stepFrom at h
  obtain ⟨st, _, h⟩ := Option.bind_eq_some_iff.1 h
  have same : ∀ {t : Src}, t.mem = s.mem → LoadedFrom o bss t.mem := fun e => e ▸ hm
  cases hi : st.instr <;> rw [hi] at h <;>
    simp only [Option.map_eq_some_iff, Option.bind_eq_some_iff, Option.some.injEq] at h
  case mov => obtain ⟨x, _, rfl⟩ := h; exact same (Src.put_mem _ _ _)
  case alu => obtain ⟨x, _, rfl⟩ := h; exact same (Src.compute_mem _ _ _)
  case inc => subst h; exact same (Src.put_mem _ _ _)
  case lda => obtain ⟨x, _, rfl⟩ := h; exact hm
  case sta => obtain ⟨x, _, h⟩ := h; exact Src.writeFrom_loaded hl hsz (s := { s with pos := s.pos + 1 }) hm h
  case stax => exact Src.writeFrom_loaded hl hsz (s := { s with pos := s.pos + 1 }) hm h
  case jmp => obtain ⟨x, _, rfl⟩ := h; exact hm
  case beq =>
    split at h
    · obtain ⟨x, _, rfl⟩ := Option.map_eq_some_iff.1 h; exact hm
    · cases h; exact hm
  case bc =>
    split at h
    · obtain ⟨x, _, rfl⟩ := Option.map_eq_some_iff.1 h; exact hm
    · cases h; exact hm
  case inisp => obtain ⟨x, _, rfl⟩ := h; exact hm
  case push => exact Src.pushFrom_loaded hl hsz (s := { s with pos := s.pos + 1 }) hm h
  case pop => obtain ⟨x, h1, rfl⟩ := h; have e := Src.pop_mem h1; exact same (t := { x.2 with ac := x.1 }) e
  case call =>
    obtain ⟨i, _, t1, h1, t2, h2, rfl⟩ := h
    have := Src.pushFrom_loaded hl hsz (Src.pushFrom_loaded hl hsz (s := { s with pos := s.pos + 1 }) hm h1) h2
    exact this
  case ret => exact same (Src.backFrom_mem h)
  case iret =>
    obtain ⟨t, h1, f, h2, rfl⟩ := h
    have e := (Src.pop_mem h2).trans (Src.backFrom_mem h1)
    exact same (t := { f.2 with fc := f.1.getLsbD 7, fz := f.1.getLsbD 0 }) e
  case fin => cases h
  all_goals subst h; exact hm

/-- What the machine finds at the current statement. -/
structure FetchesFrom (o : Nat) (prog : List Stmt) (st : Stmt) (p : P) (n : Nat) : Prop where
  op : decode (p.mem (BitVec.ofNat 16 n)) = some st.instr
  byte : ∀ k, kindOf st.instr = .byte → st.arg = .num k → p.mem (BitVec.ofNat 16 (n + 1)) = BitVec.ofNat 8 k
  addr : ∀ a, kindOf st.instr = .addr → st.arg.addrFrom o prog = some a →
    p.mem (BitVec.ofNat 16 (n + 1)) ++ p.mem (BitVec.ofNat 16 (n + 1 + 1)) = a

theorem fetchesFrom {o : Nat} {prog : List Stmt} {bss : List (List (BitVec 8))} (hc : Code prog bss)
    (hnl : NoLabels prog) {p : P}
    (hm : LoadedFrom o bss p.mem) {i : Nat} {st : Stmt} (hi : prog[i]? = some st) :
    FetchesFrom o prog st p (o + place prog i) := by
  obtain ⟨bs, ⟨op, rest, v, rfl, hd, hv, hk⟩, hb⟩ := code_flatten hc hi
  have at' : ∀ k b, (op :: rest)[k]? = some b → p.mem (BitVec.ofNat 16 (o + place prog i + k)) = b :=
    fun k b h => by rw [Nat.add_assoc]; exact hm _ _ (hb k b h)
  refine ⟨?_, ?_, ?_⟩
  · have := at' 0 op rfl
    rw [Nat.add_zero] at this
    rw [this]; exact hd
  · intro k hk' ha
    rw [hk'] at hk
    rw [ha] at hv
    obtain ⟨_, rfl⟩ := hk
    have hv : v = k := hv
    subst hv
    exact at' 1 _ rfl
  · intro a hk' ha
    rw [hk'] at hk
    obtain ⟨hlt, rfl⟩ := hk
    have e1 := at' 1 _ rfl
    have e2 := at' 2 _ rfl
    rw [show o + place prog i + 1 + 1 = o + place prog i + 2 from rfl, e1, e2, join_bytes hlt]
    cases hg : st.arg with
    | none => rw [hg] at ha; cases ha
    | num n => rw [hg] at ha hv; cases ha; rw [show v = n from hv]
    | label l => exact absurd hg (hnl st (List.mem_of_getElem? hi) l)

theorem destFrom_addr {o : Nat} {prog : List Stmt} {arg : Arg} {i : Nat} (h : arg.destFrom o prog = some i) :
    arg.addrFrom o prog = some (BitVec.ofNat 16 (o + place prog i)) := by
  cases arg with
  | none => cases h
  | num n => rw [(startsFrom_place h).1]; rfl
  | label l => rw [Arg.addrFrom, show labelled prog l = some i from h]; rfl

theorem value_operandFrom {o : Nat} {prog : List Stmt} {st : Stmt} {errs : List Err} {s : Src} {n : Nat} {x : BitVec 8}
    {src : Operand} (hn : n + 1 + src.size < 65536)
    (hx : s.value st.arg src = some x) (pc : BitVec 16) (hpc : pc = BitVec.ofNat 16 (n + 1))
    (hb : src = .imm → ∀ k, st.arg = .num k → s.mem (BitVec.ofNat 16 (n + 1)) = BitVec.ofNat 8 k) :
    P.operand { s.machineFrom o prog errs with pc := pc } src =
      (x, { s.machineFrom o prog errs with pc := BitVec.ofNat 16 (n + 1 + src.size) }) := by
  subst hpc
  cases src with
  | reg g => cases g <;> (cases hx; rfl)
  | ac => cases hx; rfl
  | imm =>
    have hn : n + 1 + 1 < 65536 := hn
    cases hg : st.arg with
    | num k =>
      rw [hg] at hx
      cases hx
      show (s.mem _, P.next _) = _
      rw [hb rfl k hg, next_ofNat (n := n + 1) rfl (by omega)]
      rfl
    | none => rw [hg] at hx; cases hx
    | label l => rw [hg] at hx; cases hx

theorem simFrom_put (o : Nat) (prog : List Stmt) (errs : List Err) (s : Src) (x : BitVec 8) (dst : Dest) (n : Nat)
    (hn : o + place prog (s.pos + 1) = n) :
    P.set { s.machineFrom o prog errs with pc := BitVec.ofNat 16 n } dst x =
      (Src.put { s with pos := s.pos + 1 } x dst).machineFrom o prog errs := by
  subst hn
  rcases dst with ⟨_ | _ | _ | _⟩ | _ <;> rfl

theorem simFrom_compute (o : Nat) (prog : List Stmt) (errs : List Err) (s : Src) (x : BitVec 8) (op : AluOp) (n : Nat)
    (hn : o + place prog (s.pos + 1) = n) :
    P.aluOp op { s.machineFrom o prog errs with pc := BitVec.ofNat 16 n } x =
      (Src.compute { s with pos := s.pos + 1 } x op).machineFrom o prog errs := by
  subst hn
  have hb : ∀ a b : BitVec 8, (a == b) = decide (a = b) := fun a b => rfl
  have hs : s.ac - x = 0 ↔ s.ac = x := by
    constructor
    · intro h; bv_omega
    · rintro rfl; exact BitVec.sub_self _
  cases op <;> simp only [P.aluOp, Src.compute, Src.machineFrom, Src.logic, hb, BitVec.lt_def, P.mk.injEq,
    true_and, and_true]
  case add => exact ⟨decide_eq_decide.2 (by omega), rfl⟩
  case sub => exact ⟨rfl, decide_eq_decide.2 hs⟩
  case cmp => exact ⟨rfl, rfl⟩
  all_goals rfl

theorem simFrom_push {o : Nat} {prog : List Stmt} {errs : List Err} {s s' : Src} {x : BitVec 8} {pc : BitVec 16}
    (h : s.pushFrom o prog x = some s') (p : P) (hp : p = { s.machineFrom o prog errs with pc := pc }) :
    P.store p.down p.down.sp x = { s'.machineFrom o prog errs with pc := pc } ∧ s'.pos = s.pos := by
  subst hp
  unfold Src.pushFrom at h
  split at h
  · cases h
  · rename_i h0
    unfold Src.writeFrom at h
    split at h
    · cases h
    · cases h
      have : P.down { s.machineFrom o prog errs with pc := pc } =
          { s.machineFrom o prog errs with pc := pc, sp := s.sp - 1 } := if_neg h0
      rw [this]
      exact ⟨rfl, rfl⟩

theorem simFrom_pop {o : Nat} {prog : List Stmt} {errs : List Err} {s : Src} {r : BitVec 8 × Src} {pc : BitVec 16}
    (h : s.pop = some r) (p : P) (hp : p = { s.machineFrom o prog errs with pc := pc }) :
    p.top = r.1 ∧ p.up = { r.2.machineFrom o prog errs with pc := pc } ∧ r.2.pos = s.pos := by
  subst hp
  unfold Src.pop at h
  split at h
  · cases h
  · rename_i h0
    cases h
    exact ⟨rfl, if_neg h0, rfl⟩

theorem simFrom_back {o : Nat} {prog : List Stmt} {errs : List Err} {s s' : Src} {pc : BitVec 16}
    (h : s.backFrom o prog = some s') (p : P) (hp : p = { s.machineFrom o prog errs with pc := pc }) :
    { p.up.up with pc := p.up.top ++ p.top } = s'.machineFrom o prog errs := by
  simp only [Src.backFrom, Option.bind_eq_some_iff, Option.map_eq_some_iff] at h
  obtain ⟨lo, h1, hi, h2, i, h3, rfl⟩ := h
  obtain ⟨a1, a2, a3⟩ := simFrom_pop h1 p hp
  obtain ⟨b1, b2, b3⟩ := simFrom_pop h2 _ a2
  rw [b2, b1, a1]
  have : hi.1 ++ lo.1 = BitVec.ofNat 16 (o + place prog i) := by
    rw [(startsFrom_place h3).1]
    apply BitVec.eq_of_toNat_eq
    have := hi.1.isLt
    have := lo.1.isLt
    rw [BitVec.toNat_append, BitVec.toNat_ofNat, ← Nat.shiftLeft_add_eq_or_of_lt (by omega), Nat.shiftLeft_eq]
    omega
  rw [this]
  rfl

/-- One statement of the source is one instruction of the machine. -/
theorem Src.simFrom {o : Nat} {prog : List Stmt} {bss : List (List (BitVec 8))} (hc : Code prog bss)
    (hnl : NoLabels prog) (hsz : o + sizeOf prog < 65536) {s s' : Src} (errs : List Err)
    (hm : LoadedFrom o bss s.mem) (h : s.stepFrom o prog = some s') :
    (s.machineFrom o prog errs).step = some (s'.machineFrom o prog errs) := by
  unfold Src.stepFrom at h
  obtain ⟨st, hst, h⟩ := Option.bind_eq_some_iff.1 h
  have f := fetchesFrom hc hnl (p := s.machineFrom o prog errs) hm hst
  have hnext : o + place prog (s.pos + 1) = o + place prog s.pos + st.instr.size := by rw [place_succ hst]; omega
  have hlt : o + place prog s.pos + st.instr.size < 65536 := by
    have := place_le prog (s.pos + 1)
    omega
  have hpos := Instr.size_pos st.instr
  generalize hn : o + place prog s.pos = n at *
  have hpc : (s.machineFrom o prog errs).pc = BitVec.ofNat 16 n := by rw [← hn]; rfl
  have hfin : st.instr ≠ .fin := by
    intro e; rw [e] at h; cases h
  rw [P.step_of st.instr (by rw [hpc]; exact f.op) hfin (by
    intro _ e
    rw [hpc] at e
    have := congrArg BitVec.toNat e
    have h2 : (0xFFFF : BitVec 16).toNat = 65535 := rfl
    have h3 : st.instr.size = 3 := by rename_i hi; rw [hi]; rfl
    simp only [BitVec.toNat_ofNat] at this
    omega)]
  congr 1
  have n1 : (s.machineFrom o prog errs).next = { s.machineFrom o prog errs with pc := BitVec.ofNat 16 (n + 1) } :=
    next_ofNat hpc (by omega)
  have ad : ∀ a, kindOf st.instr = .addr → st.arg.addrFrom o prog = some a →
      P.address { s.machineFrom o prog errs with pc := BitVec.ofNat 16 (n + 1) } =
        (a, { s.machineFrom o prog errs with pc := BitVec.ofNat 16 (n + 3) }) := by
    intro a hk ha
    have h3 : st.instr.size = 3 := by
      unfold kindOf at hk
      split at hk <;> first | assumption | cases hk
    have e1 := f.addr a hk ha
    unfold P.address P.byte
    rw [next_ofNat (n := n + 1) rfl (by omega), next_ofNat (n := n + 1 + 1) rfl (by omega)]
    rw [← e1]
  have a2 : st.instr.size = 3 → (P.address { s.machineFrom o prog errs with pc := BitVec.ofNat 16 (n + 1) }).2 =
      { s.machineFrom o prog errs with pc := BitVec.ofNat 16 (n + 3) } := by
    intro h3
    show P.next (P.next _) = _
    rw [next_ofNat (p := { s.machineFrom o prog errs with pc := BitVec.ofNat 16 (n + 1) }) (n := n + 1) rfl (by omega),
      next_ofNat (n := n + 1 + 1) rfl (by omega)]
  have s1 : st.instr.size = 1 → o + place prog (s.pos + 1) = n + 1 := by omega
  have s3 : st.instr.size = 3 → o + place prog (s.pos + 1) = n + 3 := by omega
  cases hi : st.instr <;> rw [hi] at h hlt hnext ad a2 s1 s3 <;>
    simp only [Option.map_eq_some_iff, Option.bind_eq_some_iff, Option.some.injEq] at h <;>
    unfold P.instr <;> rw [n1]
  case mov src dst =>
    obtain ⟨x, hx, rfl⟩ := h
    have := value_operandFrom (o := o) (prog := prog) (errs := errs) (n := n) (src := src) (by
      simp only [Instr.size] at hlt; omega) hx _ rfl (fun e k hk => f.byte k (by subst e; rw [hi]; rfl) hk)
    simp only [this]
    exact simFrom_put o prog errs s x dst _ (by rw [hnext]; simp only [Instr.size]; omega)
  case alu op src =>
    obtain ⟨x, hx, rfl⟩ := h
    have := value_operandFrom (o := o) (prog := prog) (errs := errs) (n := n) (src := src) (by
      simp only [Instr.size] at hlt; omega) hx _ rfl (fun e k hk => f.byte k (by subst e; rw [hi]; rfl) hk)
    simp only [this]
    exact simFrom_compute o prog errs s x op _ (by rw [hnext]; simp only [Instr.size]; omega)
  case lda =>
    obtain ⟨a, ha, rfl⟩ := h
    simp only [ad a rfl ha]
    rw [← s3 rfl]
    rfl
  case sta =>
    obtain ⟨a, ha, h⟩ := h
    simp only [ad a rfl ha]
    unfold Src.writeFrom at h
    split at h
    · cases h
    · cases h
      rw [← s3 rfl]
      rfl
  case ldax => subst h; rw [← s1 rfl]; rfl
  case stax =>
    unfold Src.writeFrom at h
    split at h
    · cases h
    · cases h
      rw [← s1 rfl]
      rfl
  case jmp =>
    obtain ⟨i, hd, rfl⟩ := h
    simp only [ad _ rfl (destFrom_addr hd)]
    rfl
  case beq =>
    show (if s.fz = true then _ else _) = _
    split at h <;> rename_i hb
    · obtain ⟨i, hd, rfl⟩ := Option.map_eq_some_iff.1 h
      rw [if_pos hb]
      simp only [ad _ rfl (destFrom_addr hd)]
      rfl
    · cases h
      rw [if_neg hb, a2 rfl, ← s3 rfl]
      rfl
  case bc =>
    show (if s.fc = true then _ else _) = _
    split at h <;> rename_i hb
    · obtain ⟨i, hd, rfl⟩ := Option.map_eq_some_iff.1 h
      rw [if_pos hb]
      simp only [ad _ rfl (destFrom_addr hd)]
      rfl
    · cases h
      rw [if_neg hb, a2 rfl, ← s3 rfl]
      rfl
  case inisp =>
    obtain ⟨a, ha, rfl⟩ := h
    simp only [ad a rfl ha]
    rw [← s3 rfl]
    rfl
  case push =>
    obtain ⟨e, hp⟩ := simFrom_push (o := o) (prog := prog) (errs := errs) (pc := BitVec.ofNat 16 (n + 1)) h _ rfl
    refine Eq.trans e ?_
    rw [← s1 rfl]
    unfold Src.machineFrom
    rw [hp]
  case pop =>
    obtain ⟨x, h1, rfl⟩ := h
    obtain ⟨e1, e2, hp⟩ := simFrom_pop (o := o) (prog := prog) (errs := errs) (pc := BitVec.ofNat 16 (n + 1)) h1 _ rfl
    have e3 : P.top { s.machineFrom o prog errs with pc := BitVec.ofNat 16 (n + 1) } = x.1 := e1
    have e4 : P.up { s.machineFrom o prog errs with pc := BitVec.ofNat 16 (n + 1) } =
        { x.2.machineFrom o prog errs with pc := BitVec.ofNat 16 (n + 1) } := e2
    simp only [e3, e4]
    rw [← s1 rfl]
    unfold Src.machineFrom
    rw [hp]
  case call =>
    obtain ⟨i, hd, t1, h1, t2, h2, rfl⟩ := h
    simp only [ad _ rfl (destFrom_addr hd)]
    have hi8 : (BitVec.ofNat 16 (n + 3)).extractLsb' 8 8 = BitVec.ofNat 8 ((o + place prog (s.pos + 1)) / 256) := by
      rw [s3 rfl]
      apply BitVec.eq_of_toNat_eq
      have : n + 3 < 65536 := hlt
      simp only [BitVec.extractLsb'_toNat, BitVec.toNat_ofNat, Nat.shiftRight_eq_div_pow]
      omega
    have lo8 : (BitVec.ofNat 16 (n + 3)).extractLsb' 0 8 = BitVec.ofNat 8 (o + place prog (s.pos + 1)) := by
      rw [s3 rfl]
      apply BitVec.eq_of_toNat_eq
      simp only [BitVec.extractLsb'_toNat, BitVec.toNat_ofNat, Nat.shiftRight_zero]
      omega
    have dpc : ∀ q : P, q.down.pc = q.pc := fun q => by unfold P.down; split <;> rfl
    simp only [dpc]
    obtain ⟨e1, _⟩ := simFrom_push (o := o) (prog := prog) (errs := errs) (pc := BitVec.ofNat 16 (n + 3)) h1 _ rfl
    have e1' : P.store (P.down { s.machineFrom o prog errs with pc := BitVec.ofNat 16 (n + 3) })
        (P.down { s.machineFrom o prog errs with pc := BitVec.ofNat 16 (n + 3) }).sp
        (BitVec.ofNat 8 ((o + place prog (s.pos + 1)) / 256)) = _ := e1
    rw [hi8, e1']
    obtain ⟨e2, _⟩ := simFrom_push (o := o) (prog := prog) (errs := errs) (pc := BitVec.ofNat 16 (n + 3)) h2 _ rfl
    rw [lo8, e2]
    rfl
  case ret =>
    exact simFrom_back h _ rfl
  case iret =>
    obtain ⟨t, h1, g, h2, rfl⟩ := h
    generalize hq : { s.machineFrom o prog errs with pc := BitVec.ofNat 16 (n + 1) } = q
    have e1 := simFrom_back (errs := errs) h1 q hq.symm
    have e2 : q.up.up = { t.machineFrom o prog errs with pc := q.up.up.pc } := by rw [← e1]
    obtain ⟨e3, e4, e5⟩ := simFrom_pop (o := o) (prog := prog) (errs := errs) h2 _ e2
    have e6 : q.up.top ++ q.top = BitVec.ofNat 16 (o + place prog t.pos) := congrArg P.pc e1
    show { q.up.up.up with pc := q.up.top ++ q.top, fc := q.up.up.top.getLsbD 7, fz := q.up.up.top.getLsbD 0 } = _
    rw [e3, e4, e6, ← e5]
    rfl
  case fin => cases h
  case inc dst =>
    subst h
    rw [← s1 rfl]
    rcases dst with ⟨_ | _ | _ | _⟩ | _ <;> rfl
  case cma => subst h; rw [← s1 rfl]; rfl
  case lfa =>
    subst h
    rw [← s1 rfl]
    show P.mk _ _ _ _ _ _ _ _ _ _ _ = P.mk _ _ _ _ _ _ _ _ _ _ _
    have : (if s.fc = true then (0x80 : BitVec 8) else 0) ||| (if s.fz = true then 1 else 0) =
        (if s.fc = true then 128 else 0) + (if s.fz = true then 1 else 0) := by
      cases s.fc <;> cases s.fz <;> decide
    exact congrArg (fun x => P.mk x _ _ _ _ _ _ _ _ _ _) this
  case sfa => subst h; rw [← s1 rfl]; rfl

end Mpp.Front
