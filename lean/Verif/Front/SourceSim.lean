import Verif.Front.SourceRun
import Verif.Front.Shown
import Verif.Front.Runs
/-!
# The machine code of a program does what the statements mean
-/
namespace Mpp.Front

theorem place_succ {prog : List Stmt} {i : Nat} {st : Stmt} (h : prog[i]? = some st) :
    place prog (i + 1) = place prog i + st.instr.size := by
  obtain ⟨hi, e⟩ := List.getElem?_eq_some_iff.1 h
  unfold place
  rw [List.take_succ_eq_append_getElem hi, sizeOf, List.map_append, List.sum_append, e]
  simp [sizeOf]

theorem place_le (prog : List Stmt) (i : Nat) : place prog i ≤ sizeOf prog := by
  have : sizeOf prog = place prog i + sizeOf (prog.drop i) := by
    unfold place sizeOf
    rw [← List.sum_append, ← List.map_append, List.take_append_drop]
  omega

theorem labelled_place {prog : List Stmt} {l : Str} {i v : Nat} (h : labelled prog l = some i)
    (hv : LabelAt prog l v) : v = place prog i := by
  obtain ⟨before, st, after, rfl, hl, hb, rfl⟩ := hv
  unfold labelled at h
  rw [List.findIdx?_append, List.findIdx?_eq_none_iff.2 (by simpa using hb), List.findIdx?_cons] at h
  simp only [hl, decide_true, if_true, Option.map_some, Option.none_or, Option.some.injEq] at h
  subst h
  simp [place]

theorem startsAt_place {prog : List Stmt} {a i : Nat} (h : startsAt prog a = some i) :
    place prog i = a ∧ i < prog.length := by
  unfold startsAt at h
  have h1 := List.find?_some h
  have h2 := List.mem_of_find?_eq_some h
  exact ⟨by simpa using h1, by simpa using h2⟩

/-- The program is in memory. -/
def Loaded (bss : List (List (BitVec 8))) (mem : BitVec 16 → BitVec 8) : Prop :=
  ∀ k b, bss.flatten[k]? = some b → mem (BitVec.ofNat 16 k) = b

theorem code_flatten {prog ps : List Stmt} {bss : List (List (BitVec 8))}
    (hc : List.Forall₂ (StmtCode prog) ps bss) {i : Nat} {st : Stmt} (hi : ps[i]? = some st) :
    ∃ bs, StmtCode prog st bs ∧ ∀ k b, bs[k]? = some b → bss.flatten[place ps i + k]? = some b := by
  induction hc generalizing i with
  | nil => cases hi
  | @cons s bs ps bss h1 _ ih =>
    cases i with
    | zero =>
      cases hi
      refine ⟨bs, h1, fun k b hk => ?_⟩
      have : k < bs.length := (List.getElem?_eq_some_iff.1 hk).1
      rw [List.flatten_cons, List.getElem?_append_left (by simpa [place, sizeOf] using this)]
      simpa [place, sizeOf] using hk
    | succ i =>
      obtain ⟨cs, h2, h3⟩ := ih hi
      refine ⟨cs, h2, fun k b hk => ?_⟩
      have e : place (s :: ps) (i + 1) = bs.length + place ps i := by
        rw [kind_length h1]; simp [place, sizeOf]
      rw [e, List.flatten_cons, List.getElem?_append_right (by omega)]
      have := h3 k b hk
      rwa [show bs.length + place ps i + k - bs.length = place ps i + k by omega]

theorem src_succ (n : Nat) : BitVec.ofNat 16 n + 1 = BitVec.ofNat 16 (n + 1) := by
  rw [show (1 : BitVec 16) = BitVec.ofNat 16 1 from rfl, ← BitVec.ofNat_add]

theorem next_ofNat {p : P} {n : Nat} (h : p.pc = BitVec.ofNat 16 n) (hn : n < 65535) :
    p.next = { p with pc := BitVec.ofNat 16 (n + 1) } := by
  unfold P.next
  rw [if_neg, h, src_succ]
  rw [h]
  intro e
  have := congrArg BitVec.toNat e
  have h2 : (0xFFFF : BitVec 16).toNat = 65535 := rfl
  simp only [BitVec.toNat_ofNat] at this
  omega

theorem join_bytes {v : Nat} (h : v < 65536) :
    BitVec.ofNat 8 (v / 256) ++ BitVec.ofNat 8 (v % 256) = BitVec.ofNat 16 v := by
  apply BitVec.eq_of_toNat_eq
  simp only [BitVec.toNat_append, BitVec.toNat_ofNat, Nat.shiftLeft_eq]
  rw [← Nat.shiftLeft_eq, ← Nat.shiftLeft_add_eq_or_of_lt (by omega), Nat.shiftLeft_eq]
  omega

/-- The state of the machine that belongs to a state of the source. -/
def Src.machine (prog : List Stmt) (errs : List Err) (s : Src) : P :=
  ⟨s.ac, s.b, s.c, s.d, s.e, BitVec.ofNat 16 (place prog s.pos), s.sp, s.fc, s.fz, s.mem, errs⟩

theorem Src.write_loaded {prog : List Stmt} {bss : List (List (BitVec 8))}
    (hl : bss.flatten.length = sizeOf prog) (hsz : sizeOf prog < 65536) {s s' : Src} {a : BitVec 16} {x : BitVec 8} (hm : Loaded bss s.mem)
    (h : s.write prog a x = some s') : Loaded bss s'.mem := by
  unfold Src.write at h
  split at h
  · cases h
  · rename_i ha
    cases h
    intro k b hk
    show (if _ then _ else _) = _
    rw [if_neg, hm k b hk]
    have := (List.getElem?_eq_some_iff.1 hk).1
    rintro rfl
    simp only [BitVec.toNat_ofNat] at ha
    omega

theorem Src.push_loaded {prog : List Stmt} {bss : List (List (BitVec 8))}
    (hl : bss.flatten.length = sizeOf prog) (hsz : sizeOf prog < 65536) {s s' : Src} {x : BitVec 8}
    (hm : Loaded bss s.mem) (h : s.push prog x = some s') : Loaded bss s'.mem := by
  unfold Src.push at h
  split at h
  · cases h
  · exact Src.write_loaded hl hsz (s := { s with sp := s.sp - 1 }) hm h

theorem Src.pop_mem {s : Src} {r : BitVec 8 × Src} (h : s.pop = some r) : r.2.mem = s.mem := by
  unfold Src.pop at h
  split at h
  · cases h
  · cases h; rfl

theorem Src.back_mem {prog : List Stmt} {s s' : Src} (h : s.back prog = some s') : s'.mem = s.mem := by
  simp only [Src.back, Option.bind_eq_some_iff, Option.map_eq_some_iff] at h
  obtain ⟨lo, h1, hi, h2, i, _, rfl⟩ := h
  exact (Src.pop_mem h2).trans (Src.pop_mem h1)

theorem Src.put_mem (s : Src) (x : BitVec 8) (d : Dest) : (s.put x d).mem = s.mem := by
  rcases d with ⟨_ | _ | _ | _⟩ | _ <;> rfl

theorem Src.compute_mem (s : Src) (x : BitVec 8) (op : AluOp) : (s.compute x op).mem = s.mem := by
  cases op <;> rfl

/-- The program stays in memory. -/
theorem Src.step_loaded {prog : List Stmt} {bss : List (List (BitVec 8))}
    (hl : bss.flatten.length = sizeOf prog) (hsz : sizeOf prog < 65536) {s s' : Src}
    (hm : Loaded bss s.mem) (h : s.step prog = some s') : Loaded bss s'.mem := by
  unfold Src.step at h
  obtain ⟨st, _, h⟩ := Option.bind_eq_some_iff.1 h
  have same : ∀ {t : Src}, t.mem = s.mem → Loaded bss t.mem := fun e => e ▸ hm
  cases hi : st.instr <;> rw [hi] at h <;>
    simp only [Option.map_eq_some_iff, Option.bind_eq_some_iff, Option.some.injEq] at h
  case mov => obtain ⟨x, _, rfl⟩ := h; exact same (Src.put_mem _ _ _)
  case alu => obtain ⟨x, _, rfl⟩ := h; exact same (Src.compute_mem _ _ _)
  case inc => subst h; exact same (Src.put_mem _ _ _)
  case lda => obtain ⟨x, _, rfl⟩ := h; exact hm
  case sta => obtain ⟨x, _, h⟩ := h; exact Src.write_loaded hl hsz (s := { s with pos := s.pos + 1 }) hm h
  case stax => exact Src.write_loaded hl hsz (s := { s with pos := s.pos + 1 }) hm h
  case jmp => obtain ⟨x, _, rfl⟩ := h; exact hm
  case beq =>
    split at h
    · obtain ⟨x, _, rfl⟩ := Option.map_eq_some_iff.1 h; exact hm
    · cases h; exact hm
  case bc =>
    split at h
    · obtain ⟨x, _, rfl⟩ := Option.map_eq_some_iff.1 h; exact hm
    · cases h; exact hm
  case inisp => obtain ⟨x, _, rfl⟩ := h; exact hm
  case push => exact Src.push_loaded hl hsz (s := { s with pos := s.pos + 1 }) hm h
  case pop => obtain ⟨x, h1, rfl⟩ := h; have e := Src.pop_mem h1; exact same (t := { x.2 with ac := x.1 }) e
  case call =>
    obtain ⟨i, _, t1, h1, t2, h2, rfl⟩ := h
    have := Src.push_loaded hl hsz (Src.push_loaded hl hsz (s := { s with pos := s.pos + 1 }) hm h1) h2
    exact this
  case ret => exact same (Src.back_mem h)
  case iret =>
    obtain ⟨t, h1, f, h2, rfl⟩ := h
    have e := (Src.pop_mem h2).trans (Src.back_mem h1)
    exact same (t := { f.2 with fc := f.1.getLsbD 7, fz := f.1.getLsbD 0 }) e
  case fin => cases h
  all_goals subst h; exact hm

/-- What the machine finds at the current statement. -/
structure Fetches (prog : List Stmt) (st : Stmt) (p : P) (n : Nat) : Prop where
  op : decode (p.mem (BitVec.ofNat 16 n)) = some st.instr
  byte : ∀ k, kindOf st.instr = .byte → st.arg = .num k → p.mem (BitVec.ofNat 16 (n + 1)) = BitVec.ofNat 8 k
  addr : ∀ a, kindOf st.instr = .addr → st.arg.addr prog = some a →
    p.mem (BitVec.ofNat 16 (n + 1)) ++ p.mem (BitVec.ofNat 16 (n + 1 + 1)) = a

theorem fetches {prog : List Stmt} {bss : List (List (BitVec 8))} (hc : Code prog bss) {p : P}
    (hm : Loaded bss p.mem) {i : Nat} {st : Stmt} (hi : prog[i]? = some st) : Fetches prog st p (place prog i) := by
  obtain ⟨bs, ⟨op, rest, v, rfl, hd, hv, hk⟩, hb⟩ := code_flatten hc hi
  have at' : ∀ k b, (op :: rest)[k]? = some b → p.mem (BitVec.ofNat 16 (place prog i + k)) = b :=
    fun k b h => hm _ _ (hb k b h)
  refine ⟨?_, ?_, ?_⟩
  · have := at' 0 op rfl
    rw [Nat.add_zero] at this
    rw [this]; exact hd
  · intro k hk' ha
    rw [hk'] at hk
    rw [ha] at hv
    obtain ⟨_, rfl⟩ := hk
    have hv : v = k := hv
    subst hv
    exact at' 1 _ rfl
  · intro a hk' ha
    rw [hk'] at hk
    obtain ⟨hlt, rfl⟩ := hk
    have e1 := at' 1 _ rfl
    have e2 := at' 2 _ rfl
    rw [show place prog i + 1 + 1 = place prog i + 2 from rfl, e1, e2, join_bytes hlt]
    cases hg : st.arg with
    | none => rw [hg] at ha; cases ha
    | num n => rw [hg] at ha hv; cases ha; rw [show v = n from hv]
    | label l =>
      rw [hg] at ha hv
      obtain ⟨j, hj, rfl⟩ := Option.map_eq_some_iff.1 ha
      rw [labelled_place hj hv]

theorem dest_addr {prog : List Stmt} {arg : Arg} {i : Nat} (h : arg.dest prog = some i) :
    arg.addr prog = some (BitVec.ofNat 16 (place prog i)) := by
  cases arg with
  | none => cases h
  | num n => rw [(startsAt_place h).1]; rfl
  | label l => rw [Arg.addr, show labelled prog l = some i from h]; rfl

theorem value_operand {prog : List Stmt} {st : Stmt} {errs : List Err} {s : Src} {n : Nat} {x : BitVec 8}
    {src : Operand} (hn : n + 1 + src.size < 65536)
    (hx : s.value st.arg src = some x) (pc : BitVec 16) (hpc : pc = BitVec.ofNat 16 (n + 1))
    (hb : src = .imm → ∀ k, st.arg = .num k → s.mem (BitVec.ofNat 16 (n + 1)) = BitVec.ofNat 8 k) :
    P.operand { s.machine prog errs with pc := pc } src =
      (x, { s.machine prog errs with pc := BitVec.ofNat 16 (n + 1 + src.size) }) := by
  subst hpc
  cases src with
  | reg g => cases g <;> (cases hx; rfl)
  | ac => cases hx; rfl
  | imm =>
    have hn : n + 1 + 1 < 65536 := hn
    cases hg : st.arg with
    | num k =>
      rw [hg] at hx
      cases hx
      show (s.mem _, P.next _) = _
      rw [hb rfl k hg, next_ofNat (n := n + 1) rfl (by omega)]
      rfl
    | none => rw [hg] at hx; cases hx
    | label l => rw [hg] at hx; cases hx

theorem sim_put (prog : List Stmt) (errs : List Err) (s : Src) (x : BitVec 8) (dst : Dest) (n : Nat)
    (hn : place prog (s.pos + 1) = n) :
    P.set { s.machine prog errs with pc := BitVec.ofNat 16 n } dst x =
      (Src.put { s with pos := s.pos + 1 } x dst).machine prog errs := by
  subst hn
  rcases dst with ⟨_ | _ | _ | _⟩ | _ <;> rfl

theorem sim_compute (prog : List Stmt) (errs : List Err) (s : Src) (x : BitVec 8) (op : AluOp) (n : Nat)
    (hn : place prog (s.pos + 1) = n) :
    P.aluOp op { s.machine prog errs with pc := BitVec.ofNat 16 n } x =
      (Src.compute { s with pos := s.pos + 1 } x op).machine prog errs := by
  subst hn
  have hb : ∀ a b : BitVec 8, (a == b) = decide (a = b) := fun a b => rfl
  have hs : s.ac - x = 0 ↔ s.ac = x := by
    constructor
    · intro h; bv_omega
    · rintro rfl; exact BitVec.sub_self _
  cases op <;> simp only [P.aluOp, Src.compute, Src.machine, Src.logic, hb, BitVec.lt_def, P.mk.injEq,
    true_and, and_true]
  case add => exact ⟨decide_eq_decide.2 (by omega), rfl⟩
  case sub => exact ⟨rfl, decide_eq_decide.2 hs⟩
  case cmp => exact ⟨rfl, rfl⟩
  all_goals rfl

theorem sim_push {prog : List Stmt} {errs : List Err} {s s' : Src} {x : BitVec 8} {pc : BitVec 16}
    (h : s.push prog x = some s') (p : P) (hp : p = { s.machine prog errs with pc := pc }) :
    P.store p.down p.down.sp x = { s'.machine prog errs with pc := pc } ∧ s'.pos = s.pos := by
  subst hp
  unfold Src.push at h
  split at h
  · cases h
  · rename_i h0
    unfold Src.write at h
    split at h
    · cases h
    · cases h
      have : P.down { s.machine prog errs with pc := pc } =
          { s.machine prog errs with pc := pc, sp := s.sp - 1 } := if_neg h0
      rw [this]
      exact ⟨rfl, rfl⟩

theorem sim_pop {prog : List Stmt} {errs : List Err} {s : Src} {r : BitVec 8 × Src} {pc : BitVec 16}
    (h : s.pop = some r) (p : P) (hp : p = { s.machine prog errs with pc := pc }) :
    p.top = r.1 ∧ p.up = { r.2.machine prog errs with pc := pc } ∧ r.2.pos = s.pos := by
  subst hp
  unfold Src.pop at h
  split at h
  · cases h
  · rename_i h0
    cases h
    exact ⟨rfl, if_neg h0, rfl⟩

theorem sim_back {prog : List Stmt} {errs : List Err} {s s' : Src} {pc : BitVec 16}
    (h : s.back prog = some s') (p : P) (hp : p = { s.machine prog errs with pc := pc }) :
    { p.up.up with pc := p.up.top ++ p.top } = s'.machine prog errs := by
  simp only [Src.back, Option.bind_eq_some_iff, Option.map_eq_some_iff] at h
  obtain ⟨lo, h1, hi, h2, i, h3, rfl⟩ := h
  obtain ⟨a1, a2, a3⟩ := sim_pop h1 p hp
  obtain ⟨b1, b2, b3⟩ := sim_pop h2 _ a2
  rw [b2, b1, a1]
  have : hi.1 ++ lo.1 = BitVec.ofNat 16 (place prog i) := by
    rw [(startsAt_place h3).1]
    apply BitVec.eq_of_toNat_eq
    have := hi.1.isLt
    have := lo.1.isLt
    rw [BitVec.toNat_append, BitVec.toNat_ofNat, ← Nat.shiftLeft_add_eq_or_of_lt (by omega), Nat.shiftLeft_eq]
    omega
  rw [this]
  rfl

/-- One statement of the source is one instruction of the machine. -/
theorem Src.sim {prog : List Stmt} {bss : List (List (BitVec 8))} (hc : Code prog bss)
    (hsz : sizeOf prog < 65536) {s s' : Src} (errs : List Err)
    (hm : Loaded bss s.mem) (h : s.step prog = some s') :
    (s.machine prog errs).step = some (s'.machine prog errs) := by
  unfold Src.step at h
  obtain ⟨st, hst, h⟩ := Option.bind_eq_some_iff.1 h
  have f := fetches hc (p := s.machine prog errs) hm hst
  have hnext := place_succ hst
  have hlt : place prog s.pos + st.instr.size < 65536 := by
    have := place_le prog (s.pos + 1)
    omega
  have hpos := Instr.size_pos st.instr
  generalize hn : place prog s.pos = n at *
  have hpc : (s.machine prog errs).pc = BitVec.ofNat 16 n := by rw [← hn]; rfl
  have hfin : st.instr ≠ .fin := by
    intro e; rw [e] at h; cases h
  rw [P.step_of st.instr (by rw [hpc]; exact f.op) hfin (by
    intro _ e
    rw [hpc] at e
    have := congrArg BitVec.toNat e
    have h2 : (0xFFFF : BitVec 16).toNat = 65535 := rfl
    have h3 : st.instr.size = 3 := by rename_i hi; rw [hi]; rfl
    simp only [BitVec.toNat_ofNat] at this
    omega)]
  congr 1
  have n1 : (s.machine prog errs).next = { s.machine prog errs with pc := BitVec.ofNat 16 (n + 1) } :=
    next_ofNat hpc (by omega)
  have ad : ∀ a, kindOf st.instr = .addr → st.arg.addr prog = some a →
      P.address { s.machine prog errs with pc := BitVec.ofNat 16 (n + 1) } =
        (a, { s.machine prog errs with pc := BitVec.ofNat 16 (n + 3) }) := by
    intro a hk ha
    have h3 : st.instr.size = 3 := by
      unfold kindOf at hk
      split at hk <;> first | assumption | cases hk
    have e1 := f.addr a hk ha
    unfold P.address P.byte
    rw [next_ofNat (n := n + 1) rfl (by omega), next_ofNat (n := n + 1 + 1) rfl (by omega)]
    rw [← e1]
  have a2 : st.instr.size = 3 → (P.address { s.machine prog errs with pc := BitVec.ofNat 16 (n + 1) }).2 =
      { s.machine prog errs with pc := BitVec.ofNat 16 (n + 3) } := by
    intro h3
    show P.next (P.next _) = _
    rw [next_ofNat (p := { s.machine prog errs with pc := BitVec.ofNat 16 (n + 1) }) (n := n + 1) rfl (by omega),
      next_ofNat (n := n + 1 + 1) rfl (by omega)]
  have s1 : st.instr.size = 1 → place prog (s.pos + 1) = n + 1 := by omega
  have s3 : st.instr.size = 3 → place prog (s.pos + 1) = n + 3 := by omega
  cases hi : st.instr <;> rw [hi] at h hlt hnext ad a2 s1 s3 <;>
    simp only [Option.map_eq_some_iff, Option.bind_eq_some_iff, Option.some.injEq] at h <;>
    unfold P.instr <;> rw [n1]
  case mov src dst =>
    obtain ⟨x, hx, rfl⟩ := h
    have := value_operand (prog := prog) (errs := errs) (n := n) (src := src) (by
      simp only [Instr.size] at hlt; omega) hx _ rfl (fun e k hk => f.byte k (by subst e; rw [hi]; rfl) hk)
    simp only [this]
    exact sim_put prog errs s x dst _ (by rw [hnext]; simp only [Instr.size]; omega)
  case alu op src =>
    obtain ⟨x, hx, rfl⟩ := h
    have := value_operand (prog := prog) (errs := errs) (n := n) (src := src) (by
      simp only [Instr.size] at hlt; omega) hx _ rfl (fun e k hk => f.byte k (by subst e; rw [hi]; rfl) hk)
    simp only [this]
    exact sim_compute prog errs s x op _ (by rw [hnext]; simp only [Instr.size]; omega)
  case lda =>
    obtain ⟨a, ha, rfl⟩ := h
    simp only [ad a rfl ha]
    rw [← s3 rfl]
    rfl
  case sta =>
    obtain ⟨a, ha, h⟩ := h
    simp only [ad a rfl ha]
    unfold Src.write at h
    split at h
    · cases h
    · cases h
      rw [← s3 rfl]
      rfl
  case ldax => subst h; rw [← s1 rfl]; rfl
  case stax =>
    unfold Src.write at h
    split at h
    · cases h
    · cases h
      rw [← s1 rfl]
      rfl
  case jmp =>
    obtain ⟨i, hd, rfl⟩ := h
    simp only [ad _ rfl (dest_addr hd)]
    rfl
  case beq =>
    show (if s.fz = true then _ else _) = _
    split at h <;> rename_i hb
    · obtain ⟨i, hd, rfl⟩ := Option.map_eq_some_iff.1 h
      rw [if_pos hb]
      simp only [ad _ rfl (dest_addr hd)]
      rfl
    · cases h
      rw [if_neg hb, a2 rfl, ← s3 rfl]
      rfl
  case bc =>
    show (if s.fc = true then _ else _) = _
    split at h <;> rename_i hb
    · obtain ⟨i, hd, rfl⟩ := Option.map_eq_some_iff.1 h
      rw [if_pos hb]
      simp only [ad _ rfl (dest_addr hd)]
      rfl
    · cases h
      rw [if_neg hb, a2 rfl, ← s3 rfl]
      rfl
  case inisp =>
    obtain ⟨a, ha, rfl⟩ := h
    simp only [ad a rfl ha]
    rw [← s3 rfl]
    rfl
  case push =>
    obtain ⟨e, hp⟩ := sim_push (prog := prog) (errs := errs) (pc := BitVec.ofNat 16 (n + 1)) h _ rfl
    refine Eq.trans e ?_
    rw [← s1 rfl]
    unfold Src.machine
    rw [hp]
  case pop =>
    obtain ⟨x, h1, rfl⟩ := h
    obtain ⟨e1, e2, hp⟩ := sim_pop (prog := prog) (errs := errs) (pc := BitVec.ofNat 16 (n + 1)) h1 _ rfl
    have e3 : P.top { s.machine prog errs with pc := BitVec.ofNat 16 (n + 1) } = x.1 := e1
    have e4 : P.up { s.machine prog errs with pc := BitVec.ofNat 16 (n + 1) } =
        { x.2.machine prog errs with pc := BitVec.ofNat 16 (n + 1) } := e2
    simp only [e3, e4]
    rw [← s1 rfl]
    unfold Src.machine
    rw [hp]
  case call =>
    obtain ⟨i, hd, t1, h1, t2, h2, rfl⟩ := h
    simp only [ad _ rfl (dest_addr hd)]
    have hi8 : (BitVec.ofNat 16 (n + 3)).extractLsb' 8 8 = BitVec.ofNat 8 (place prog (s.pos + 1) / 256) := by
      rw [s3 rfl]
      apply BitVec.eq_of_toNat_eq
      have : n + 3 < 65536 := hlt
      simp only [BitVec.extractLsb'_toNat, BitVec.toNat_ofNat, Nat.shiftRight_eq_div_pow]
      omega
    have lo8 : (BitVec.ofNat 16 (n + 3)).extractLsb' 0 8 = BitVec.ofNat 8 (place prog (s.pos + 1)) := by
      rw [s3 rfl]
      apply BitVec.eq_of_toNat_eq
      simp only [BitVec.extractLsb'_toNat, BitVec.toNat_ofNat, Nat.shiftRight_zero]
      omega
    have dpc : ∀ q : P, q.down.pc = q.pc := fun q => by unfold P.down; split <;> rfl
    simp only [dpc]
    obtain ⟨e1, _⟩ := sim_push (prog := prog) (errs := errs) (pc := BitVec.ofNat 16 (n + 3)) h1 _ rfl
    have e1' : P.store (P.down { s.machine prog errs with pc := BitVec.ofNat 16 (n + 3) })
        (P.down { s.machine prog errs with pc := BitVec.ofNat 16 (n + 3) }).sp
        (BitVec.ofNat 8 (place prog (s.pos + 1) / 256)) = _ := e1
    rw [hi8, e1']
    obtain ⟨e2, _⟩ := sim_push (prog := prog) (errs := errs) (pc := BitVec.ofNat 16 (n + 3)) h2 _ rfl
    rw [lo8, e2]
    rfl
  case ret =>
    exact sim_back h _ rfl
  case iret =>
    obtain ⟨t, h1, g, h2, rfl⟩ := h
    generalize hq : { s.machine prog errs with pc := BitVec.ofNat 16 (n + 1) } = q
    have e1 := sim_back (errs := errs) h1 q hq.symm
    have e2 : q.up.up = { t.machine prog errs with pc := q.up.up.pc } := by rw [← e1]
    obtain ⟨e3, e4, e5⟩ := sim_pop (prog := prog) (errs := errs) h2 _ e2
    have e6 : q.up.top ++ q.top = BitVec.ofNat 16 (place prog t.pos) := congrArg P.pc e1
    show { q.up.up.up with pc := q.up.top ++ q.top, fc := q.up.up.top.getLsbD 7, fz := q.up.up.top.getLsbD 0 } = _
    rw [e3, e4, e6, ← e5]
    rfl
  case fin => cases h
  case inc dst =>
    subst h
    rw [← s1 rfl]
    rcases dst with ⟨_ | _ | _ | _⟩ | _ <;> rfl
  case cma => subst h; rw [← s1 rfl]; rfl
  case lfa =>
    subst h
    rw [← s1 rfl]
    show P.mk _ _ _ _ _ _ _ _ _ _ _ = P.mk _ _ _ _ _ _ _ _ _ _ _
    have : (if s.fc = true then (0x80 : BitVec 8) else 0) ||| (if s.fz = true then 1 else 0) =
        (if s.fc = true then 128 else 0) + (if s.fz = true then 1 else 0) := by
      cases s.fc <;> cases s.fz <;> decide
    exact congrArg (fun x => P.mk x _ _ _ _ _ _ _ _ _ _) this
  case sfa => subst h; rw [← s1 rfl]; rfl

end Mpp.Front
