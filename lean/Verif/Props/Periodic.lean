import Verif.Props.Machine
import Verif.Props.Cpu
import Verif.Loader
import Mathlib.Data.Fintype.Pigeonhole
import Mathlib.Data.Finite.Prod
/-!
# Property C88: a program that does not end comes back to a state it was in
-/
namespace Mpp

/-! ## A finite number of states -/

theorem finite_bitVec (n : Nat) : Finite (BitVec n) :=
  Finite.of_injective BitVec.toFin fun a b h => by cases a; cases b; cases h; rfl

def WType.index : WType → Fin 15
  | .acum => 0 | .fc => 1 | .fz => 2 | .b => 3 | .c => 4 | .d => 5 | .e => 6 | .h => 7 | .l => 8 | .op2 => 9
  | .pch => 10 | .pcl => 11 | .pc => 12 | .sp => 13 | .ri => 14

theorem finite_wtype : Finite WType :=
  Finite.of_injective WType.index fun x y h => by cases x <;> cases y <;> first | rfl | (exact absurd h (by decide))

/-- What can be seen of a machine. -/
def M.seen (m : M) : (WType → CInt) × (BitVec 16 → BitVec 8) × BitVec 6 := (m.v.reg, m.v.mem, m.s)

/-- In every infinite sequence of states two look the same. -/
theorem seen_twice (f : Nat → M) : ∃ i d, 0 < d ∧ (f i).seen = (f (i + d)).seen := by
  have := finite_bitVec 32
  have := finite_bitVec 16
  have := finite_bitVec 8
  have := finite_bitVec 6
  have := finite_wtype
  obtain ⟨i, j, ne, e⟩ := Finite.exists_ne_map_eq_of_infinite (fun k => (f k).seen)
  rcases Nat.lt_or_gt_of_ne ne with h | h
  · exact ⟨i, j - i, by omega, by rw [show i + (j - i) = j by omega]; exact e⟩
  · exact ⟨j, i - j, by omega, by rw [show j + (i - j) = i by omega]; exact e.symm⟩

/-! ## What is seen next depends on what is seen -/

theorem V.incPc_log (v : V) (l : List Err) : ∃ l', ({ v with log := l } : V).incPc = { v.incPc with log := l' } := by
  unfold V.incPc
  by_cases h : v.pc = 0xFFFF
  · rw [if_pos h, if_pos h]; exact ⟨_, rfl⟩
  · rw [if_neg h, if_neg h]; exact ⟨_, rfl⟩

theorem V.decSp_log (v : V) (l : List Err) : ∃ l', ({ v with log := l } : V).decSp = { v.decSp with log := l' } := by
  unfold V.decSp
  by_cases h : v.sp = 0
  · rw [if_pos h, if_pos h]; exact ⟨_, rfl⟩
  · rw [if_neg h, if_neg h]; exact ⟨_, rfl⟩

theorem V.incSp_log (v : V) (l : List Err) : ∃ l', ({ v with log := l } : V).incSp = { v.incSp with log := l' } := by
  unfold V.incSp
  by_cases h : v.sp = 0xFFFF
  · rw [if_pos h, if_pos h]; exact ⟨_, rfl⟩
  · rw [if_neg h, if_neg h]; exact ⟨_, rfl⟩

theorem V.setR_log (v : V) (l : List Err) (i : BitVec 2) (x : BitVec 8) :
    ({ v with log := l } : V).setR i x = { v.setR i x with log := l } := by
  unfold V.setR
  split <;> rfl

theorem V.rtl_log (v : V) (l : List Err) (k : Nat) :
    ∃ l', ({ v with log := l } : V).rtl k = { v.rtl k with log := l' } := by
  unfold V.rtl
  split <;> first
    | exact V.incPc_log { v with ri := v.mem v.pc } l
    | exact V.incPc_log { v with op2 := v.mem v.pc } l
    | exact V.incPc_log { v with h := v.mem v.pc } l
    | exact V.incPc_log { v with l := v.mem v.pc } l
    | exact V.decSp_log _ _
    | exact V.incSp_log _ _
    | exact ⟨_, V.setR_log _ _ _ _⟩
    | exact ⟨_, rfl⟩

theorem M.seen_step {m n : M} (h : m.seen = n.seen) : m.step.seen = n.step.seen := by
  obtain ⟨v, s⟩ := m
  obtain ⟨w, t⟩ := n
  have h1 : v.reg = w.reg := congrArg (·.1) h
  have h2 : v.mem = w.mem := congrArg (·.2.1) h
  have h3 : s = t := congrArg (·.2.2) h
  cases h3
  have e : ({ v with log := w.log } : V) = w :=
    reg_inj (fun t => (show _ = v.reg t by cases t <;> rfl).trans (congrFun h1 t)) h2 rfl
  obtain ⟨l, e2⟩ := V.rtl_log v w.log s.toNat
  rw [← e]
  unfold M.seen M.step
  rw [e2]
  rfl

theorem M.seen_steps {m n : M} (h : m.seen = n.seen) (k : Nat) : (M.steps k m).seen = (M.steps k n).seen := by
  induction k generalizing m n with
  | zero => exact h
  | succ k ih => exact ih (M.seen_step h)

theorem M.steps_add (m : M) (i k : Nat) : M.steps (i + k) m = M.steps k (M.steps i m) := by
  induction i generalizing m with
  | zero => rw [Nat.zero_add]; rfl
  | succ i ih => rw [Nat.succ_add]; exact ih m.step

theorem At.looks {h1 h2 : H} {m n : M} (t1 : At h1 m) (t2 : At h2 n) (e : m.seen = n.seen) : LooksLike h1 h2 := by
  have e1 : m.v.reg = n.v.reg := congrArg (·.1) e
  have e2 : m.v.mem = n.v.mem := congrArg (·.2.1) e
  have e3 : m.s = n.s := congrArg (·.2.2) e
  refine ⟨fun t v h => ?_, fun i x h => ?_, fun x h => ?_⟩
  · rw [← some_inj ((t1.reg t).symm.trans h), congrFun e1 t]
    exact t2.reg t
  · have := some_inj ((t1.mem i).symm.trans h)
    rw [e2] at this
    exact (t2.mem i).trans (congrArg (fun x => some (x, h2)) this)
  · have := some_inj (t1.next.symm.trans h)
    rw [e3] at this
    exact t2.next.trans (congrArg (fun x => some (x, h2)) this)

theorem At.seen_of_looks {h1 h2 : H} {m n : M} (t1 : At h1 m) (t2 : At h2 n) (e : LooksLike h1 h2) :
    m.seen = n.seen := by
  have e1 : m.v.reg = n.v.reg := funext fun t => some_inj ((e.reg t _ (t1.reg t)).symm.trans (t2.reg t))
  have e2 : m.v.mem = n.v.mem :=
    funext fun i => widen8_inj (some_inj ((e.cell i _ (t1.mem i)).symm.trans (t2.mem i)))
  have e3 : m.s = n.s := widen6_inj (some_inj ((e.next _ t1.next).symm.trans t2.next))
  unfold M.seen
  rw [e1, e2, e3]

/-! ## C88 -/

/-- **C88.** Clock cycle after clock cycle, the machine is at last periodic: from some cycle on it looks as it looked
`d` cycles before, in all registers, flags and cells and in the microstate. -/
theorem C88_periodic {p : Phase} {h : H} (r : Reach p h) (on : p.on = true) (u : Bool) (hu : u = true → p.ui = true) :
    ∃ i d, 0 < d ∧ ∀ k, i ≤ k → ∃ h1 h2, cycles u k h = some h1 ∧ cycles u (k + d) h = some h2 ∧ LooksLike h1 h2 := by
  obtain ⟨m, t⟩ := r.at on
  obtain ⟨i, d, hd, e⟩ := seen_twice (fun k => M.steps k m)
  refine ⟨i, d, hd, fun k hk => ?_⟩
  have hu' : u = true → h.ui = true := fun e => r.inv.ui.trans (hu e)
  obtain ⟨h1, c1, t1, _⟩ := t.cycles u hu' k
  obtain ⟨h2, c2, t2, _⟩ := t.cycles u hu' (k + d)
  refine ⟨h1, h2, c1, c2, t1.looks t2 ?_⟩
  obtain ⟨j, rfl⟩ := Nat.exists_eq_add_of_le hk
  rw [show i + j + d = i + d + j by omega, M.steps_add, M.steps_add m (i + d)]
  exact M.seen_steps e j

theorem NoFin.trans {u : Bool} {a b : Nat} {h h1 h2 : H} (x : NoFin u a h h1) (y : NoFin u b h1 h2) :
    NoFin u (a + b) h h2 := by
  induction x with
  | none => rw [Nat.zero_add]; exact y
  | step before ne first _ ih => rw [Nat.add_assoc]; exact .step before ne first (ih y)

theorem NoFin.ready {u : Bool} {n : Nat} {h h1 : H} {p : P} (a : NoFin u n h h1) (r : Ready h p) :
    ∃ q, Ready h1 q := by
  induction a generalizing p with
  | none => exact ⟨p, r⟩
  | step before _ first _ ih =>
    obtain ⟨v, t, _⟩ := before.at
    obtain ⟨g, e, _, r1⟩ := before.run t u
    obtain ⟨_, rfl⟩ := first.det e
    exact ih r1

/-- Two runs without FIN from the same state, the second up to a FIN: it goes through the end of the first. -/
theorem NoFin.through {u : Bool} {n k : Nat} {h h1 h2 : H} {p : P} (a : NoFin u n h h1) (b : NoFin u k h h2)
    (r : Ready h2 p) (f : p.mem p.pc = 0xFF) : ∃ j, NoFin u j h1 h2 ∧ n + j = k := by
  induction a generalizing k with
  | none => exact ⟨k, b, Nat.zero_add k⟩
  | step before ne first _ ih =>
    cases b with
    | none => cases before.unique r; exact absurd f ne
    | step _ _ first' rest' =>
      obtain ⟨rfl, rfl⟩ := first.det first'
      obtain ⟨j, e1, e2⟩ := ih rest'
      exact ⟨j, e1, by omega⟩

/-- Run-program cannot tell apart two machines that look the same. -/
theorem ProgramLoop.same {u b : Bool} {n : Nat} {h h' k : H} {m1 m2 : M} (l : ProgramLoop u b n h h') (t1 : At h m1)
    (t2 : At k m2) (e : m1.seen = m2.seen) (hu1 : u = true → h.ui = true) (hu2 : u = true → k.ui = true) :
    ∃ k', ProgramLoop u b n k k' := by
  induction l generalizing k m1 m2 with
  | stop run =>
    obtain ⟨k1, c, _⟩ := t2.cycle u hu2
    exact ⟨k1, .stop c⟩
  | more run ri max rest ih =>
    obtain ⟨h1, c1, d1, u1⟩ := t1.cycle u hu1
    obtain ⟨k1, c2, d2, u2⟩ := t2.cycle u hu2
    rw [run] at c1
    cases c1
    have e' := M.seen_step e
    obtain ⟨k', l'⟩ := ih d1 d2 e' (by rw [u1]; exact hu1) (by rw [u2]; exact hu2)
    have x1 := some_inj ((d1.reg .ri).symm.trans ri)
    have x2 : m1.step.v.reg .ri = m2.step.v.reg .ri := congrFun (congrArg (·.1) e') WType.ri
    cases max
    exact ⟨k', .more c2 ((d2.reg .ri).trans (by rw [← x2, x1])) rfl l'⟩

/-- **C88.** If run-program comes back to a state that looks like an earlier one, it never ends. -/
theorem C88_never_ends {u : Bool} {i n : Nat} {h h1 h2 : H} {p : P} (start : Ready h p)
    (before : NoFin u i h h1) (round : NoFin u n h1 h2) (hn : 0 < n) (e : LooksLike h1 h2) :
    ¬ ∃ k h', RunProgram u k h h' := by
  rintro ⟨k, h', run⟩
  obtain ⟨j, hf, pf, a, rf, f, rfl⟩ := C18_only_at_fin u h h' k p start run
  obtain ⟨j1, b, _⟩ := before.through a rf f
  obtain ⟨j2, c, hj⟩ := round.through b rf f
  obtain ⟨g1, s1, _⟩ := C18_stops u h1 hf j1 pf b rf f
  obtain ⟨g2, s2, _⟩ := C18_stops u h2 hf j2 pf c rf f
  obtain ⟨p1, r1⟩ := before.ready start
  obtain ⟨p2, r2⟩ := round.ready r1
  obtain ⟨v1, t1, _⟩ := r1.at
  obtain ⟨v2, t2, _⟩ := r2.at
  obtain ⟨g3, s3⟩ := s2.same t2 t1 (t1.seen_of_looks t2 e).symm (fun _ => r2.ui) (fun _ => r1.ui)
  have := (C18_deterministic u h1 _ _ _ _ s1 s3).1
  omega

/-- The whole memory holds LFA and PC is FFFF, where it stays: the second round looks like the first. -/
example : ∃ h p h1 h2 i n, Ready h p ∧ NoFin false i h h1 ∧ NoFin false n h1 h2 ∧ 0 < n ∧ LooksLike h1 h2 := by
  obtain ⟨h, r⟩ := ready_all ⟨0, 2, 3, 4, 5, 0xFFFF, 0x8000, true, true, fun _ => 0x81, []⟩ rfl
  obtain ⟨v, t, ev⟩ := r.at
  have hq : ∀ a b, pathOf 0x81 a b = [1, 23] := by decide +kernel
  have hm : v.mem = fun _ => 0x81 := congrArg P.mem ev
  have hpc : v.pc = 0xFFFF := congrArg P.pc ev
  obtain ⟨h1, e1, t1, r1⟩ := r.run t false
  rw [hm, hq] at e1 t1 r1
  have hm1 : (v.follow [0, 1, 23]).mem = fun _ => 0x81 := by
    obtain ⟨ac, b, c, d, e', rh, rl, op2, pch, pcl, ri, pc, sp, fc, fz, mem, log⟩ := v
    cases hm; cases hpc
    rfl
  obtain ⟨h2, e2, t2, r2⟩ := r1.run t1 false
  rw [hm1, hq] at e2 t2 r2
  have n1 := show (0x81 : BitVec 8) ≠ 0xFF by decide
  have n2 : (v.follow [0, 1, 23]).prog.mem (v.follow [0, 1, 23]).prog.pc ≠ 0xFF := (congrFun hm1 _).trans_ne n1
  refine ⟨h, _, h1, h2, _, _, r, .step r n1 e1 .none, .step r1 n2 e2 .none,
    Nat.add_pos_left (Nat.succ_pos _) _, t1.looks t2 ?_⟩
  obtain ⟨ac, b, c, d, e', rh, rl, op2, pch, pcl, ri, pc, sp, fc, fz, mem, log⟩ := v
  cases hm; cases hpc
  rfl

/-- The states between two instructions from which run-program does not end. -/
def Endless (u : Bool) (h : H) : Prop := (∃ p, Ready h p) ∧ ¬ ∃ k h', RunProgram u k h h'

theorem Endless.next {u : Bool} {h : H} (x : Endless u h) : ∃ h1 n, 0 < n ∧ NoFin u n h h1 ∧ Endless u h1 := by
  obtain ⟨⟨p, r⟩, never⟩ := x
  have nf : p.mem p.pc ≠ 0xFF := by
    intro f
    obtain ⟨h', s, _⟩ := C18_stops u h h 0 p .none r f
    exact never ⟨_, h', s⟩
  obtain ⟨v, t, _⟩ := r.at
  obtain ⟨h1, e, _, r1⟩ := r.run t u
  have a : NoFin u _ h h1 := .step r nf e .none
  refine ⟨h1, _, by omega, a, ⟨_, r1⟩, ?_⟩
  rintro ⟨k, h', run⟩
  obtain ⟨j, hf, pf, b, rf, f, rfl⟩ := C18_only_at_fin u h1 h' k _ r1 run
  obtain ⟨g, s, _⟩ := C18_stops u h hf _ pf (a.trans b) rf f
  exact never ⟨_, g, s⟩

/-- **C88.** Run-program ends or comes back to a state that looks like an earlier one, one and only one of the two. -/
theorem C88_ends_or_repeats (u : Bool) {h : H} {p : P} (r : Ready h p) :
    (¬ ∃ k h', RunProgram u k h h') ↔
      ∃ i n h1 h2, 0 < n ∧ NoFin u i h h1 ∧ NoFin u n h1 h2 ∧ LooksLike h1 h2 := by
  refine ⟨fun never => ?_, fun ⟨i, n, h1, h2, hn, a, b, e⟩ => C88_never_ends r a b hn e⟩
  let next : { x // Endless u x } → { x // Endless u x } := fun x =>
    ⟨Classical.choose x.2.next, (Classical.choose_spec x.2.next).choose_spec.2.2⟩
  have next_spec : ∀ x, ∃ n, 0 < n ∧ NoFin u n x.1 (next x).1 := fun x =>
    ⟨_, (Classical.choose_spec x.2.next).choose_spec.1, (Classical.choose_spec x.2.next).choose_spec.2.1⟩
  let f : Nat → { x // Endless u x } := fun k => k.rec ⟨h, ⟨p, r⟩, never⟩ fun _ x => next x
  have path : ∀ i d, ∃ n, d ≤ n ∧ NoFin u n (f i).1 (f (i + d)).1 := by
    intro i d
    induction d with
    | zero => exact ⟨0, Nat.le_refl 0, .none⟩
    | succ d ih =>
      obtain ⟨n, hn, a⟩ := ih
      obtain ⟨n', hn', b⟩ := next_spec (f (i + d))
      exact ⟨n + n', by omega, a.trans b⟩
  have at_ : ∀ k, ∃ m, At (f k).1 m := fun k => by
    obtain ⟨q, rq⟩ := (f k).2.1
    obtain ⟨v, t, _⟩ := rq.at
    exact ⟨_, t⟩
  obtain ⟨i, d, hd, e⟩ := seen_twice (fun k => Classical.choose (at_ k))
  obtain ⟨n1, _, a⟩ := path 0 i
  obtain ⟨n2, hn2, b⟩ := path i d
  rw [Nat.zero_add] at a
  exact ⟨n1, n2, _, _, by omega, a, b,
    At.looks (Classical.choose_spec (at_ i)) (Classical.choose_spec (at_ (i + d))) e⟩

end Mpp
