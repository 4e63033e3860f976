import Verif.Props.Docs
/-!
# Property C86: a function that calls itself

`docs/src/pages/es/examples/malicious-function.mdx:67-85` explains why the malicious function does not simply call
itself: the stack grows "until we run out of memory or, worse, the stack overwrites our instructions in memory". The
instruction is `CALL a` at the address `a`; nothing else is said of the machine.
-/
namespace Mpp.Front

/-- The cells of the stack after `n` calls from below `s`: each pair is the return address, high byte above. -/
def PushedPairs (m : BitVec 16 → BitVec 8) (s n : Nat) (ret : BitVec 16) : Prop :=
  ∀ j, j < n → m (BitVec.ofNat 16 (s - 2 * j - 1)) ++ m (BitVec.ofNat 16 (s - 2 * j - 2)) = ret

theorem bytes_join (a : BitVec 16) : a.extractLsb' 8 8 ++ a.extractLsb' 0 8 = a := by
  apply BitVec.eq_of_getLsbD_eq
  intro i hi
  rw [BitVec.getLsbD_append]
  by_cases h : i < 8
  · simp [h]
  · rw [if_neg h, BitVec.getLsbD_extractLsb']
    have : i - 8 < 8 := by omega
    simp only [this, decide_true, Bool.true_and]
    congr 1
    omega

theorem calls_itself {ac b c d e : BitVec 8} {fc fz : Bool} {errs : List Err} {m : BitVec 16 → BitVec 8} {a s : Nat}
    (hs : s < 65536) (ho : m (BitVec.ofNat 16 a) = 0xC4#8)
    (ht : m (BitVec.ofNat 16 (a + 1)) ++ m (BitVec.ofNat 16 (a + 2)) = BitVec.ofNat 16 a) (n : Nat)
    (hn : a + 3 + 2 * n ≤ s) :
    ∃ m', P.run n ⟨ac, b, c, d, e, BitVec.ofNat 16 a, BitVec.ofNat 16 s, fc, fz, m, errs⟩ =
        some ⟨ac, b, c, d, e, BitVec.ofNat 16 a, BitVec.ofNat 16 (s - 2 * n), fc, fz, m', errs⟩ ∧
      PushedPairs m' s n (BitVec.ofNat 16 (a + 3)) ∧
      ∀ i : BitVec 16, i.toNat < s - 2 * n ∨ s ≤ i.toNat → m' i = m i := by
  induction n with
  | zero => exact ⟨m, rfl, fun _ h => absurd h (Nat.not_lt_zero _), fun _ _ => rfl⟩
  | succ n ih =>
    obtain ⟨m', e1, e2, e3⟩ := ih (by omega)
    obtain ⟨k, hk⟩ : ∃ k, s - 2 * n = k + 2 := ⟨s - 2 * n - 2, by omega⟩
    have small : ∀ i, i ≤ a + 2 → m' (BitVec.ofNat 16 i) = m (BitVec.ofNat 16 i) := fun i hi =>
      e3 _ (.inl (by rw [BitVec.toNat_ofNat]; omega))
    refine ⟨put (put m' (k + 1) ((BitVec.ofNat 16 (a + 3)).extractLsb' 8 8)) k
      ((BitVec.ofNat 16 (a + 3)).extractLsb' 0 8), ?_, ?_, ?_⟩
    · rw [P.run_add, e1]
      show P.run 1 _ = _
      rw [hk, P.run, step_call a ((small a (by omega)).trans ho) (small _ (by omega)) (small _ (by omega)) (by omega)
        (by omega), ht]
      show some _ = some _
      rw [show s - 2 * (n + 1) = k by omega]
    · intro j hj
      by_cases h : j = n
      · subst h
        rw [show s - 2 * j - 1 = k + 1 by omega, show s - 2 * j - 2 = k by omega, put_same,
          put_other _ _ (by omega) (by omega) (by omega), put_same]
        exact bytes_join _
      · rw [put_other _ _ (by omega) (by omega) (by omega), put_other _ _ (by omega) (by omega) (by omega),
          put_other _ _ (by omega) (by omega) (by omega), put_other _ _ (by omega) (by omega) (by omega)]
        exact e2 j (by omega)
    · intro i hi
      rw [put_ne _ _ (by omega) (by omega), put_ne _ _ (by omega) (by omega)]
      exact e3 i (by omega)

theorem toNat_pair (x y : BitVec 8) : (x ++ y : BitVec 16).toNat = x.toNat * 256 + y.toNat := by
  rw [BitVec.toNat_append, ← Nat.shiftLeft_add_eq_or_of_lt y.isLt, Nat.shiftLeft_eq]

theorem toNat_low (a : Nat) : ((BitVec.ofNat 16 a).extractLsb' 0 8).toNat = a % 256 := by
  rw [BitVec.extractLsb'_toNat, BitVec.toNat_ofNat, Nat.shiftRight_zero]
  omega

theorem toNat_high (a : Nat) (h : a < 65536) : ((BitVec.ofNat 16 a).extractLsb' 8 8).toNat = a / 256 := by
  rw [BitVec.extractLsb'_toNat, BitVec.toNat_ofNat, Nat.shiftRight_eq_div_pow]
  omega

/-- The call after the last one for which there is room. -/
theorem calls_into_code {ac b c d e : BitVec 8} {fc fz : Bool} {errs : List Err} {m : BitVec 16 → BitVec 8} {a s : Nat}
    (hs : s < 65536) (ho : m (BitVec.ofNat 16 a) = 0xC4#8)
    (ht : m (BitVec.ofNat 16 (a + 1)) ++ m (BitVec.ofNat 16 (a + 2)) = BitVec.ofNat 16 a) (hn : a + 3 ≤ s) :
    ∃ m' sp', P.run ((s - (a + 3)) / 2 + 1) ⟨ac, b, c, d, e, BitVec.ofNat 16 a, BitVec.ofNat 16 s, fc, fz, m, errs⟩ =
        some ⟨ac, b, c, d, e, BitVec.ofNat 16 a, sp', fc, fz, m', errs⟩ ∧
      m' (BitVec.ofNat 16 (a + 1)) ++ m' (BitVec.ofNat 16 (a + 2)) ≠ BitVec.ofNat 16 a ∧
      ∀ i : BitVec 16, i.toNat ≤ a ∨ s ≤ i.toNat → m' i = m i := by
  obtain ⟨m', e1, -, e3⟩ := calls_itself (ac := ac) (b := b) (c := c) (d := d) (e := e) (fc := fc) (fz := fz)
    (errs := errs) hs ho ht ((s - (a + 3)) / 2) (by omega)
  obtain ⟨k, hk⟩ : ∃ k, s - 2 * ((s - (a + 3)) / 2) = k + 2 := ⟨s - 2 * ((s - (a + 3)) / 2) - 2, by omega⟩
  have hk' : k = a + 1 ∨ k = a + 2 := by omega
  have small : ∀ i, i ≤ a + 2 → m' (BitVec.ofNat 16 i) = m (BitVec.ofNat 16 i) := fun i hi =>
    e3 _ (.inl (by rw [BitVec.toNat_ofNat]; omega))
  refine ⟨put (put m' (k + 1) ((BitVec.ofNat 16 (a + 3)).extractLsb' 8 8)) k
      ((BitVec.ofNat 16 (a + 3)).extractLsb' 0 8), BitVec.ofNat 16 k, ?_, ?_, ?_⟩
  · rw [P.run_add, e1]
    show P.run 1 _ = _
    rw [hk, P.run, step_call a ((small a (by omega)).trans ho) (small _ (by omega)) (small _ (by omega)) (by omega)
      (by omega), ht]
    rfl
  · intro h
    have := congrArg BitVec.toNat h
    have ht' := congrArg BitVec.toNat ht
    rw [toNat_pair, BitVec.toNat_ofNat] at this ht'
    rcases hk' with rfl | rfl
    · rw [put_same, put_other _ _ (by omega) (by omega) (by omega), put_same, toNat_low,
        toNat_high _ (by omega)] at this
      omega
    · rw [put_same, put_other _ _ (by omega) (by omega) (by omega), put_other _ _ (by omega) (by omega) (by omega),
        small _ (by omega), toNat_low] at this
      omega
  · intro i hi
    rw [put_ne _ _ (by omega) (by omega), put_ne _ _ (by omega) (by omega)]
    exact e3 i (by omega)

/-! ## C86 -/

section
variable (h : H) (p : P) (r : Ready h p) (op : p.mem p.pc = 0xC4)
  (own : p.mem (p.pc + 1) ++ p.mem (p.pc + 2) = p.pc) (room : p.pc.toNat + 3 ≤ p.sp.toNat) (u : Bool)
include r op own room

/-- **C86.** A function that begins by calling itself: after `n` instructions, for every `n` for which the stack does
not reach the program, SP is lower by `2 * n`, the stack holds the same return address `n` times, and nothing else is
different. -/
theorem C86_grows (n : Nat) (fits : p.pc.toNat + 3 + 2 * n ≤ p.sp.toNat) :
    ∃ h' m, RunInstructions u n h h' ∧ Ready h' { p with sp := p.sp - BitVec.ofNat 16 (2 * n), mem := m } ∧
      (∀ j, j < n → m (p.sp - BitVec.ofNat 16 (2 * j + 1)) ++ m (p.sp - BitVec.ofNat 16 (2 * j + 2)) = p.pc + 3) ∧
      ∀ i : BitVec 16, i.toNat + 2 * n < p.sp.toNat ∨ p.sp.toNat ≤ i.toNat → m i = p.mem i := by
  obtain ⟨ac, b, c, d, e, pc, sp, fc, fz, m, errs⟩ := p
  change m pc = 0xC4#8 at op
  change m (pc + 1) ++ m (pc + 2) = pc at own
  change pc.toNat + 3 + 2 * n ≤ sp.toNat at fits
  have hpc : pc = BitVec.ofNat 16 pc.toNat := by rw [BitVec.ofNat_toNat, BitVec.setWidth_eq]
  have hsp : sp = BitVec.ofNat 16 sp.toNat := by rw [BitVec.ofNat_toNat, BitVec.setWidth_eq]
  have p1 : pc + 1 = BitVec.ofNat 16 (pc.toNat + 1) := by
    apply BitVec.eq_of_toNat_eq; rw [BitVec.toNat_add, BitVec.toNat_ofNat]; rfl
  have p2 : pc + 2 = BitVec.ofNat 16 (pc.toNat + 2) := by
    apply BitVec.eq_of_toNat_eq; rw [BitVec.toNat_add, BitVec.toNat_ofNat]; rfl
  have p3 : pc + 3 = BitVec.ofNat 16 (pc.toNat + 3) := by
    apply BitVec.eq_of_toNat_eq; rw [BitVec.toNat_add, BitVec.toNat_ofNat]; rfl
  have lower : ∀ j, j ≤ sp.toNat → sp - BitVec.ofNat 16 j = BitVec.ofNat 16 (sp.toNat - j) := by
    intro j hj
    apply BitVec.eq_of_toNat_eq
    rw [BitVec.toNat_sub, BitVec.toNat_ofNat, BitVec.toNat_ofNat]
    have := sp.isLt
    omega
  rw [p1, p2] at own
  obtain ⟨m', e1, e2, e3⟩ := calls_itself (ac := ac) (b := b) (c := c) (d := d) (e := e) (fc := fc) (fz := fz)
    (errs := errs) sp.isLt (hpc ▸ op) (own.trans hpc) n fits
  rw [← hpc, ← hsp, ← lower _ (by omega)] at e1
  obtain ⟨h', ri, r'⟩ := Ready.instructions (u := u) r n e1
  refine ⟨h', m', ri, r', fun j hj => ?_, fun i hi => e3 i ?_⟩
  · show m' (sp - _) ++ m' (sp - _) = pc + 3
    rw [lower _ (by omega), lower _ (by omega), p3]
    exact e2 j hj
  · change i.toNat + 2 * n < sp.toNat ∨ sp.toNat ≤ i.toNat at hi
    omega

/-- **C86.** One call more, and the stack has overwritten the operand of the CALL: the machine is about to execute it
again, and it no longer calls the function. -/
theorem C86_overwrites :
    ∃ h' q, RunInstructions u ((p.sp.toNat - (p.pc.toNat + 3)) / 2 + 1) h h' ∧ Ready h' q ∧ q.pc = p.pc ∧
      q.mem p.pc = 0xC4 ∧ q.mem (p.pc + 1) ++ q.mem (p.pc + 2) ≠ p.pc ∧
      ∀ i : BitVec 16, i.toNat ≤ p.pc.toNat ∨ p.sp.toNat ≤ i.toNat → q.mem i = p.mem i := by
  obtain ⟨ac, b, c, d, e, pc, sp, fc, fz, m, errs⟩ := p
  change m pc = 0xC4#8 at op
  change m (pc + 1) ++ m (pc + 2) = pc at own
  change pc.toNat + 3 ≤ sp.toNat at room
  have hpc : pc = BitVec.ofNat 16 pc.toNat := by rw [BitVec.ofNat_toNat, BitVec.setWidth_eq]
  have hsp : sp = BitVec.ofNat 16 sp.toNat := by rw [BitVec.ofNat_toNat, BitVec.setWidth_eq]
  have p1 : pc + 1 = BitVec.ofNat 16 (pc.toNat + 1) := by
    apply BitVec.eq_of_toNat_eq; rw [BitVec.toNat_add, BitVec.toNat_ofNat]; rfl
  have p2 : pc + 2 = BitVec.ofNat 16 (pc.toNat + 2) := by
    apply BitVec.eq_of_toNat_eq; rw [BitVec.toNat_add, BitVec.toNat_ofNat]; rfl
  rw [p1, p2] at own
  obtain ⟨m', sp', e1, e2, e3⟩ := calls_into_code (ac := ac) (b := b) (c := c) (d := d) (e := e) (fc := fc) (fz := fz)
    (errs := errs) sp.isLt (hpc ▸ op) (own.trans hpc) room
  rw [← hpc, ← hsp] at e1
  rw [← p1, ← p2, ← hpc] at e2
  obtain ⟨h', ri, r'⟩ := Ready.instructions (u := u) r _ e1
  exact ⟨h', _, ri, r', rfl, (e3 pc (.inl (Nat.le_refl _))).trans op, e2, e3⟩

end

/-- The function of the page, without its body, at 0x1234, with the stack at 0xEEEE; there is room for 28251 calls. -/
example : ∃ h p, Ready h p ∧ p.mem p.pc = 0xC4 ∧ p.mem (p.pc + 1) ++ p.mem (p.pc + 2) = p.pc ∧
    p.pc.toNat + 3 ≤ p.sp.toNat ∧ p.pc.toNat + 3 + 2 * 28251 ≤ p.sp.toNat ∧
    (p.sp.toNat - (p.pc.toNat + 3)) / 2 = 28251 := by
  obtain ⟨h, r⟩ := ready_all ⟨0, 0, 0, 0, 0, 0x1234, 0xEEEE, false, false,
    fun i => if i = 0x1234 then 0xC4 else if i = 0x1235 then 0x12 else if i = 0x1236 then 0x34 else 0, []⟩ rfl
  exact ⟨h, _, r, rfl, rfl, by decide, by decide, by decide⟩

end Mpp.Front
