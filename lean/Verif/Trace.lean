import Verif.Machine
import Verif.Isa
/-!
# The machine at the level of microstates

A visible state together with the next microstate, and the paths through the microprogram.
-/
namespace Mpp

/-- Visible state and next microstate. -/
structure M where
  v : V
  s : BitVec 6

/-- One clock cycle. -/
def M.step (m : M) : M := ⟨m.v.rtl m.s.toNat, A.nextOf m.s m.v.ri m.v.fc m.v.fz⟩

def M.steps : Nat → M → M
  | 0, m => m
  | n + 1, m => M.steps n m.step

/-! ## Only S17 looks at the flags -/

theorem flag_rows : ∀ r ∈ tt, (r.1.drop 14 = [none, none]) ∨
    r.1.take 6 = [some false, some true, some false, some false, some false, some true] := by
  decide +kernel

theorem len_rows : ∀ r ∈ tt, r.1.length = 16 := by decide +kernel

theorem fits_append (cs ds : List (Option Bool)) (bs es : List Bool) (h : cs.length = bs.length) :
    fits (cs ++ ds) (bs ++ es) = (fits cs bs && fits ds es) := by
  induction cs generalizing bs with
  | nil =>
    cases bs with
    | nil => simp [fits]
    | cons _ _ => cases h
  | cons c cs ih =>
    cases bs with
    | nil => cases h
    | cons b bs =>
      simp only [List.cons_append, fits, ih bs (by simpa using h), Bool.and_assoc]

theorem state17 (s : BitVec 6) (h : fits [some false, some true, some false, some false, some false, some true]
    [s.getLsbD 5, s.getLsbD 4, s.getLsbD 3, s.getLsbD 2, s.getLsbD 1, s.getLsbD 0] = true) :
    s = 17 := by
  revert s; decide +kernel

theorem seqIn_split (s : BitVec 6) (ri : BitVec 8) (fc fz : Bool) :
    seqIn s ri fc fz = (seqIn s ri fc fz).take 14 ++ [fz, fc] := rfl

theorem seqIn_head (s : BitVec 6) (ri : BitVec 8) (fc fz fc' fz' : Bool) :
    (seqIn s ri fc fz).take 14 = (seqIn s ri fc' fz').take 14 := rfl

theorem fits_flags (s : BitVec 6) (ri : BitVec 8) (fc fz fc' fz' : Bool) (hs : s ≠ 17)
    (r : List (Option Bool) × BitVec 6) (hr : r ∈ tt) :
    fits r.1 (seqIn s ri fc fz) = fits r.1 (seqIn s ri fc' fz') := by
  rcases flag_rows r hr with h | h
  · have hl : (r.1.take 14).length = 14 := by simp [len_rows r hr]
    rw [← List.take_append_drop 14 r.1, h, seqIn_split s ri fc fz, seqIn_split s ri fc' fz',
      fits_append _ _ _ _ (by rw [hl]; rfl), fits_append _ _ _ _ (by rw [hl]; rfl)]
    rfl
  · have key : ∀ fc fz, fits r.1 (seqIn s ri fc fz) = false := by
      intro fc fz
      cases e : fits r.1 (seqIn s ri fc fz) with
      | false => rfl
      | true =>
        have := fits_take _ _ 6 e
        rw [h] at this
        exact absurd (state17 s this) hs
    rw [key, key]

/-- The next microstate depends on the flags in S17 only. -/
theorem next_flags (s : BitVec 6) (ri : BitVec 8) (fc fz fc' fz' : Bool) (hs : s ≠ 17) :
    A.nextOf s ri fc fz = A.nextOf s ri fc' fz' := by
  rw [nextOf_eq, nextOf_eq]
  unfold ttNext
  have : ∀ l : List (List (Option Bool) × BitVec 6), (∀ r ∈ l, r ∈ tt) →
      l.find? (fun r => fits r.1 (seqIn s ri fc fz)) =
        l.find? (fun r => fits r.1 (seqIn s ri fc' fz')) := by
    intro l
    induction l with
    | nil => intro _; rfl
    | cons r l ih =>
      intro hl
      rw [List.find?_cons, List.find?_cons, fits_flags s ri fc fz fc' fz' hs r (hl r (by simp)),
        ih fun r' hr' => hl r' (by simp [hr'])]
  rw [this tt fun _ h => h]

/-! ## Where S1, S16 and S17 come from -/

theorem src_rows : ∀ r ∈ tt,
    (r.2 = 1 → r.1.take 6 = [some false, some false, some false, some false, some false, some false]) ∧
    (r.2 = 16 → r.1.take 6 = [some false, some false, some false, some false, some false, some true]) ∧
    (r.2 = 17 → r.1.take 6 = [some false, some true, some false, some false, some false, some false]) := by
  decide +kernel

theorem state0 (s : BitVec 6) (h : fits [some false, some false, some false, some false, some false, some false]
    [s.getLsbD 5, s.getLsbD 4, s.getLsbD 3, s.getLsbD 2, s.getLsbD 1, s.getLsbD 0] = true) :
    s = 0 := by
  revert s; decide +kernel

theorem state1 (s : BitVec 6) (h : fits [some false, some false, some false, some false, some false, some true]
    [s.getLsbD 5, s.getLsbD 4, s.getLsbD 3, s.getLsbD 2, s.getLsbD 1, s.getLsbD 0] = true) :
    s = 1 := by
  revert s; decide +kernel

theorem state16 (s : BitVec 6) (h : fits [some false, some true, some false, some false, some false, some false]
    [s.getLsbD 5, s.getLsbD 4, s.getLsbD 3, s.getLsbD 2, s.getLsbD 1, s.getLsbD 0] = true) :
    s = 16 := by
  revert s; decide +kernel

theorem next_src (s : BitVec 6) (ri : BitVec 8) (fc fz : Bool) :
    (A.nextOf s ri fc fz = 1 → s = 0) ∧ (A.nextOf s ri fc fz = 16 → s = 1) ∧
      (A.nextOf s ri fc fz = 17 → s = 16) := by
  rw [nextOf_eq]
  rcases ttNext_mem (seqIn s ri fc fz) with e | ⟨r, hr, hf, e⟩
  · rw [e]; exact ⟨fun h => absurd h (by decide), fun h => absurd h (by decide),
      fun h => absurd h (by decide)⟩
  · rw [e]
    obtain ⟨h1, h2, h3⟩ := src_rows r hr
    have ht := fits_take _ _ 6 hf
    refine ⟨fun h => ?_, fun h => ?_, fun h => ?_⟩
    · rw [h1 h] at ht; exact state0 s ht
    · rw [h2 h] at ht; exact state1 s ht
    · rw [h3 h] at ht; exact state16 s ht

/-! ## Paths -/

/-- Register transfers of a list of microstates. -/
def V.follow (v : V) (l : List (BitVec 6)) : V := l.foldl (fun v s => v.rtl s.toNat) v

theorem V.follow_nil (v : V) : v.follow [] = v := rfl
theorem V.follow_cons (v : V) (s : BitVec 6) (l : List (BitVec 6)) :
    v.follow (s :: l) = (v.rtl s.toNat).follow l := rfl

/-- The path until S0 comes next; `none` if it does not come within `n` states. -/
def fullTrace (o : BitVec 8) (fc fz : Bool) : Nat → BitVec 6 → Option (List (BitVec 6))
  | 0, s => if s = 0 then some [] else none
  | n + 1, s =>
    if s = 0 then some [] else (fullTrace o fc fz n (A.nextOf s o fc fz)).map (s :: ·)

def ttFull (o : BitVec 8) (fc fz : Bool) : Nat → BitVec 6 → Option (List (BitVec 6))
  | 0, s => if s = 0 then some [] else none
  | n + 1, s =>
    if s = 0 then some [] else (ttFull o fc fz n (ttNext (seqIn s o fc fz))).map (s :: ·)

theorem fullTrace_eq (o : BitVec 8) (fc fz : Bool) (n : Nat) (s : BitVec 6) :
    fullTrace o fc fz n s = ttFull o fc fz n s := by
  induction n generalizing s with
  | zero => rfl
  | succ n ih => simp only [fullTrace, ttFull, ih, nextOf_eq]

/-- Last microstate of a binary operation. -/
def AluOp.micro : AluOp → BitVec 6
  | .add => 5 | .sub => 6 | .cmp => 7 | .and => 9 | .or => 10 | .xor => 11

/-- Microstate that brings an operand to 2OP. -/
def Operand.micro : Operand → BitVec 6
  | .reg _ => 2 | .ac => 12 | .imm => 15

/-- Microstates of an instruction after the fetch. -/
def Instr.path (fc fz : Bool) : Instr → List (BitVec 6)
  | .mov (.reg _) (.reg _) => [1, 2, 3]
  | .mov .ac (.reg _) => [1, 12, 44]
  | .mov .imm (.reg _) => [1, 15, 39]
  | .mov src .ac => [1, src.micro, 4]
  | .alu op src => [1, src.micro, op.micro]
  | .inc (.reg _) => [1, 2, 8]
  | .inc .ac => [1, 12, 13]
  | .cma => [1, 14]
  | .lfa => [1, 23]
  | .sfa => [1, 24]
  | .lda => [1, 16, 17, 18, 4]
  | .sta => [1, 16, 17, 12, 19]
  | .ldax => [1, 21, 22, 18, 4]
  | .stax => [1, 21, 22, 12, 19]
  | .jmp => [1, 16, 17, 20]
  | .beq => if fz then [1, 16, 17, 20] else [1, 16, 17]
  | .bc => if fc then [1, 16, 17, 20] else [1, 16, 17]
  | .inisp => [1, 16, 17, 38]
  | .push => [1, 26, 36]
  | .pop => [1, 37, 31]
  | .call => [1, 16, 17, 26, 28, 40, 29, 20]
  | .ret => [1, 32, 31, 33, 41]
  | .iret => [1, 32, 31, 33, 41, 34, 43, 35]
  | .fin => [1]

/-- What an opcode outside the operation table does. -/
inductive Undefined
  /-- the same microprogram as a documented instruction -/
  | alias (i : Instr)
  /-- nothing; takes the given number of extra bytes -/
  | inert (path : List (BitVec 6))

/-- The general register with the number given by bits 0-1. -/
def gOf (o : BitVec 8) : G :=
  if o &&& 3 = 0 then .b else if o &&& 3 = 1 then .c else if o &&& 3 = 2 then .d else .e

def undefinedOp (o : BitVec 8) : Undefined :=
  if o &&& 0xF0 = 0x30 then .alias (.alu .add (.reg (gOf o)))
  else if o = 0x4C then .alias (.alu .and .ac)
  else if o = 0x4D then .alias (.alu .or .ac)
  else if o = 0x4E then .alias (.alu .xor .ac)
  else if o = 0x4F then .alias (.inc .ac)
  else if o = 0x6C then .alias (.alu .and .imm)
  else if o = 0x6D then .alias (.alu .or .imm)
  else if o = 0x6E then .alias (.alu .xor .imm)
  else if o &&& 0xF0 = 0x90 then .alias .stax
  else if o &&& 0xF0 = 0xB0 then .alias .ldax
  else if o &&& 0xFC = 0x14 then .inert [1, 2]
  else if o = 0x6B ∨ o = 0x6F then .inert [1, 15]
  else .inert [1]

/-- The microstates after the fetch, for every opcode. -/
def pathOf (o : BitVec 8) (fc fz : Bool) : List (BitVec 6) :=
  match decode o with
  | some i => i.path fc fz
  | none =>
    match undefinedOp o with
    | .alias i => i.path fc fz
    | .inert l => l

theorem ttFull_all : ∀ o : BitVec 8, ∀ fc fz : Bool,
    ttFull o fc fz 8 1 = some (pathOf o fc fz) := by decide +kernel

/-- The microprogram of every opcode. -/
theorem fullTrace_all (o : BitVec 8) (fc fz : Bool) :
    fullTrace o fc fz 8 1 = some (pathOf o fc fz) := by rw [fullTrace_eq]; exact ttFull_all o fc fz

/-! ## Running a path -/

/-- Flags do not change before S17. -/
def FlagsAt (fc fz : Bool) (m : M) : Prop :=
  m.s = 1 ∨ m.s = 16 ∨ m.s = 17 → m.v.fc = fc ∧ m.v.fz = fz

theorem rtl_early (v : V) (k : BitVec 6) (h : k = 1 ∨ k = 16 ∨ k = 0) :
    (v.rtl k.toNat).fc = v.fc ∧ (v.rtl k.toNat).fz = v.fz := by
  rcases h with rfl | rfl | rfl
  · exact ⟨rfl, rfl⟩
  · show (V.incPc _).fc = _ ∧ (V.incPc _).fz = _
    unfold V.incPc V.setPc; split <;> exact ⟨rfl, rfl⟩
  · show (V.incPc _).fc = _ ∧ (V.incPc _).fz = _
    unfold V.incPc V.setPc; split <;> exact ⟨rfl, rfl⟩

theorem M.steps_succ (n : Nat) (m : M) : M.steps (n + 1) m = M.steps n m.step := rfl

/-- From S1 on the machine follows the path of the opcode and ends before a fetch; before that
the next microstate is never S0. -/
theorem steps_trace (o : BitVec 8) (fc fz : Bool) (n : Nat) (m : M) (l : List (BitVec 6))
    (ht : fullTrace o fc fz n m.s = some l) (hri : m.v.ri = o) (hf : FlagsAt fc fz m) :
    M.steps l.length m = ⟨m.v.follow l, 0⟩ ∧ ∀ k, k < l.length → (M.steps k m).s ≠ 0 := by
  induction n generalizing m l with
  | zero =>
    simp only [fullTrace] at ht
    split at ht
    · rename_i e
      cases ht
      refine ⟨?_, fun k hk => by cases hk⟩
      cases m; cases e; rfl
    · cases ht
  | succ n ih =>
    simp only [fullTrace] at ht
    split at ht
    · rename_i e
      cases ht
      refine ⟨?_, fun k hk => by cases hk⟩
      cases m; cases e; rfl
    · rename_i hne
      cases e : fullTrace o fc fz n (A.nextOf m.s o fc fz) with
      | none => rw [e] at ht; cases ht
      | some l' =>
        rw [e] at ht
        cases ht
        have hn : A.nextOf m.s m.v.ri m.v.fc m.v.fz = A.nextOf m.s o fc fz := by
          rw [hri]
          by_cases h17 : m.s = 17
          · obtain ⟨h1, h2⟩ := hf (.inr (.inr h17))
            rw [h1, h2]
          · exact next_flags _ _ _ _ _ _ h17
        have hs : m.step.s = A.nextOf m.s o fc fz := hn
        have hr : m.step.v.ri = o := by
          rw [← hri]
          exact rtl_ri m.v _ (fun h => hne (BitVec.eq_of_toNat_eq h))
        have hf' : FlagsAt fc fz m.step := by
          intro hk
          rw [hs] at hk
          obtain ⟨n1, n2, n3⟩ := next_src m.s o fc fz
          have hm : m.s = 1 ∨ m.s = 16 := by
            rcases hk with h | h | h
            · exact absurd (n1 h) hne
            · exact .inl (n2 h)
            · exact .inr (n3 h)
          obtain ⟨a1, a2⟩ := hf (hm.imp id .inl)
          obtain ⟨b1, b2⟩ := rtl_early m.v m.s (hm.imp id .inl)
          exact ⟨b1.trans a1, b2.trans a2⟩
        obtain ⟨r1, r2⟩ := ih m.step l' (by rw [hs]; exact e) hr hf'
        refine ⟨r1, fun k hk => ?_⟩
        cases k with
        | zero => exact hne
        | succ k => exact r2 k (by simpa using hk)

/-- One whole instruction: fetch and path. -/
theorem steps_instr (v : V) :
    let l := pathOf (v.mem v.pc) v.fc v.fz
    M.steps (l.length + 1) ⟨v, 0⟩ = ⟨v.follow (0 :: l), 0⟩ ∧
      ∀ k, k < l.length → (M.steps (k + 1) ⟨v, 0⟩).s ≠ 0 := by
  intro l
  have hs : (M.step ⟨v, 0⟩).s = 1 := next_zero v.ri v.fc v.fz
  obtain ⟨e1, e2⟩ := rtl_early v 0 (.inr (.inr rfl))
  have hri : (M.step ⟨v, 0⟩).v.ri = v.mem v.pc := by
    show (V.incPc _).ri = _
    unfold V.incPc V.setPc; split <;> rfl
  exact steps_trace (v.mem v.pc) v.fc v.fz 8 (M.step ⟨v, 0⟩) l
    (by rw [hs]; exact fullTrace_all _ _ _) hri (fun _ => ⟨e1, e2⟩)

theorem pathOf_len (o : BitVec 8) (fc fz : Bool) : (pathOf o fc fz).length ≤ 8 := by
  have h : ∀ n s l, fullTrace o fc fz n s = some l → l.length ≤ n := by
    intro n
    induction n with
    | zero =>
      intro s l h
      simp only [fullTrace] at h
      split at h <;> cases h
      exact Nat.le_refl _
    | succ n ih =>
      intro s l h
      simp only [fullTrace] at h
      split at h
      · cases h; exact Nat.zero_le _
      · cases e : fullTrace o fc fz n (A.nextOf s o fc fz) with
        | none => rw [e] at h; cases h
        | some l' => rw [e] at h; cases h; exact Nat.succ_le_succ (ih _ _ e)
  exact h 8 1 _ (fullTrace_all o fc fz)
end Mpp
