import Verif.Micro
/-!
# The sequencer table

The truth table in a form that is quick to evaluate, and what follows from it for all microstates,
opcodes and flags.
-/
namespace Mpp

/-- The six columns read by `rowD` hold only 0 and 1 (`cu/seq.c:214-231`). -/
theorem truthTable_dcols : ∀ r ∈ truthTable, r.length = 24 ∧
    ∀ x ∈ (r.drop 17).take 6, x = 0 ∨ x = 1 := by decide +kernel

/-- A cell of the table: `none` is `X`. -/
def toCell (x : Int) : Option Bool := if x = -1 then none else some (decide (x = 1))

def cellFits : Option Bool → Bool → Bool
  | none, _ => true
  | some true, true => true
  | some false, false => true
  | _, _ => false

def fits : List (Option Bool) → List Bool → Bool
  | c :: cs, b :: bs => cellFits c b && fits cs bs
  | _, _ => true

theorem cellOk_eq (x : Int) (b : Bool) (h : x = -1 ∨ x = 0 ∨ x = 1) :
    cellOk x b = cellFits (toCell x) b := by
  rcases h with rfl | rfl | rfl <;> cases b <;> rfl

theorem zip_all_eq (xs : List Int) (bs : List Bool) (h : ∀ x ∈ xs, x = -1 ∨ x = 0 ∨ x = 1) :
    (xs.zip bs).all (fun p => cellOk p.1 p.2) = fits (xs.map toCell) bs := by
  induction xs generalizing bs with
  | nil => cases bs <;> rfl
  | cons x xs ih =>
    cases bs with
    | nil => rfl
    | cons b bs =>
      simp only [List.zip_cons_cons, List.all_cons, List.map_cons, fits]
      rw [ih bs (fun y hy => h y (by simp [hy])), cellOk_eq x b (h x (by simp))]

local notation "I" => some true
local notation "O" => some false
local notation "N" => (none : Option Bool)

/-- Inputs (q5..q0, c7..c0, fz, fc) and next state of every row. -/
def tt : List (List (Option Bool) × BitVec 6) := [
  ([O, O, O, O, O, O, N, N, N, N, N, N, N, N, N, N], 1),
  ([O, O, O, O, O, I, O, O, N, N, N, N, N, N, N, N], 2),
  ([O, O, O, O, O, I, O, I, O, O, N, N, N, N, N, N], 12),
  ([O, O, O, O, O, I, O, I, I, O, N, N, N, N, N, N], 15),
  ([O, O, O, O, O, I, I, O, N, I, N, N, N, N, N, N], 21),
  ([O, O, O, O, O, I, O, I, I, I, O, O, N, N, N, N], 16),
  ([O, O, O, O, O, I, I, I, O, O, O, O, I, I, N, N], 16),
  ([O, O, O, O, O, I, I, I, O, O, O, I, O, O, N, N], 16),
  ([O, O, O, O, O, I, O, I, I, I, O, I, O, O, N, N], 16),
  ([O, O, O, O, O, I, I, O, O, O, O, O, O, O, N, N], 14),
  ([O, O, O, O, O, I, I, O, O, O, O, O, O, I, N, N], 23),
  ([O, O, O, O, O, I, I, O, O, O, O, O, I, O, N, N], 24),
  ([O, O, O, O, O, I, I, I, O, O, O, O, O, I, N, N], 26),
  ([O, O, O, O, O, I, I, I, O, O, O, I, O, I, N, N], 32),
  ([O, O, O, O, O, I, I, I, O, O, O, O, O, O, N, N], 32),
  ([O, O, O, O, O, I, I, I, O, O, O, O, I, O, N, N], 37),
  ([O, O, O, O, I, O, N, N, O, O, N, N, N, N, N, N], 3),
  ([O, O, O, O, I, O, N, N, O, I, O, O, N, N, N, N], 4),
  ([O, O, O, O, I, O, N, N, O, I, I, O, N, N, N, N], 6),
  ([O, O, O, O, I, O, N, N, O, I, I, I, N, N, N, N], 7),
  ([O, O, O, O, I, O, N, N, I, O, O, O, N, N, N, N], 9),
  ([O, O, O, O, I, O, N, N, I, O, O, I, N, N, N, N], 10),
  ([O, O, O, O, I, O, N, N, I, O, I, O, N, N, N, N], 11),
  ([O, O, O, O, I, O, N, N, I, O, I, I, N, N, N, N], 8),
  ([O, O, O, O, I, O, N, N, I, I, N, N, N, N, N, N], 5),
  ([O, O, O, O, I, I, N, N, N, N, N, N, N, N, N, N], 0),
  ([O, O, O, I, O, O, N, N, N, N, N, N, N, N, N, N], 0),
  ([O, O, O, I, O, I, N, N, N, N, N, N, N, N, N, N], 0),
  ([O, O, O, I, I, O, N, N, N, N, N, N, N, N, N, N], 0),
  ([O, O, O, I, I, I, N, N, N, N, N, N, N, N, N, N], 0),
  ([O, O, I, O, O, O, N, N, N, N, N, N, N, N, N, N], 0),
  ([O, O, I, O, O, I, N, N, N, N, N, N, N, N, N, N], 0),
  ([O, O, I, O, I, O, N, N, N, N, N, N, N, N, N, N], 0),
  ([O, O, I, O, I, I, N, N, N, N, N, N, N, N, N, N], 0),
  ([O, O, I, I, O, O, N, N, N, O, O, O, N, N, N, N], 44),
  ([O, O, I, I, O, O, N, N, N, O, O, I, O, O, N, N], 4),
  ([O, O, I, I, O, O, N, N, N, O, O, I, O, I, N, N], 5),
  ([O, O, I, I, O, O, N, N, N, O, O, I, I, O, N, N], 6),
  ([O, O, I, I, O, O, N, N, N, O, O, I, I, I, N, N], 7),
  ([O, O, I, I, O, O, N, N, N, O, I, N, O, O, N, N], 9),
  ([O, O, I, I, O, O, N, N, N, O, I, N, O, I, N, N], 10),
  ([O, O, I, I, O, O, N, N, N, O, I, N, I, O, N, N], 11),
  ([O, O, I, I, O, O, N, N, N, O, I, N, I, I, N, N], 13),
  ([O, O, I, I, O, O, N, N, N, I, N, N, N, N, N, N], 19),
  ([O, O, I, I, O, I, N, N, N, N, N, N, N, N, N, N], 0),
  ([O, O, I, I, I, O, N, N, N, N, N, N, N, N, N, N], 0),
  ([O, O, I, I, I, I, O, I, I, O, O, O, N, N, N, N], 39),
  ([O, O, I, I, I, I, N, N, N, N, O, I, O, O, N, N], 4),
  ([O, O, I, I, I, I, N, N, N, N, O, I, O, I, N, N], 5),
  ([O, O, I, I, I, I, N, N, N, N, O, I, I, O, N, N], 6),
  ([O, O, I, I, I, I, N, N, N, N, O, I, I, I, N, N], 7),
  ([O, O, I, I, I, I, N, N, N, N, I, N, O, O, N, N], 9),
  ([O, O, I, I, I, I, N, N, N, N, I, N, O, I, N, N], 10),
  ([O, O, I, I, I, I, N, N, N, N, I, N, I, O, N, N], 11),
  ([O, I, O, O, O, O, N, N, N, N, N, N, N, N, N, N], 17),
  ([O, I, O, O, O, I, N, N, N, N, N, O, O, O, N, N], 18),
  ([O, I, O, O, O, I, N, N, N, N, N, O, O, I, N, N], 12),
  ([O, I, O, O, O, I, O, I, I, I, O, O, I, O, I, N], 20),
  ([O, I, O, O, O, I, O, I, I, I, O, O, I, I, N, I], 20),
  ([O, I, O, O, O, I, O, I, I, I, O, I, O, O, N, N], 20),
  ([O, I, O, O, O, I, I, I, O, O, O, O, I, I, N, N], 38),
  ([O, I, O, O, O, I, I, I, O, O, O, I, O, O, N, N], 26),
  ([O, I, O, O, O, I, N, N, N, N, N, O, I, O, O, N], 0),
  ([O, I, O, O, O, I, N, N, N, N, N, O, I, I, N, O], 0),
  ([O, I, O, O, I, O, N, N, N, N, N, N, N, N, N, N], 4),
  ([O, I, O, O, I, I, N, N, N, N, N, N, N, N, N, N], 0),
  ([O, I, O, I, O, O, N, N, N, N, N, N, N, N, N, N], 0),
  ([O, I, O, I, O, I, N, N, N, N, N, N, N, N, N, N], 22),
  ([O, I, O, I, I, O, N, N, O, N, N, N, N, N, N, N], 12),
  ([O, I, O, I, I, O, N, N, I, N, N, N, N, N, N, N], 18),
  ([O, I, O, I, I, I, N, N, N, N, N, N, N, N, N, N], 0),
  ([O, I, I, O, O, O, N, N, N, N, N, N, N, N, N, N], 0),
  ([O, I, I, O, O, I, I, I, O, O, O, I, I, O, N, N], 26),
  ([O, I, I, O, I, O, I, I, O, O, O, O, O, I, N, N], 36),
  ([O, I, I, O, I, O, I, I, O, O, O, I, O, O, N, N], 28),
  ([O, I, I, O, I, O, I, I, O, O, O, I, I, O, N, N], 29),
  ([O, I, I, I, O, I, I, I, O, O, O, I, I, O, N, N], 40),
  ([O, I, I, I, O, O, I, I, O, O, O, I, O, O, N, N], 40),
  ([O, I, I, I, O, O, I, I, O, O, O, I, I, O, N, N], 42),
  ([O, I, I, I, O, I, I, I, O, O, O, I, O, O, N, N], 20),
  ([O, I, I, I, O, I, I, I, O, O, O, I, I, O, N, N], 30),
  ([O, I, I, I, I, O, I, I, O, O, O, I, I, O, N, N], 0),
  ([O, I, I, I, I, I, I, I, O, O, O, I, O, I, N, N], 33),
  ([O, I, I, I, I, I, I, I, O, O, O, O, O, O, N, N], 33),
  ([I, O, O, O, O, O, I, I, O, O, O, I, O, I, N, N], 31),
  ([I, O, O, O, O, O, I, I, O, O, O, O, O, O, N, N], 31),
  ([I, O, O, O, O, I, I, I, O, O, O, I, O, I, N, N], 41),
  ([I, O, O, O, O, I, I, I, O, O, O, O, O, O, N, N], 41),
  ([I, O, O, O, I, O, I, I, O, O, O, O, O, O, N, N], 43),
  ([I, O, O, O, I, I, I, I, O, O, O, O, O, O, N, N], 0),
  ([I, O, O, I, O, O, I, I, O, O, O, O, O, I, N, N], 0),
  ([I, O, O, I, O, I, I, I, O, O, O, O, I, O, N, N], 31),
  ([I, O, O, I, I, O, I, I, O, O, O, O, I, I, N, N], 0),
  ([I, O, I, O, O, O, I, I, O, O, O, I, O, O, N, N], 29),
  ([I, O, I, O, O, O, I, I, O, O, O, I, I, O, N, N], 28),
  ([I, O, I, O, O, I, I, I, O, O, O, I, O, I, N, N], 0),
  ([I, O, I, O, O, I, I, I, O, O, O, O, O, O, N, N], 34),
  ([I, O, I, O, I, O, I, I, O, O, O, I, I, O, N, N], 29),
  ([I, O, I, O, I, I, I, I, O, O, O, O, O, O, N, N], 35),
  ([I, O, I, I, O, O, N, N, N, O, O, O, N, N, N, N], 0)]

def toRow (r : List Int) : List (Option Bool) × BitVec 6 :=
  (((r.drop 1).take 16).map toCell, A.rowNext (some r))

theorem tt_eq : truthTable.map toRow = tt := by decide +kernel

theorem truthTable_cells : ∀ r ∈ truthTable, ∀ x ∈ (r.drop 1).take 16, x = -1 ∨ x = 0 ∨ x = 1 := by
  decide +kernel

theorem zip_take {α β} (xs : List α) (bs : List β) :
    xs.zip bs = (xs.take bs.length).zip bs := by
  induction xs generalizing bs with
  | nil => simp
  | cons x xs ih =>
    cases bs with
    | nil => simp
    | cons b bs => simp [ih bs]

theorem rowMatches_eq (r : List Int) (hr : r ∈ truthTable) (bs : List Bool) (hb : bs.length = 16) :
    rowMatches r bs = fits (toRow r).1 bs := by
  unfold rowMatches
  rw [zip_take, hb, zip_all_eq _ _ (truthTable_cells r hr)]
  rfl

/-- The scan over the fast table. -/
def ttNext (bs : List Bool) : BitVec 6 :=
  match tt.find? fun r => fits r.1 bs with
  | none => 0
  | some r => r.2

theorem ttNext_eq (bs : List Bool) (hb : bs.length = 16) : A.rowNext (findRow bs) = ttNext bs := by
  have h : ∀ l : List (List Int), (∀ r ∈ l, r ∈ truthTable) →
      A.rowNext (l.find? fun r => rowMatches r bs) =
        match (l.map toRow).find? fun r => fits r.1 bs with
        | none => 0
        | some r => r.2 := by
    intro l
    induction l with
    | nil => intro _; exact (by decide : A.rowNext none = 0)
    | cons r l ih =>
      intro hl
      simp only [List.find?_cons, List.map_cons]
      rw [← rowMatches_eq r (hl r (by simp)) bs hb]
      cases rowMatches r bs with
      | true => rfl
      | false => exact ih fun r' hr' => hl r' (by simp [hr'])
  unfold findRow ttNext
  rw [h truthTable (fun _ hr => hr), tt_eq]

/-- The inputs of the scan. -/
def seqIn (s : BitVec 6) (ri : BitVec 8) (fc fz : Bool) : List Bool :=
  [s.getLsbD 5, s.getLsbD 4, s.getLsbD 3, s.getLsbD 2, s.getLsbD 1, s.getLsbD 0,
    ri.getLsbD 7, ri.getLsbD 6, ri.getLsbD 5, ri.getLsbD 4, ri.getLsbD 3, ri.getLsbD 2,
    ri.getLsbD 1, ri.getLsbD 0, fz, fc]

theorem nextOf_eq (s : BitVec 6) (ri : BitVec 8) (fc fz : Bool) :
    A.nextOf s ri fc fz = ttNext (seqIn s ri fc fz) := ttNext_eq _ rfl

/-- A fact about the row found holds if it holds for the default and for every row that fits. -/
theorem ttNext_mem (bs : List Bool) :
    ttNext bs = 0 ∨ ∃ r ∈ tt, fits r.1 bs = true ∧ ttNext bs = r.2 := by
  unfold ttNext
  cases h : tt.find? fun r => fits r.1 bs with
  | none => exact .inl rfl
  | some r => exact .inr ⟨r, List.mem_of_find?_eq_some h, by simpa using List.find?_some h, rfl⟩

/-! ## Reachable microstates -/

/-- The microstates of the interrupt path and the numbers that are no microstate. -/
def badStates : List (BitVec 6) := [25, 27, 30, 42] ++ (List.range 19).map fun i => BitVec.ofNat 6 (45 + i)

theorem badStates_ge (s : BitVec 6) (h : s ∉ badStates) : s.toNat < 45 := by
  revert s; decide +kernel

/-- Rows leading to a bad state are for opcode 0xC6 only. -/
theorem bad_rows : ∀ r ∈ tt, r.2 ∈ badStates →
    (r.1.drop 6).take 8 = [I, I, O, O, O, I, I, O] := by decide +kernel

theorem fits_drop (cs : List (Option Bool)) (bs : List Bool) (n : Nat) (h : fits cs bs = true) :
    fits (cs.drop n) (bs.drop n) = true := by
  induction n generalizing cs bs with
  | zero => exact h
  | succ n ih =>
    cases cs with
    | nil => cases bs.drop (n + 1) <;> rfl
    | cons c cs =>
      cases bs with
      | nil => cases h : (c :: cs).drop (n + 1) <;> rfl
      | cons b bs =>
        simp only [fits, Bool.and_eq_true] at h
        exact ih cs bs h.2

theorem fits_take (cs : List (Option Bool)) (bs : List Bool) (n : Nat) (h : fits cs bs = true) :
    fits (cs.take n) (bs.take n) = true := by
  induction n generalizing cs bs with
  | zero => rfl
  | succ n ih =>
    cases cs with
    | nil => rfl
    | cons c cs =>
      cases bs with
      | nil => rfl
      | cons b bs =>
        simp only [fits, Bool.and_eq_true] at h
        simp only [List.take_succ_cons, fits, h.1, ih cs bs h.2, Bool.and_self]

theorem opcode_C6 (ri : BitVec 8) (h : fits [I, I, O, O, O, I, I, O]
    [ri.getLsbD 7, ri.getLsbD 6, ri.getLsbD 5, ri.getLsbD 4, ri.getLsbD 3, ri.getLsbD 2,
      ri.getLsbD 1, ri.getLsbD 0] = true) : ri = 0xC6 := by
  revert ri; decide +kernel

theorem next_bad (s : BitVec 6) (ri : BitVec 8) (fc fz : Bool)
    (h : A.nextOf s ri fc fz ∈ badStates) : ri = 0xC6 := by
  rw [nextOf_eq] at h
  rcases ttNext_mem (seqIn s ri fc fz) with e | ⟨r, hr, hf, e⟩
  · rw [e] at h; exact absurd h (by decide)
  · rw [e] at h
    have h2 := fits_take _ _ 8 (fits_drop _ _ 6 hf)
    rw [bad_rows r hr h] at h2
    exact opcode_C6 ri h2

/-- A microstate that can occur with instruction register `ri`. -/
def OkState (s : BitVec 6) (ri : BitVec 8) : Prop :=
  s ∉ badStates ∧ (ri = 0xC6 → s = 0 ∨ s = 1)

theorem OkState.lt {s : BitVec 6} {ri : BitVec 8} (h : OkState s ri) : s.toNat < 45 :=
  badStates_ge s h.1

theorem ok_zero (ri : BitVec 8) : OkState 0 ri := ⟨by decide, fun _ => .inl rfl⟩
theorem ok_one (ri : BitVec 8) : OkState 1 ri := ⟨by decide, fun _ => .inr rfl⟩

theorem next_zero (ri : BitVec 8) (fc fz : Bool) : A.nextOf 0 ri fc fz = 1 := by
  rw [nextOf_eq]; rfl

theorem next_one_C6 : ∀ fc fz : Bool, A.nextOf 1 0xC6 fc fz = 0 := by
  intro fc fz
  rw [nextOf_eq]
  revert fc fz
  decide +kernel

/-- Microstates stay reachable; `ri'` is the instruction register after the cycle. -/
theorem OkState.next {s : BitVec 6} {ri ri' : BitVec 8} (fc fz : Bool) (h : OkState s ri)
    (hr : s ≠ 0 → ri' = ri) : OkState (A.nextOf s ri fc fz) ri' := by
  by_cases h0 : s = 0
  · subst h0; rw [next_zero]; exact ok_one _
  · rw [hr h0]
    by_cases hc : ri = 0xC6
    · subst hc
      rcases h.2 rfl with e | e
      · exact absurd e h0
      · subst e; rw [next_one_C6]; exact ok_zero _
    · exact ⟨fun hb => hc (next_bad _ _ _ _ hb), fun e => absurd e hc⟩

end Mpp
