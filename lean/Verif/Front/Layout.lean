import Verif.Front.Program
/-!
# Blank lines, comments and indentation

What the assembler hands on depends only on the statements of a text, not on blank lines, comments
and the blanks around statements.
-/
namespace Mpp.Front

/-- `cs` are the statements (as text) of `text`, in order. -/
def Statements (text : Str) (cs : List Str) : Prop :=
  ∃ lines cores, Lines text lines ∧ List.Forall₂ Core lines cores ∧
    cs = cores.filter fun c => c ≠ []

theorem statements_iff (text : Str) (cs : List Str) :
    Statements text cs ↔ cs = (cleanLines text).filter fun c => c ≠ [] := by
  constructor
  · rintro ⟨lines, cores, h1, h2, rfl⟩
    rw [cleanLines_eq, h1.eq, ← cores_eq h2]
  · rintro rfl
    exact ⟨_, _, lines_split text, cores_clean _, by rw [cleanLines_eq]⟩

theorem pre_filter (lines : List Str) : pre (lines.filter fun c => c ≠ []) = pre lines := by
  have h0 : pre [[]] = [] := by decide +kernel
  induction lines with
  | nil => rfl
  | cons l ls ih =>
    by_cases h : l = []
    · subst h
      rw [List.filter_cons_of_neg (by simp), ih]
      have : pre ([] :: ls) = pre [[]] ++ pre ls := by simp [pre]
      rw [this, h0, List.nil_append]
    · rw [List.filter_cons_of_pos (by simpa using h)]
      have : ∀ xs, pre (l :: xs) = pre [l] ++ pre xs := by simp [pre]
      rw [this, this ls, ih]

/-- A result without its line number. -/
def Result.bare (x : Result) : Result := { x with originalOffset := 0 }

def barePos (e : Str × Nat × Mark) : Str × Nat × Mark := (e.1, e.2.1, { e.2.2 with line := 0 })

theorem parseLines_filter (labels lines : List Str) (i j : Nat) :
    ((parseLines labels i lines).1 = [] ↔
      (parseLines labels j (lines.filter fun c => c ≠ [])).1 = []) ∧
    (parseLines labels i lines).2.map Result.bare =
      (parseLines labels j (lines.filter fun c => c ≠ [])).2.map Result.bare := by
  induction lines generalizing i j with
  | nil => exact ⟨Iff.rfl, rfl⟩
  | cons l ls ih =>
    by_cases h : l = []
    · rw [List.filter_cons_of_neg (by simp [h]), parseLines, if_pos h]
      exact ih (i + 1) j
    · rw [List.filter_cons_of_pos (by simpa using h), parseLines, if_neg h, parseLines, if_neg h]
      obtain ⟨h1, h2⟩ := ih (i + 1) (j + 1)
      cases executeRegex labels l with
      | none => exact ⟨by simp, h2⟩
      | some p =>
        obtain ⟨codes, eti, op⟩ := p
        by_cases hc : codes = []
        · simp only [hc, if_true]
          exact ⟨by simp, h2⟩
        · simp only [hc, if_false]
          exact ⟨h1, by rw [List.map_cons, List.map_cons, h2]; rfl⟩

theorem etiPos_bare (d : Nat) (results : List Result) :
    (etiPos d results).map barePos = etiPos d (results.map Result.bare) := by
  induction results generalizing d with
  | nil => rfl
  | cons r rs ih =>
    rw [List.map_cons, etiPos, etiPos]
    have e1 : r.bare.eti = r.eti := rfl
    have e2 : r.bare.instruction = r.instruction := rfl
    rw [e1, e2, ← ih]
    split
    · rfl
    · rfl

theorem find_bare (pos : List (Str × Nat × Mark)) (r : Str) :
    ((pos.map barePos).find? fun s => s.1 = r) = (pos.find? fun s => s.1 = r).map barePos := by
  rw [List.find?_map]
  rfl

theorem map_eraseIdx {α β : Type} (f : α → β) (l : List α) (i : Nat) :
    (l.map f).eraseIdx i = (l.eraseIdx i).map f := by
  induction l generalizing i with
  | nil => rfl
  | cons x l ih => cases i with
    | zero => rfl
    | succ i => simp [ih]

theorem map_modify (res : List Str) (l : List Result) (i : Nat) :
    (l.map Result.bare).modify i (fun x => { x with result := res }) =
      (l.modify i fun x => { x with result := res }).map Result.bare := by
  induction l generalizing i with
  | nil => cases i <;> rfl
  | cons x l ih => cases i with
    | zero => rfl
    | succ i => simp [ih]

theorem postInner_bare (pos : List (Str × Nat × Mark)) (i fuel j : Nat) (res : List Str) (live : Bool)
    (results : List Result) :
    postInner (pos.map barePos) i fuel j res live (results.map Result.bare) =
      (postInner pos i fuel j res live results).map (List.map Result.bare) := by
  induction fuel generalizing j res live results with
  | zero => rfl
  | succ fuel ih =>
    rw [postInner, postInner]
    cases res[j]? with
    | none => rfl
    | some r =>
      simp only
      rw [find_bare]
      cases pos.find? fun s => s.1 = r with
      | none =>
        simp only [Option.map_none]
        split
        · exact ih ..
        · rw [← ih, map_eraseIdx]
      | some e =>
        simp only [Option.map_some]
        rw [← ih]
        congr 1
        split
        · rw [map_modify]
          rfl
        · rfl

theorem postOuter_bare (pos : List (Str × Nat × Mark)) (fuel n i : Nat) (results : List Result) :
    postOuter (pos.map barePos) fuel n i (results.map Result.bare) =
      (postOuter pos fuel n i results).map (List.map Result.bare) := by
  induction n generalizing i results with
  | zero => rfl
  | succ n ih =>
    rw [postOuter, postOuter, List.getElem?_map]
    cases results[i]? with
    | none => rfl
    | some r =>
      simp only [Option.map_some]
      have : r.bare.result = r.result := rfl
      rw [this, postInner_bare]
      cases postInner pos i fuel 1 r.result true results with
      | none => rfl
      | some rs => exact ih ..

theorem post_bare (results : List Result) (d : Nat) :
    post (results.map Result.bare) d = (post results d).map (List.map Result.bare) := by
  unfold post
  simp only [List.length_map, List.map_map]
  rw [← etiPos_bare, postOuter_bare]
  rfl

/-- What is handed on, in terms of the statements. -/
theorem translation_filter : ∃ f : List Str → Option (Option (List Str)),
    ∀ text cs, Statements text cs → translation text = f cs := by
  refine ⟨fun cs => (post ((parseLines (pre cs) 0 cs).2.map Result.bare) 0).map fun rs =>
    if (parseLines (pre cs) 0 cs).1.length > 0 ∨
      (join '\n' (rs.map fun r => join '\n' r.result)).length = 0 then none
    else some (split '\n' (join '\n' (rs.map fun r => join '\n' r.result))), ?_⟩
  intro text cs h
  rw [statements_iff] at h
  obtain ⟨h1, h2⟩ := parseLines_filter (pre (cleanLines text)) (cleanLines text) 0 0
  have h3 := pre_filter (cleanLines text)
  rw [← h] at h1 h2 h3
  simp only
  rw [h3, ← h2, post_bare]
  unfold translation parseInput
  simp only [Option.map_map]
  congr 1
  funext rs
  simp only [Function.comp, List.map_map]
  have e1 : ((parseLines (pre (cleanLines text)) 0 (cleanLines text)).1.length > 0) =
      ((parseLines (pre (cleanLines text)) 0 cs).1.length > 0) := by
    rw [gt_iff_lt, gt_iff_lt, List.length_pos_iff, List.length_pos_iff, ne_eq, ne_eq, h1]
  have e2 : ((fun r : Result => join '\n' r.result) ∘ Result.bare) = fun r => join '\n' r.result := rfl
  simp only [e1]
  rfl

end Mpp.Front
