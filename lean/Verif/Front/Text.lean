import Verif.Front.Line
/-!
# Lines of a text, comments and blanks
-/
namespace Mpp.Front

/-- A line trimmed and without its comment (`index.ts:64-65`). -/
def clean (l : Str) : Str := checkCommentLine (trim l)

theorem cleanLines_eq (text : Str) : cleanLines text = (split '\n' text).map clean := rfl

theorem split_noSep (c : Char) (s : Str) : ∀ w ∈ split c s, c ∉ w := by
  induction s with
  | nil => simp [split]
  | cons x s ih =>
    rw [split]
    split
    · rename_i h
      intro w hw
      rcases List.mem_cons.1 hw with rfl | hw
      · simp
      · exact ih w hw
    · rename_i hx
      cases h : split c s with
      | nil => exact absurd h (split_ne_nil c s)
      | cons v vs =>
        rw [h] at ih
        simp only
        intro w hw
        rcases List.mem_cons.1 hw with rfl | hw
        · have := ih v (by simp)
          simp [this, Ne.symm hx]
        · exact ih w (by simp [hw])

theorem split_join {c : Char} {ws : List Str} (hne : ws ≠ []) (h : ∀ w ∈ ws, c ∉ w) :
    split c (join c ws) = ws := by
  induction ws with
  | nil => exact absurd rfl hne
  | cons w ws ih =>
    cases ws with
    | nil => exact split_none (h w (by simp))
    | cons v vs =>
      rw [join, split_append (h w (by simp)), ih (by simp) fun x hx => h x (by simp [hx])]
      simp

theorem lines_split (text : Str) : Lines text (split '\n' text) := by
  have h : ∀ ws : List Str, ws ≠ [] → (∀ w ∈ ws, '\n' ∉ w) → Lines (join '\n' ws) ws := by
    intro ws
    induction ws with
    | nil => intro h; exact absurd rfl h
    | cons w ws ih =>
      intro _ h
      cases ws with
      | nil => exact .last (h w (by simp))
      | cons v vs =>
        rw [join]
        · exact .cons (h w (by simp)) (ih (by simp) fun x hx => h x (by simp [hx]))
        · simp
  have := h _ (split_ne_nil '\n' text) (split_noSep '\n' text)
  rwa [join_split] at this

theorem Lines.eq {text : Str} {ls : List Str} (h : Lines text ls) : split '\n' text = ls := by
  induction h with
  | last h => exact split_none h
  | cons h _ ih => rw [split_append h, ih]

/-! ## Trimming -/

theorem trimEnd_append {s b : Str} (hb : ∀ x ∈ b, isWs x = true)
    (hs : ∀ x, s.getLast? = some x → isWs x = false) : trimEnd (s ++ b) = s := by
  unfold trimEnd
  rw [List.reverse_append, List.dropWhile_append_of_pos (by simpa using hb)]
  cases hs' : s.reverse with
  | nil =>
    have : s = [] := by simpa using hs'
    subst this; simp
  | cons c r =>
    have he : s = r.reverse ++ [c] := by
      have := congrArg List.reverse hs'
      simpa using this
    have hc : isWs c = false := hs c (by rw [he]; simp)
    rw [List.dropWhile_cons, hc]
    simp [he]

theorem trimStart_append {a s : Str} (ha : ∀ x ∈ a, isWs x = true)
    (hs : ∀ x, s.head? = some x → isWs x = false) : trimStart (a ++ s) = s := by
  unfold trimStart
  rw [List.dropWhile_append_of_pos ha]
  cases s with
  | nil => rfl
  | cons c s => rw [List.dropWhile_cons, hs c rfl]; rfl

/-- Every string is what `trimEnd` leaves and blanks. -/
theorem trimEnd_parts (s : Str) : ∃ b, s = trimEnd s ++ b ∧ (∀ x ∈ b, isWs x = true) ∧
    ∀ x, (trimEnd s).getLast? = some x → isWs x = false := by
  refine ⟨(s.reverse.takeWhile isWs).reverse, ?_, ?_, ?_⟩
  · unfold trimEnd
    rw [← List.reverse_append, List.takeWhile_append_dropWhile, List.reverse_reverse]
  · intro x hx
    rw [List.mem_reverse] at hx
    have := List.all_takeWhile (p := isWs) (l := s.reverse)
    rw [List.all_eq_true] at this
    exact this x hx
  · intro x hx
    unfold trimEnd at hx
    rw [List.getLast?_reverse] at hx
    have := List.head?_dropWhile_not isWs s.reverse
    rw [hx] at this
    simpa using this

theorem trimStart_parts (s : Str) : ∃ a, s = a ++ trimStart s ∧ (∀ x ∈ a, isWs x = true) ∧
    ∀ x, (trimStart s).head? = some x → isWs x = false := by
  refine ⟨s.takeWhile isWs, ?_, ?_, ?_⟩
  · exact List.takeWhile_append_dropWhile.symm
  · intro x hx
    have := List.all_takeWhile (p := isWs) (l := s)
    rw [List.all_eq_true] at this
    exact this x hx
  · intro x hx
    have := List.head?_dropWhile_not isWs s
    unfold trimStart at hx
    rw [hx] at this
    simpa using this

theorem hash_not_ws : isWs '#' = false := by decide

/-- The code of a line is what stands before the comment, without the blanks around it. -/
theorem clean_of_core {line core : Str} (h : Core line core) : clean line = core := by
  obtain ⟨⟨a, b, c, rfl, ha, hb, hc⟩, hh, hf, hl⟩ := h
  have ha' : ∀ x ∈ a, isWs x = true := fun x hx => (isWs_iff x).2 (ha x hx)
  have hb' : ∀ x ∈ b, isWs x = true := fun x hx => (isWs_iff x).2 (hb x hx)
  have hf' : ∀ x, core.head? = some x → isWs x = false := fun x hx => by
    rw [Bool.eq_false_iff, ne_eq, isWs_iff]; exact hf x hx
  have hl' : ∀ x, core.getLast? = some x → isWs x = false := fun x hx => by
    rw [Bool.eq_false_iff, ne_eq, isWs_iff]; exact hl x hx
  have hnb : '#' ∉ b := fun h => by have := hb' _ h; rw [hash_not_ws] at this; simp at this
  have hna : '#' ∉ a := fun h => by have := ha' _ h; rw [hash_not_ws] at this; simp at this
  unfold clean
  rcases hc with rfl | hc
  · -- no comment
    rw [List.append_nil, trim]
    by_cases he : core = []
    · subst he
      have e1 : trimStart (a ++ [] ++ b) = [] := by
        have := trimStart_append (a := a ++ b) (s := []) (by
          intro x hx; rcases List.mem_append.1 hx with h | h
          · exact ha' x h
          · exact hb' x h) (by simp)
        simpa using this
      rw [e1]
      rfl
    · rw [List.append_assoc, trimStart_append ha' (by
        intro x hx
        cases core with
        | nil => exact absurd rfl he
        | cons d core => exact hf' x (by simpa using hx)), trimEnd_append hb' hl']
      unfold checkCommentLine
      rw [if_neg hh]
  · -- comment
    obtain ⟨c', rfl⟩ : ∃ c', c = '#' :: c' := by
      cases c with
      | nil => simp at hc
      | cons d c => simp at hc; exact ⟨c, by rw [hc]⟩
    have key : ∀ s : Str, '#' ∉ s → ∀ t, (s ++ '#' :: t).takeWhile (· ≠ '#') = s := by
      intro s hs t
      rw [List.takeWhile_append_of_pos (by
        intro x hx; simp; rintro rfl; exact hs hx)]
      simp
    have e1 : ∃ s, trimStart (a ++ core ++ b ++ '#' :: c') = s ++ '#' :: c' ∧
        '#' ∉ s ∧ trimEnd s = core := by
      by_cases he : core = []
      · subst he
        refine ⟨[], ?_, by simp, rfl⟩
        have := trimStart_append (a := a ++ b) (s := '#' :: c') (by
          intro x hx; rcases List.mem_append.1 hx with h | h
          · exact ha' x h
          · exact hb' x h) (by simp [hash_not_ws])
        simpa using this
      · refine ⟨core ++ b, ?_, by simp [hh, hnb], trimEnd_append hb' hl'⟩
        rw [List.append_assoc, List.append_assoc, trimStart_append ha']
        · simp
        · intro x hx
          cases core with
          | nil => exact absurd rfl he
          | cons d core => exact hf' x (by simpa using hx)
    obtain ⟨s, e1, hs, e2⟩ := e1
    rw [trim, e1]
    obtain ⟨d, hd, hdb, hdl⟩ := trimEnd_parts (s ++ '#' :: c')
    -- `trimEnd` keeps the `#`
    have e3 : ∃ c'', trimEnd (s ++ '#' :: c') = s ++ '#' :: c'' := by
      obtain ⟨d, h1, h2, h3⟩ := trimEnd_parts ('#' :: c')
      have hne : trimEnd ('#' :: c') ≠ [] := by
        intro h
        rw [h, List.nil_append] at h1
        have := h2 '#' (by rw [← h1]; simp)
        rw [hash_not_ws] at this
        simp at this
      cases ht : trimEnd ('#' :: c') with
      | nil => exact absurd ht hne
      | cons x y =>
        rw [ht] at h1 h3
        have hx : x = '#' := by
          rw [List.cons_append] at h1
          exact (List.cons.inj h1).1.symm
        subst hx
        refine ⟨y, ?_⟩
        rw [h1, ← List.append_assoc]
        apply trimEnd_append h2
        intro x hx
        apply h3
        rwa [List.getLast?_append_cons] at hx
    obtain ⟨c'', e3⟩ := e3
    rw [e3]
    unfold checkCommentLine
    rw [if_pos (by simp), key s hs, e2]

theorem takeWhile_parts {s : Str} (h : '#' ∈ s) :
    ∃ t, s = s.takeWhile (· ≠ '#') ++ '#' :: t ∧ '#' ∉ s.takeWhile (· ≠ '#') := by
  induction s with
  | nil => simp at h
  | cons x s ih =>
    by_cases hx : x = '#'
    · subst hx
      exact ⟨s, by simp, by simp⟩
    · obtain ⟨t, h1, h2⟩ := ih (by simpa [Ne.symm hx] using h)
      refine ⟨t, ?_, ?_⟩
      · rw [List.takeWhile_cons, if_pos (by simpa using hx), List.cons_append, ← h1]
      · rw [List.takeWhile_cons, if_pos (by simpa using hx)]
        simp only [List.mem_cons, not_or]
        exact ⟨Ne.symm hx, h2⟩

theorem core_clean (line : Str) : Core line (clean line) := by
  have nb : ∀ x, isWs x = false → ¬ Blank x := fun x h => by
    rw [← isWs_iff]; simp [h]
  obtain ⟨a, h1, h2, h3⟩ := trimStart_parts line
  obtain ⟨b, h4, h5, h6⟩ := trimEnd_parts (trimStart line)
  have hfst : ∀ x, (trim line).head? = some x → isWs x = false := by
    intro x hx
    apply h3
    rw [h4]
    change (trim line ++ b).head? = some x
    rw [List.head?_append, hx]; rfl
  unfold clean checkCommentLine
  by_cases hh : '#' ∈ trim line
  · rw [if_pos hh]
    obtain ⟨t, h7, h8⟩ := takeWhile_parts hh
    obtain ⟨d, h9, h10, h11⟩ := trimEnd_parts ((trim line).takeWhile (· ≠ '#'))
    refine ⟨⟨a, d, '#' :: t ++ b, ?_, fun x hx => (isWs_iff x).1 (h2 x hx),
      fun x hx => (isWs_iff x).1 (h10 x hx), .inr rfl⟩, ?_, ?_, fun x hx => nb x (h11 x hx)⟩
    · calc line = a ++ trimStart line := h1
        _ = a ++ (trim line ++ b) := by rw [h4]; rfl
        _ = a ++ ((trim line).takeWhile (· ≠ '#') ++ '#' :: t ++ b) := by rw [← h7]
        _ = _ := by
          conv => lhs; rw [h9]
          simp only [List.append_assoc, List.cons_append]
    · intro h
      apply h8
      rw [h9]
      exact List.mem_append_left _ h
    · intro x hx
      apply nb
      apply hfst
      rw [h7, h9]
      simp only [List.append_assoc, List.head?_append, hx]
      rfl
  · rw [if_neg hh]
    refine ⟨⟨a, b, [], ?_, fun x hx => (isWs_iff x).1 (h2 x hx),
      fun x hx => (isWs_iff x).1 (h5 x hx), .inl rfl⟩, hh, fun x hx => nb x (hfst x hx),
      fun x hx => nb x (h6 x hx)⟩
    calc line = a ++ trimStart line := h1
      _ = a ++ (trim line ++ b) := by rw [h4]; rfl
      _ = _ := by simp

theorem cores_eq {lines cores : List Str} (h : List.Forall₂ Core lines cores) :
    cores = lines.map clean := by
  induction h with
  | nil => rfl
  | cons h _ ih => rw [List.map_cons, clean_of_core h, ← ih]

theorem cores_clean (lines : List Str) : List.Forall₂ Core lines (lines.map clean) := by
  induction lines with
  | nil => exact .nil
  | cons l ls ih => exact .cons (core_clean l) ih

/-- `checkCommentLine` leaves no `#`, so the comment branch of `parseInput` is never taken. -/
theorem clean_no_hash (line : Str) : '#' ∉ clean line := (core_clean line).noHash

theorem term_odd {c : Char} : isTerm c = true ↔ c = '\n' ∨ OddTerm c := by
  simp only [isTerm, OddTerm, Bool.or_eq_true, beq_iff_eq, List.mem_cons, List.not_mem_nil, or_false,
    ← toNat_inj]
  show _ ↔ c.toNat = 10 ∨ _
  omega

theorem clean_noNl {line : Str} (h : '\n' ∉ line) : '\n' ∉ clean line := by
  obtain ⟨a, b, c, e, _⟩ := (core_clean line).parts
  intro h2
  apply h
  rw [e]
  simp [h2]

/-- The specification of a text in terms of the cleaned lines. -/
theorem source_iff (text : Str) (prog : List Stmt) : Source text prog ↔
    (∀ l ∈ cleanLines text, NoTerm l) ∧
    List.Forall₂ Reads ((cleanLines text).filter fun c => c ≠ []) prog := by
  constructor
  · rintro ⟨lines, cores, h1, h2, h3, h4⟩
    have e := h1.eq
    have e2 := cores_eq h2
    rw [← e] at e2
    rw [cleanLines_eq, ← e2]
    refine ⟨?_, h4⟩
    intro l hl c hc
    rw [Bool.eq_false_iff, ne_eq, term_odd]
    rintro (rfl | h)
    · rw [e2] at hl
      obtain ⟨l', hl', rfl⟩ := List.mem_map.1 hl
      exact clean_noNl (split_noSep _ _ _ hl') hc
    · exact h3 l hl c hc h
  · rintro ⟨h1, h2⟩
    refine ⟨_, _, lines_split text, cores_clean _, ?_, h2⟩
    intro c hc x hx ho
    have := h1 c hc x hx
    rw [term_odd.2 (.inr ho)] at this
    simp at this

end Mpp.Front
