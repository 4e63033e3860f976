import Verif.Front.Hexa
/-!
# One line of source

`executeRegex` on a line without line terminators, against the specification `Reads`.
-/
namespace Mpp.Front

/-! ## Words separated by spaces -/

theorem split_ne_nil (c : Char) (s : Str) : split c s ≠ [] := by
  cases s with
  | nil => simp [split]
  | cons x s =>
    rw [split]
    split
    · simp
    · split <;> simp

theorem join_split (c : Char) (s : Str) : join c (split c s) = s := by
  induction s with
  | nil => rfl
  | cons x s ih =>
    rw [split]
    split
    · rename_i h
      subst h
      have := split_ne_nil x s
      cases h : split x s with
      | nil => exact absurd h this
      | cons w ws => rw [join, ← h, ih]; rfl; simp
    · cases h : split c s with
      | nil => exact absurd h (split_ne_nil c s)
      | cons w ws =>
        rw [h] at ih
        simp only
        cases ws with
        | nil => simp only [join] at *; rw [ih]
        | cons v vs => simp only [join, List.cons_append] at *; rw [ih]

theorem split_append {c : Char} {l : Str} (h : c ∉ l) (s : Str) :
    split c (l ++ c :: s) = l :: split c s := by
  induction l with
  | nil => simp [split]
  | cons x l ih =>
    simp only [List.mem_cons, not_or] at h
    rw [List.cons_append, split, if_neg (Ne.symm h.1), ih h.2]

theorem split_none {c : Char} {l : Str} (h : c ∉ l) : split c l = [l] := by
  induction l with
  | nil => rfl
  | cons x l ih =>
    simp only [List.mem_cons, not_or] at h
    rw [split, if_neg (Ne.symm h.1), ih h.2]

theorem firstWord_append {l : Str} (h : ' ' ∉ l) (s : Str) : firstWord (l ++ ' ' :: s) = l := by
  rw [firstWord, split_append h]; rfl

theorem restWords_append {l : Str} (h : ' ' ∉ l) (s : Str) : restWords (l ++ ' ' :: s) = s := by
  rw [restWords, split_append h, List.tail_cons, join_split]

theorem firstWord_none {l : Str} (h : ' ' ∉ l) : firstWord l = l := by
  rw [firstWord, split_none h]; rfl

theorem restWords_none {l : Str} (h : ' ' ∉ l) : restWords l = [] := by
  rw [restWords, split_none h]; rfl

/-- Every line is a first word alone, or a first word, a space and the rest. -/
theorem words_cases (s : Str) : (' ' ∉ s ∧ firstWord s = s ∧ restWords s = []) ∨
    (s = firstWord s ++ ' ' :: restWords s ∧ ' ' ∉ firstWord s) := by
  by_cases h : ' ' ∈ s
  · right
    obtain ⟨l, r, rfl, hl⟩ : ∃ l r, s = l ++ ' ' :: r ∧ ' ' ∉ l := by
      induction s with
      | nil => simp at h
      | cons x s ih =>
        by_cases hx : x = ' '
        · exact ⟨[], s, by simp [hx], by simp⟩
        · obtain ⟨l, r, rfl, hl⟩ := ih (by simpa [Ne.symm hx] using h)
          exact ⟨x :: l, r, rfl, by simp [hl, Ne.symm hx]⟩
    rw [firstWord_append hl, restWords_append hl]
    exact ⟨rfl, hl⟩
  · exact .inl ⟨h, firstWord_none h, restWords_none h⟩

theorem restWords_noTerm {s : Str} (h : NoTerm s) : NoTerm (restWords s) := by
  rcases words_cases s with ⟨_, _, e⟩ | ⟨e, _⟩
  · rw [e]; intro c hc; simp at hc
  · intro c hc
    apply h
    rw [e]
    simp [hc]

/-! ## Tokens of an instruction -/

def Wordy (s : Str) : Prop := ∀ c ∈ s, isWord c = true

theorem Wordy.tok {s : Str} (h : Wordy s) : tok s = s ∧ aft s = [] := by
  have := tok_append h [] (by simp)
  simpa using this

theorem ws_not_word {c : Char} (h : isWs c = true) : isWord c = false := by
  rw [Bool.eq_false_iff]
  intro h2
  rw [word_not_ws h2] at h; simp at h

theorem comma_not_word : isWord ',' = false := by decide

theorem lex_one {m : Str} (h : Wordy m) : lex m = some [m] := by
  obtain ⟨h1, h2⟩ := h.tok
  rw [lex, h2, h1]

theorem lex_two {m t : Str} {b : Char} (hm : Wordy m) (hb : isWs b = true) (ht : Wordy t) :
    lex (m ++ b :: t) = some [m, t] := by
  obtain ⟨h1, h2⟩ := tok_append hm (b :: t) (by
    intro c u h; cases h; exact ws_not_word hb)
  obtain ⟨h3, h4⟩ := ht.tok
  rw [lex, h2, h1]
  simp only
  rw [if_pos hb, h4, h3]

theorem lex_three {m t u g : Str} {b : Char} (hm : Wordy m) (hb : isWs b = true) (ht : Wordy t)
    (hg : g = [] ∨ ∃ c, isWs c = true ∧ g = [c]) (hu : Wordy u) :
    lex (m ++ b :: (t ++ ',' :: (g ++ u))) = some [m, t, u] := by
  obtain ⟨h1, h2⟩ := tok_append hm (b :: (t ++ ',' :: (g ++ u))) (by
    intro c u h; cases h; exact ws_not_word hb)
  obtain ⟨h3, h4⟩ := tok_append ht (',' :: (g ++ u)) (by
    intro c u h; cases h; exact comma_not_word)
  obtain ⟨h5, h6⟩ := hu.tok
  rw [lex, h2, h1]
  simp only
  rw [if_pos hb, h4, h3]
  simp only
  rw [if_pos trivial]
  rcases hg with rfl | ⟨c, hc, rfl⟩
  · rw [List.nil_append]
    cases u with
    | nil => rfl
    | cons d u =>
      simp only
      rw [if_neg (by simp [word_not_ws (hu d (by simp))]), h6, h5]
  · rw [List.singleton_append]
    simp only
    rw [if_pos hc, h6, h5]

/-- The forms of a string that has tokens. -/
theorem lex_inv {s : Str} {ts : List Str} (h : lex s = some ts) :
    (∃ m, s = m ∧ ts = [m]) ∨
    (∃ m b t, s = m ++ b :: t ∧ ts = [m, t] ∧ isWs b = true ∧ Wordy t) ∨
    (∃ m b t g u, s = m ++ b :: (t ++ ',' :: (g ++ u)) ∧ ts = [m, t, u] ∧ isWs b = true ∧ Wordy t ∧
      (g = [] ∨ ∃ c, isWs c = true ∧ g = [c]) ∧ Wordy u) := by
  have w : ∀ s, Wordy (tok s) := fun s c hc => tok_word hc
  rw [lex] at h
  have e1 := tok_aft s
  split at h
  · rename_i h1
    cases h
    refine .inl ⟨tok s, ?_, rfl⟩
    rw [h1] at e1; simpa using e1.symm
  · rename_i b s1 h1
    rw [h1] at e1
    split at h
    · rename_i hb
      have e2 := tok_aft s1
      split at h
      · rename_i h2
        cases h
        rw [h2, List.append_nil] at e2
        refine .inr (.inl ⟨tok s, b, tok s1, ?_, rfl, hb, w _⟩)
        rw [e2, e1]
      · rename_i c s2 h2
        rw [h2] at e2
        split at h
        · rename_i hc
          subst hc
          split at h
          · cases h
            exact .inr (.inr ⟨tok s, b, tok s1, [], [], by rw [List.nil_append, e2, e1], rfl, hb, w _,
              .inl rfl, by intro c hc; simp at hc⟩)
          · rename_i d s3
            split at h
            · rename_i hd
              have e3 := tok_aft s3
              split at h
              · rename_i h3
                cases h
                rw [h3, List.append_nil] at e3
                exact .inr (.inr ⟨tok s, b, tok s1, [d], tok s3, by
                  rw [List.singleton_append, e3, e2, e1], rfl, hb, w _, .inr ⟨d, hd, rfl⟩, w _⟩)
              · simp at h
            · have e3 := tok_aft (d :: s3)
              split at h
              · rename_i h3
                cases h
                rw [h3, List.append_nil] at e3
                exact .inr (.inr ⟨tok s, b, tok s1, [], tok (d :: s3), by
                  rw [List.nil_append, e3, e2, e1], rfl, hb, w _, .inl rfl, w _⟩)
              · simp at h
        · simp at h
    · simp at h

/-! ## Going through the rows -/

/-- Tokens fit an instruction. -/
def Fit (i : Instr) (ts : List Str) : Prop := fits (syntaxOf i).1 (syntaxOf i).2 ts = true

instance (i : Instr) (ts : List Str) : Decidable (Fit i ts) := by unfold Fit; infer_instance

theorem Row.exec_some {r : Operation × BitVec 8 × Instr} (hr : r ∈ rows) {s : Str} (h : NoTerm s)
    {ts : List Str} : regexExec r.1.REGEX s = some ts ↔ lex s = some ts ∧ Fit r.2.2 ts := by
  rw [Row.exec hr h]
  cases lex s with
  | none => simp
  | some ts' =>
    simp only [Option.bind_some, Option.some.injEq]
    unfold Fit
    constructor
    · intro h
      split at h
      · cases h; exact ⟨rfl, by assumption⟩
      · simp at h
    · rintro ⟨rfl, h⟩
      rw [if_pos h]

theorem Row.exec_none {r : Operation × BitVec 8 × Instr} (hr : r ∈ rows) {s : Str} (h : NoTerm s) :
    regexExec r.1.REGEX s = none ↔ ∀ ts, lex s = some ts → ¬ Fit r.2.2 ts := by
  rw [Option.eq_none_iff_forall_ne_some]
  constructor
  · intro h2 ts h3 h4
    exact h2 ts ((Row.exec_some hr h).2 ⟨h3, h4⟩)
  · intro h2 ts h3
    obtain ⟨h4, h5⟩ := (Row.exec_some hr h).1 h3
    exact h2 ts h4 h5

theorem fits_length {m : Str} {sl : List Slot} {ts : List Str} (h : fits m sl ts = true) :
    ts.length ≥ 1 := by
  unfold fits at h
  split at h <;> simp at *

theorem executeRegexFrom_some {labels : List Str} {line : Str} (hn : NoTerm line)
    (rs : List (Operation × BitVec 8 × Instr)) (hrs : ∀ r ∈ rs, r ∈ rows)
    {codes : List Str} {eti : Str} {op : Operation}
    (h : executeRegexFrom labels line (rs.map (·.1)) = some (codes, eti, op)) :
    ∃ p r q ts, rs = p ++ r :: q ∧ op = r.1 ∧ Fit r.2.2 ts ∧ (∀ x ∈ p, ¬ Fit x.2.2 ts) ∧
      codes = translate labels r.1 ts ∧
      ((eti = [] ∧ lex line = some ts) ∨
       (startsT (firstWord line) = true ∧ eti = firstWord line ∧ lex (restWords line) = some ts)) := by
  induction rs with
  | nil => simp [executeRegexFrom] at h
  | cons r rs ih =>
    have hr := hrs r (by simp)
    rw [List.map_cons, executeRegexFrom] at h
    split at h
    · rename_i caps h1
      obtain ⟨h2, h3⟩ := (Row.exec_some hr hn).1 h1
      rw [if_pos (fits_length h3)] at h
      cases h
      exact ⟨[], r, rs, caps, rfl, rfl, h3, by simp, rfl, .inl ⟨rfl, h2⟩⟩
    · rename_i h0
      split at h
      · rename_i caps h1
        obtain ⟨h2, h3⟩ := (Row.exec_some hr (restWords_noTerm hn)).1 h1
        rw [if_pos (fits_length h3)] at h
        split at h
        · cases h
          exact ⟨[], r, rs, caps, rfl, rfl, h3, by simp, rfl, .inr ⟨by assumption, rfl, h2⟩⟩
        · simp at h
      · rename_i h1
        obtain ⟨p, r', q, ts, e, h2, h3, h4, h5, h6⟩ := ih (fun r hr => hrs r (by simp [hr])) h
        refine ⟨r :: p, r', q, ts, by rw [e]; rfl, h2, h3, ?_, h5, h6⟩
        intro x hx
        rcases List.mem_cons.1 hx with rfl | hx
        · rcases h6 with ⟨_, h6⟩ | ⟨_, _, h6⟩
          · exact (Row.exec_none hr hn).1 h0 ts h6
          · exact (Row.exec_none hr (restWords_noTerm hn)).1 h1 ts h6
        · exact h4 x hx

theorem executeRegexFrom_plain {labels : List Str} {line : Str} (hn : NoTerm line)
    {p q : List (Operation × BitVec 8 × Instr)} {r : Operation × BitVec 8 × Instr} {ts : List Str}
    (hrs : ∀ x ∈ p ++ r :: q, x ∈ rows) (hl : lex line = some ts) (hf : Fit r.2.2 ts)
    (hp : ∀ x ∈ p, ¬ Fit x.2.2 ts) (hx : ∀ us, lex (restWords line) = some us → ∀ x ∈ rows, ¬ Fit x.2.2 us) :
    executeRegexFrom labels line ((p ++ r :: q).map (·.1)) = some (translate labels r.1 ts, [], r.1) := by
  induction p with
  | nil =>
    rw [List.nil_append, List.map_cons, executeRegexFrom,
      (Row.exec_some (hrs r (by simp)) hn).2 ⟨hl, hf⟩]
    simp only
    rw [if_pos (fits_length hf)]
  | cons a p ih =>
    have ha := hrs a (by simp)
    rw [List.cons_append, List.map_cons, executeRegexFrom, (Row.exec_none ha hn).2 (by
      intro us hu; rw [hl] at hu; cases hu; exact hp a (by simp))]
    simp only
    rw [(Row.exec_none ha (restWords_noTerm hn)).2 fun us hu => hx us hu a ha]
    exact ih (fun x hx => hrs x (by simp at hx ⊢; tauto)) fun x hx => hp x (by simp [hx])

theorem executeRegexFrom_label {labels : List Str} {line : Str} (hn : NoTerm line)
    {p q : List (Operation × BitVec 8 × Instr)} {r : Operation × BitVec 8 × Instr} {ts : List Str}
    (hrs : ∀ x ∈ p ++ r :: q, x ∈ rows) (hl : lex (restWords line) = some ts) (hf : Fit r.2.2 ts)
    (hp : ∀ x ∈ p, ¬ Fit x.2.2 ts) (ht : startsT (firstWord line) = true)
    (hx : ∀ us, lex line = some us → ∀ x ∈ rows, ¬ Fit x.2.2 us) :
    executeRegexFrom labels line ((p ++ r :: q).map (·.1)) =
      some (translate labels r.1 ts, firstWord line, r.1) := by
  induction p with
  | nil =>
    rw [List.nil_append, List.map_cons, executeRegexFrom, (Row.exec_none (hrs r (by simp)) hn).2
      fun us hu => hx us hu r (hrs r (by simp))]
    simp only
    rw [(Row.exec_some (hrs r (by simp)) (restWords_noTerm hn)).2 ⟨hl, hf⟩]
    simp only
    rw [if_pos (fits_length hf), if_pos ht]
  | cons a p ih =>
    have ha := hrs a (by simp)
    rw [List.cons_append, List.map_cons, executeRegexFrom, (Row.exec_none ha hn).2
      fun us hu => hx us hu a ha]
    simp only
    rw [(Row.exec_none ha (restWords_noTerm hn)).2 (by
      intro us hu; rw [hl] at hu; cases hu; exact hp a (by simp))]
    exact ih (fun x hx => hrs x (by simp at hx ⊢; tauto)) fun x hx => hp x (by simp [hx])

/-! ## Fitting tokens and spelling -/

/-- Text of the value among the tokens. -/
def argOf (ts : List Str) : Str := ts[1]?.getD []

theorem slots_cases {r : Operation × BitVec 8 × Instr} (hr : r ∈ rows) :
    (kindOf r.2.2 = .none ∧ ((syntaxOf r.2.2).2 = [] ∨ (∃ n, (syntaxOf r.2.2).2 = [.name n]) ∨
      ∃ n k, (syntaxOf r.2.2).2 = [.name n, .name k])) ∨
    (kindOf r.2.2 = .byte ∧ ((syntaxOf r.2.2).2 = [.value] ∨
      ∃ n, (syntaxOf r.2.2).2 = [.value, .name n])) ∨
    (kindOf r.2.2 = .addr ∧ (syntaxOf r.2.2).2 = [.value]) := by
  have h := Row.slotsOk hr
  unfold slotsOk at h
  split at h <;> simp_all

theorem sameCI_comm (s t : Str) : sameCI s t = sameCI t s := by
  rw [Bool.eq_iff_iff]
  simp only [sameCI, beq_iff_eq]
  exact eq_comm

theorem sameCI_trans {s t u : Str} (h : sameCI s t = true) (h' : sameCI s u = true) :
    sameCI t u = true := by
  simp only [sameCI, beq_iff_eq] at *
  rw [← h, h']

theorem Fit.spells {i : Instr} {ts : List Str} {s : Str} (hi : slotsOk i = true) (h : Fit i ts)
    (hl : lex s = some ts) : Spells i (argOf ts) s := by
  unfold Fit at h
  have sn : ∀ {a b : Str}, sameCI a b = true → SameName b a := fun {a b} h => by
    rw [sameCI_comm] at h; exact (sameCI_iff _ _).1 h
  have sl : ∀ {x : Slot} {t : Str}, x.fits t = true → (x = .value → t = argOf ts) →
      x.Filled (argOf ts) t := by
    intro x t h h'
    cases x with
    | name n => exact sn h
    | value => exact h' rfl
  rcases lex_inv hl with ⟨m, rfl, rfl⟩ | ⟨m, b, t, rfl, rfl, hb, _⟩ |
    ⟨m, b, t, g, u, rfl, rfl, hb, _, hg, _⟩
  · cases hs : (syntaxOf i).2 with
    | nil => rw [hs] at h; exact .none hs (sn h)
    | cons x r => rw [hs] at h; cases r <;> simp [fits] at h
  · match hs : (syntaxOf i).2 with
    | [x] =>
      rw [hs] at h
      simp only [fits, Bool.and_eq_true] at h
      exact .one hs (sn h.1) ((isWs_iff b).1 hb) (sl h.2 fun _ => rfl)
    | [] => rw [hs] at h; simp [fits] at h
    | [x, y] => rw [hs] at h; simp [fits] at h
    | _ :: _ :: _ :: _ => rw [hs] at h; simp [fits] at h
  · match hs : (syntaxOf i).2 with
    | [x, y] =>
      rw [hs] at h
      simp only [fits, Bool.and_eq_true] at h
      refine .two hs (sn h.1.1) ((isWs_iff b).1 hb) (sl h.1.2 fun _ => rfl) ?_ (sl h.2 ?_)
      · rcases hg with rfl | ⟨c, hc, rfl⟩
        · exact .inl rfl
        · exact .inr ⟨c, (isWs_iff c).1 hc, rfl⟩
      · rintro rfl
        unfold slotsOk at hi
        rw [hs] at hi
        split at hi <;> simp_all
    | [] => rw [hs] at h; simp [fits] at h
    | [x] => rw [hs] at h; simp [fits] at h
    | _ :: _ :: _ :: _ => rw [hs] at h; simp [fits] at h

theorem Spells.fit {r : Operation × BitVec 8 × Instr} (hr : r ∈ rows) {w s : Str}
    (h : Spells r.2.2 w s) (hw : kindOf r.2.2 ≠ .none → w ≠ [] ∧ Wordy w) :
    ∃ ts, lex s = some ts ∧ Fit r.2.2 ts ∧ (kindOf r.2.2 ≠ .none → argOf ts = w) := by
  have sn : ∀ {a b : Str}, SameName b a → sameCI a b = true := fun {a b} h => by
    rw [sameCI_comm]; exact (sameCI_iff _ _).2 h
  have mw : ∀ {m : Str}, SameName m (syntaxOf r.2.2).1 → Wordy m := fun h =>
    sameCI_word (sn h) (Row.mword hr)
  have vk : ∀ x ∈ (syntaxOf r.2.2).2, x = .value → kindOf r.2.2 ≠ .none := by
    rintro x hx rfl hk
    rcases slots_cases hr with ⟨_, h | ⟨n, h⟩ | ⟨n, k, h⟩⟩ | ⟨h, _⟩ | ⟨h, _⟩ <;> simp_all
  have sf : ∀ x ∈ (syntaxOf r.2.2).2, ∀ t, x.Filled w t → x.fits t = true ∧ Wordy t := by
    intro x hx t h
    cases x with
    | name n => exact ⟨sn h, sameCI_word (sn h) (Row.good hr _ hx).2⟩
    | value =>
      have : t = w := h
      subst this
      obtain ⟨h1, h2⟩ := hw (vk _ hx rfl)
      exact ⟨by simpa [Slot.fits] using h1, h2⟩
  cases h with
  | none sl hm =>
    refine ⟨_, lex_one (mw hm), ?_, ?_⟩
    · unfold Fit; rw [sl]; exact sn hm
    · intro hk
      rcases slots_cases hr with ⟨h, _⟩ | ⟨_, h | ⟨n, h⟩⟩ | ⟨_, h⟩ <;> simp_all
  | @one m t b x sl hm hb ht =>
    obtain ⟨f, wt⟩ := sf x (by rw [sl]; simp) t ht
    refine ⟨_, lex_two (mw hm) ((isWs_iff b).2 hb) wt, ?_, ?_⟩
    · unfold Fit; rw [sl]; simp [fits, sn hm, f]
    · intro hk
      have : x = .value := by
        rcases slots_cases hr with ⟨h, _⟩ | ⟨_, h | ⟨n, h⟩⟩ | ⟨_, h⟩ <;> simp_all
      subst this
      exact ht
  | @two m t u g b x y sl hm hb ht hg hu =>
    obtain ⟨f, wt⟩ := sf x (by rw [sl]; simp) t ht
    obtain ⟨f', wu⟩ := sf y (by rw [sl]; simp) u hu
    refine ⟨_, lex_three (mw hm) ((isWs_iff b).2 hb) wt ?_ wu, ?_, ?_⟩
    · rcases hg with rfl | ⟨c, hc, rfl⟩
      · exact .inl rfl
      · exact .inr ⟨c, (isWs_iff c).2 hc, rfl⟩
    · unfold Fit; rw [sl]; simp [fits, sn hm, f, f']
    · intro hk
      have : x = .value := by
        rcases slots_cases hr with ⟨h, _⟩ | ⟨_, h | ⟨n, h⟩⟩ | ⟨_, h⟩ <;> simp_all
      subst this
      exact ht

def registerNames : List Str := [acName, G.name .b, G.name .c, G.name .d, G.name .e]

/-- Tokens that fit two instructions. -/
theorem Fit.meets {a b : Instr} {ts : List Str} (ha : Fit a ts) (hb : Fit b ts)
    (ok : slotsOk b = true)
    (hw : kindOf b = .byte → ∀ n ∈ registerNames, sameCI n (argOf ts) = false) : meets a b = true := by
  unfold Fit at ha hb
  have sl : ∀ {x y : Slot} {t : Str}, x.fits t = true → y.fits t = true →
      (y = .value → t = argOf ts) → slotMeets (kindOf b = .byte) x y = true := by
    intro x y t hx hy h
    cases x with
    | value => rfl
    | name n =>
      cases y with
      | name k => exact sameCI_trans (s := t) (by rw [sameCI_comm]; exact hx) (by rw [sameCI_comm]; exact hy)
      | value =>
        have := h rfl
        subst this
        simp only [slotMeets, Bool.or_eq_true, Bool.not_eq_true', decide_eq_false_iff_not]
        by_cases hk : kindOf b = .byte
        · right
          intro hm
          have := hw hk n hm
          have h2 : sameCI n (argOf ts) = true := hx
          rw [this] at h2; simp at h2
        · exact .inl hk
  unfold fits at ha
  split at ha
  · rename_i e1
    unfold Mpp.Front.meets
    rw [e1]
    match hs : (syntaxOf b).2 with
    | [] =>
      rw [hs] at hb
      simp only [fits] at hb
      simp only [Bool.and_true]
      exact sameCI_trans (by rw [sameCI_comm]; exact ha) (by rw [sameCI_comm]; exact hb)
    | [_] => rw [hs] at hb; simp [fits] at hb
    | [_, _] => rw [hs] at hb; simp [fits] at hb
    | _ :: _ :: _ :: _ => rw [hs] at hb; simp [fits] at hb
  · rename_i x a t e1
    unfold Mpp.Front.meets
    rw [e1]
    match hs : (syntaxOf b).2 with
    | [y] =>
      rw [hs] at hb
      simp only [fits, Bool.and_eq_true] at ha hb ⊢
      exact ⟨sameCI_trans (by rw [sameCI_comm]; exact ha.1) (by rw [sameCI_comm]; exact hb.1),
        sl ha.2 hb.2 fun _ => rfl⟩
    | [] => rw [hs] at hb; simp [fits] at hb
    | [_, _] => rw [hs] at hb; simp [fits] at hb
    | _ :: _ :: _ :: _ => rw [hs] at hb; simp [fits] at hb
  · rename_i x x' a t u e1
    unfold Mpp.Front.meets
    rw [e1]
    match hs : (syntaxOf b).2 with
    | [y, y'] =>
      rw [hs] at hb
      simp only [fits, Bool.and_eq_true] at ha hb ⊢
      refine ⟨sameCI_trans (by rw [sameCI_comm]; exact ha.1.1) (by rw [sameCI_comm]; exact hb.1.1),
        sl ha.1.2 hb.1.2 fun _ => rfl, sl ha.2 hb.2 ?_⟩
      rintro rfl
      unfold slotsOk at ok
      rw [hs] at ok
      split at ok <;> simp_all
    | [] => rw [hs] at hb; simp [fits] at hb
    | [_] => rw [hs] at hb; simp [fits] at hb
    | _ :: _ :: _ :: _ => rw [hs] at hb; simp [fits] at hb
  · simp at ha

theorem rows_split {p q : List (Operation × BitVec 8 × Instr)} {r : Operation × BitVec 8 × Instr}
    (e : rows = p ++ r :: q) : ∀ x ∈ p, meets x.2.2 r.2.2 = false := by
  have h := rows_apart
  rw [e, List.pairwise_append] at h
  intro x hx
  exact h.2.2 x hx r (by simp)

/-- Completeness: nothing before the row of the instruction fits its tokens. -/
theorem no_earlier {p q : List (Operation × BitVec 8 × Instr)} {r : Operation × BitVec 8 × Instr}
    (e : rows = p ++ r :: q) {ts : List Str} (hf : Fit r.2.2 ts)
    (hw : kindOf r.2.2 = .byte → ∀ n ∈ registerNames, sameCI n (argOf ts) = false) :
    ∀ x ∈ p, ¬ Fit x.2.2 ts := by
  intro x hx hf'
  have hr : r ∈ rows := by rw [e]; simp
  have := rows_split e x hx
  rw [hf'.meets hf (Row.slotsOk hr) hw] at this
  simp at this

theorem shadowed_split (seen p q : List Instr) (i : Instr) (h : shadowed seen (p ++ i :: q) = true)
    (hk : kindOf i = .byte) :
    ∃ j ∈ seen ++ p, (syntaxOf j).1 = (syntaxOf i).1 ∧ (syntaxOf j).2 = withAc (syntaxOf i).2 := by
  induction p generalizing seen with
  | nil =>
    simp only [List.nil_append, shadowed, Bool.and_eq_true, Bool.or_eq_true, List.any_eq_true,
      decide_eq_true_eq, ne_eq] at h
    rcases h.1 with h | ⟨j, hj, h1, h2⟩
    · exact absurd hk h
    · exact ⟨j, by simpa using hj, h1, h2⟩
  | cons a p ih =>
    simp only [List.cons_append, shadowed, Bool.and_eq_true] at h
    obtain ⟨j, hj, h1, h2⟩ := ih (seen ++ [a]) h.2
    exact ⟨j, by simpa using hj, h1, h2⟩

/-- Soundness: tokens that fit a byte instruction first do not have AC in place of the byte. -/
theorem not_ac {p q : List (Operation × BitVec 8 × Instr)} {r : Operation × BitVec 8 × Instr}
    (e : rows = p ++ r :: q) {ts : List Str} (hf : Fit r.2.2 ts) (hp : ∀ x ∈ p, ¬ Fit x.2.2 ts)
    (hk : kindOf r.2.2 = .byte) : ¬ SameName (argOf ts) acName := by
  intro hw
  have h := rows_shadowed
  rw [e, List.map_append, List.map_cons] at h
  obtain ⟨j, hj, h1, h2⟩ := shadowed_split _ _ _ _ h hk
  rw [List.nil_append] at hj
  obtain ⟨x, hx, rfl⟩ := List.mem_map.1 hj
  apply hp x hx
  have hr : r ∈ rows := by rw [e]; simp
  have hw' : sameCI acName (argOf ts) = true := by
    rw [sameCI_comm]; exact (sameCI_iff _ _).2 hw
  unfold Fit at hf ⊢
  rw [h1, h2]
  rcases slots_cases hr with ⟨h, _⟩ | ⟨_, h | ⟨n, h⟩⟩ | ⟨h, _⟩
  · rw [h] at hk; simp at hk
  · rw [h] at hf ⊢
    unfold fits at hf
    split at hf <;> simp_all [withAc, fits, Slot.fits, argOf]
  · rw [h] at hf ⊢
    unfold fits at hf
    split at hf <;> simp_all [withAc, fits, Slot.fits, argOf]
  · rw [h] at hk; simp at hk

/-! ## The second attempt, without the first word -/

/-- Tokens that cannot be taken for a mnemonic. -/
def Harmless (t : Str) : Prop :=
  t = [] ∨ startsT t = true ∨ checkIsHex t = true ∨ ∃ n ∈ registerNames, sameCI n t = true

theorem hex_upper {t : Str} (h : checkIsHex t = true) : checkIsHex (t.map Char.toUpper) = true := by
  have e : ∀ a b : Char, a ≤ b ↔ a.toNat ≤ b.toNat := fun a b => Iff.rfl
  simp only [checkIsHex, List.all_eq_true, List.mem_map, forall_exists_index, and_imp,
    forall_apply_eq_imp_iff₂] at *
  intro c hc
  have h1 := h c hc
  rw [← digitValue_eq] at h1 ⊢
  have hm : c ∈ "0123456789abcdefABCDEF".toList := by
    by_contra h2
    have a : c ∉ "0123456789abcdef".toList := fun h' => h2 (by simp at h' ⊢; tauto)
    have b : c ∉ "0123456789ABCDEF".toList := fun h' => h2 (by simp at h' ⊢; tauto)
    simp only [digitValue] at h1
    rw [List.idxOf?_eq_none_iff.2 a, List.idxOf?_eq_none_iff.2 b] at h1
    simp at h1
  clear h1 hc h
  revert c
  decide +kernel

theorem Harmless.no_fit {t : Str} (h : Harmless t) {x : Operation × BitVec 8 × Instr}
    (hx : x ∈ rows) : ¬ Fit x.2.2 [t] := by
  intro hf
  unfold Fit at hf
  have hs : (syntaxOf x.2.2).2 = [] := by
    match hs : (syntaxOf x.2.2).2 with
    | [] => rfl
    | [_] => rw [hs] at hf; simp [fits] at hf
    | [_, _] => rw [hs] at hf; simp [fits] at hf
    | _ :: _ :: _ :: _ => rw [hs] at hf; simp [fits] at hf
  rw [hs] at hf
  have hf : sameCI (syntaxOf x.2.2).1 t = true := hf
  obtain ⟨b1, b2⟩ := rows_bare x hx hs
  have hu : (syntaxOf x.2.2).1.map Char.toUpper = t.map Char.toUpper := by
    simpa [sameCI] using hf
  rcases h with rfl | h | h | ⟨n, hn, h⟩
  · exact Row.mne hx (List.eq_nil_of_length_eq_zero (sameCI_length hf))
  · apply Row.noT hx
    rw [hu]
    simp only [startsT, beq_iff_eq] at h
    rw [List.head?_map, h]
    rfl
  · rw [hu, hex_upper h] at b1
    simp at b1
  · have := b2 n hn
    rw [sameCI_comm, sameCI_trans (s := t) (by rw [sameCI_comm]; exact h)
      (by rw [sameCI_comm]; exact hf)] at this
    simp at this

theorem Wordy.noSpace {t : Str} (h : Wordy t) : ' ' ∉ t := fun hc =>
  absurd (h _ hc) (by decide)

theorem lex_comma {t : Str} (h : Wordy t) (s : Str) : lex (t ++ ',' :: s) = none := by
  obtain ⟨h1, h2⟩ := tok_append h (',' :: s) (by
    intro c u h; cases h; exact comma_not_word)
  rw [lex, h2]
  rfl

/-- Text of an operand. -/
theorem ArgText.harmless {i : Instr} {w : Str} {a : Arg} (h : ArgText i w a)
    (hk : kindOf i ≠ .none) : Harmless w ∧ w ≠ [] ∧ Wordy w := by
  have lab : ∀ l, w = l ∧ IsLabel l ∧ (∀ c ∈ l, WordChar c) → Harmless w ∧ w ≠ [] ∧ Wordy w := by
    rintro l ⟨rfl, ⟨h1, _⟩, h2⟩
    refine ⟨.inr (.inl (by simpa [startsT] using h1)), ?_, fun c hc => (isWord_iff c).2 (h2 c hc)⟩
    rintro rfl
    simp at h1
  have hex : ∀ n, HexValue w n → Harmless w ∧ w ≠ [] ∧ Wordy w := fun n h =>
    ⟨.inr (.inr (.inl ((hexValue_iff _ _).1 h).1)), h.ne_nil, h.word⟩
  unfold ArgText at h
  split at h
  · exact absurd (by assumption) hk
  · exact hex _ h.1
  · exact hex _ h
  · exact lab _ h
  · exact lab _ h
  · exact h.elim

theorem plain_rest {r : Operation × BitVec 8 × Instr} (hr : r ∈ rows) {w s : Str} {a : Arg}
    (h : Spells r.2.2 w s) (ha : ArgText r.2.2 w a) :
    ∀ us, lex (restWords s) = some us → ∀ x ∈ rows, ¬ Fit x.2.2 us := by
  have sn : ∀ {a b : Str}, SameName b a → sameCI a b = true := fun {a b} h => by
    rw [sameCI_comm]; exact (sameCI_iff _ _).2 h
  have mw : ∀ {m : Str}, SameName m (syntaxOf r.2.2).1 → Wordy m := fun h =>
    sameCI_word (sn h) (Row.mword hr)
  have vk : ∀ x ∈ (syntaxOf r.2.2).2, x = .value → kindOf r.2.2 ≠ .none := by
    rintro x hx rfl hk
    rcases slots_cases hr with ⟨_, h | ⟨n, h⟩ | ⟨n, k, h⟩⟩ | ⟨h, _⟩ | ⟨h, _⟩ <;> simp_all
  have sf : ∀ x ∈ (syntaxOf r.2.2).2, ∀ t, x.Filled w t → Harmless t ∧ Wordy t := by
    intro x hx t h
    cases x with
    | name n =>
      refine ⟨.inr (.inr (.inr ⟨n, ?_, sn h⟩)), sameCI_word (sn h) (Row.good hr _ hx).2⟩
      rcases rows_names r hr _ hx with h | h
      · simp at h
      · obtain ⟨k, hk, e⟩ := List.mem_map.1 h
        cases e
        exact hk
    | value =>
      have : t = w := h
      subst this
      obtain ⟨h1, _, h2⟩ := ha.harmless (vk _ hx rfl)
      exact ⟨h1, h2⟩
  have stop : ∀ t, Harmless t → Wordy t → ∀ us, lex t = some us → ∀ x ∈ rows, ¬ Fit x.2.2 us := by
    intro t h1 h2 us hu x hx
    rw [lex_one h2] at hu
    cases hu
    exact h1.no_fit hx
  have nil : ∀ us, lex [] = some us → ∀ x ∈ rows, ¬ Fit x.2.2 us :=
    stop [] (.inl rfl) (by intro c hc; simp at hc)
  cases h with
  | none sl hm =>
    rw [restWords_none (mw hm).noSpace]
    exact nil
  | @one m t b x sl hm hb ht =>
    obtain ⟨f, wt⟩ := sf x (by rw [sl]; simp) t ht
    by_cases hb' : b = ' '
    · subst hb'
      rw [restWords_append (mw hm).noSpace]
      exact stop t f wt
    · rw [restWords_none]
      · exact nil
      · simp [(mw hm).noSpace, wt.noSpace, Ne.symm hb']
  | @two m t u g b x y sl hm hb ht hg hu =>
    obtain ⟨f, wt⟩ := sf x (by rw [sl]; simp) t ht
    obtain ⟨f', wu⟩ := sf y (by rw [sl]; simp) u hu
    by_cases hb' : b = ' '
    · subst hb'
      rw [restWords_append (mw hm).noSpace, lex_comma wt]
      intro us h; simp at h
    · by_cases hg' : g = [' ']
      · subst hg'
        rw [show m ++ b :: (t ++ ',' :: ([' '] ++ u)) = (m ++ b :: (t ++ [','])) ++ ' ' :: u by simp,
          restWords_append (by simp [(mw hm).noSpace, wt.noSpace, Ne.symm hb'])]
        exact stop u f' wu
      · rw [restWords_none]
        · exact nil
        · have : ' ' ∉ g := by
            rcases hg with rfl | ⟨c, _, rfl⟩
            · simp
            · intro h; simp at h; exact hg' (by rw [h])
          simp [(mw hm).noSpace, wt.noSpace, Ne.symm hb', this, wu.noSpace]

/-- A line that begins with `T` is no instruction. -/
theorem T_line {line : Str} (h : startsT line = true) :
    ∀ us, lex line = some us → ∀ x ∈ rows, ¬ Fit x.2.2 us := by
  intro us hu x hx hf
  have hmc : ∃ m ts, us = m :: ts ∧ sameCI (syntaxOf x.2.2).1 m = true ∧ ∃ r, line = m ++ r := by
    unfold Fit at hf
    have : ∃ m ts, us = m :: ts ∧ sameCI (syntaxOf x.2.2).1 m = true := by
      unfold fits at hf
      split at hf
      · exact ⟨_, _, rfl, hf⟩
      · simp only [Bool.and_eq_true] at hf; exact ⟨_, _, rfl, hf.1⟩
      · simp only [Bool.and_eq_true] at hf; exact ⟨_, _, rfl, hf.1.1⟩
      · simp at hf
    obtain ⟨m, ts, rfl, h2⟩ := this
    refine ⟨m, ts, rfl, h2, ?_⟩
    rcases lex_inv hu with ⟨m', rfl, e⟩ | ⟨m', b, t, rfl, e, hb, _⟩ |
      ⟨m', b, t, g, u, rfl, e, hb, _, hg, _⟩ <;> cases e
    · exact ⟨[], by simp⟩
    · exact ⟨_, rfl⟩
    · exact ⟨_, rfl⟩
  obtain ⟨m, ts, rfl, h2, r, rfl⟩ := hmc
  cases m with
  | nil => exact Row.mne hx (List.eq_nil_of_length_eq_zero (sameCI_length h2))
  | cons c m =>
    simp only [startsT, List.cons_append, List.head?_cons, beq_iff_eq, Option.some.injEq] at h
    subst h
    apply Row.noT hx
    have hu : (syntaxOf x.2.2).1.map Char.toUpper = ('T' :: m).map Char.toUpper := by
      simpa [sameCI] using h2
    rw [hu]; rfl

/-! ## Translation -/

theorem translate_of {r : Operation × BitVec 8 × Instr} (hr : r ∈ rows) {ts : List Str}
    (hf : Fit r.2.2 ts) (labels : List Str) :
    translate labels r.1 ts =
      if kindOf r.2.2 = .none then [r.1.HEX] else translateOperand labels r.1 (argOf ts) := by
  unfold Fit at hf
  have hv := Row.value hr
  have hn := Row.noValue hr
  unfold fits at hf
  split at hf
  · rename_i e
    rcases slots_cases hr with ⟨h, _⟩ | ⟨_, h | ⟨n, h⟩⟩ | ⟨_, h⟩
    · rw [if_pos h]; rfl
    all_goals rw [h] at e; simp at e
  · rename_i x a t e
    rw [translate]
    rcases slots_cases hr with ⟨h, _⟩ | ⟨h, _⟩ | ⟨h, _⟩
    · rw [if_pos h, if_pos]
      rcases hn with hn | hn | hn
      · exact absurd h hn
      · exact hn
      · rw [hn] at e; simp at e
    all_goals
      rw [h] at hv ⊢
      rw [if_neg (by simp at hv; omega), if_neg (by simp)]
      rfl
  · rename_i x y a t u e
    rw [translate]
    rcases slots_cases hr with ⟨h, _⟩ | ⟨h, _⟩ | ⟨h, _⟩
    · rw [if_pos h, if_pos]
      rcases hn with hn | hn | hn
      · exact absurd h hn
      · exact hn
      · rw [hn] at e; simp at e
    all_goals
      rw [h] at hv ⊢
      rw [if_neg (by simp at hv; omega), if_neg (by simp)]
      rfl
  · simp at hf

theorem translate_label {r : Operation × BitVec 8 × Instr} {labels : List Str} {w : Str}
    (h : startsT w = true) :
    translateOperand labels r.1 w = if w ∈ labels then [r.1.HEX, w] else [] := by
  have : w ≠ [] := by rintro rfl; simp [startsT] at h
  rw [translateOperand, if_neg this, if_pos h]

theorem translate_byte {r : Operation × BitVec 8 × Instr} (hr : r ∈ rows)
    (hk : kindOf r.2.2 = .byte) {labels : List Str} {w : Str} {n : Nat} (h : HexValue w n) :
    translateOperand labels r.1 w =
      if n < 256 then [r.1.HEX, (padStart 2 (toHex n)).take 2] else [] := by
  obtain ⟨h1, h2⟩ := (hexValue_iff _ _).1 h
  rw [translateOperand, if_neg h.ne_nil, hex_not_T h1, if_neg (by simp), if_neg (by simp [h1]), h2,
    Row.dir hr, Row.inm hr, hk]
  by_cases hn : n < 256
  · rw [if_pos hn]
    simp [show ¬ n > 255 by omega]
  · rw [if_neg hn]
    simp [show n > 255 by omega]

theorem translate_addr {r : Operation × BitVec 8 × Instr} (hr : r ∈ rows)
    (hk : kindOf r.2.2 = .addr) {labels : List Str} {w : Str} {n : Nat} (h : HexValue w n) :
    translateOperand labels r.1 w =
      if n < 65536 then [r.1.HEX, (padStart 4 (toHex n)).take 2, (padStart 4 (toHex n)).drop 2]
      else [] := by
  obtain ⟨h1, h2⟩ := (hexValue_iff _ _).1 h
  rw [translateOperand, if_neg h.ne_nil, hex_not_T h1, if_neg (by simp), if_neg (by simp [h1]), h2,
    Row.dir hr, Row.inm hr, hk]
  by_cases hn : n < 65536
  · rw [if_pos hn]
    simp [show ¬ n > 65535 by omega]
  · rw [if_neg hn]
    simp [show n > 65535 by omega]

theorem translate_ne_nil {op : Operation} {labels : List Str} {w : Str}
    (h : translateOperand labels op w ≠ []) : startsT w = true ∨ ∃ n, HexValue w n := by
  unfold translateOperand at h
  simp only at h
  split at h
  · exact absurd rfl h
  · split at h
    · left; assumption
    · split at h
      · exact absurd rfl h
      · right
        rename_i h1 _ h2
        exact hexValue_exists (by simpa using h2) h1

/-! ## Lines and statements -/

/-- What the first pass leaves for a statement, `r` being the row of its instruction. -/
def Codes (labels : List Str) (r : Operation × BitVec 8 × Instr) (a : Arg) (codes : List Str) : Prop :=
  match a with
  | .none => codes = [r.1.HEX]
  | .num n =>
    if n < 256 ^ (r.2.2.size - 1) then
      match kindOf r.2.2 with
      | .byte => ∃ x, codes = [r.1.HEX, x] ∧ HexByte x (BitVec.ofNat 8 n)
      | .addr => ∃ x y, codes = [r.1.HEX, x, y] ∧ HexByte x (BitVec.ofNat 8 (n / 256)) ∧
          HexByte y (BitVec.ofNat 8 (n % 256))
      | .none => False
    else codes = []
  | .label l => codes = if l ∈ labels then [r.1.HEX, l] else []

theorem kind_size {i : Instr} : (kindOf i = .byte ↔ i.size = 2) ∧ (kindOf i = .addr ↔ i.size = 3) := by
  unfold kindOf
  split <;> simp_all

theorem ArgText.codes {r : Operation × BitVec 8 × Instr} (hr : r ∈ rows) {w : Str} {a : Arg}
    (ha : ArgText r.2.2 w a) {ts : List Str} (hf : Fit r.2.2 ts)
    (hw : kindOf r.2.2 ≠ .none → argOf ts = w) (labels : List Str) :
    Codes labels r a (translate labels r.1 ts) := by
  rw [translate_of hr hf]
  unfold ArgText at ha
  split at ha
  · rename_i h
    rw [if_pos h]; rfl
  · rename_i n h
    rw [if_neg (by rw [h]; simp), hw (by rw [h]; simp), translate_byte hr h ha.1]
    simp only [Codes]
    rw [kind_size.1.1 h, h]
    by_cases hn : n < 256
    · rw [if_pos hn, if_pos (by simpa using hn)]
      exact ⟨_, rfl, pad2 hn⟩
    · rw [if_neg hn, if_neg (by simpa using hn)]
  · rename_i n h
    rw [if_neg (by rw [h]; simp), hw (by rw [h]; simp), translate_addr hr h ha]
    simp only [Codes]
    rw [kind_size.2.1 h, h]
    by_cases hn : n < 65536
    · rw [if_pos hn, if_pos (by simpa using hn)]
      exact ⟨_, _, rfl, pad4 hn⟩
    · rw [if_neg hn, if_neg (by simpa using hn)]
  · rename_i l h
    rw [if_neg (by rw [h]; simp), hw (by rw [h]; simp),
      translate_label (by rw [ha.1]; simpa [startsT] using ha.2.1.1), ha.1]
    rfl
  · rename_i l h
    rw [if_neg (by rw [h]; simp), hw (by rw [h]; simp),
      translate_label (by rw [ha.1]; simpa [startsT] using ha.2.1.1), ha.1]
    rfl
  · exact ha.elim

theorem hex_not_reg {w : Str} (h : checkIsHex w = true) {n : Str} (hn : n ∈ registerNames)
    (hne : n ≠ acName) : sameCI n w = false := by
  rw [Bool.eq_false_iff]
  intro hs
  have h1 := hex_upper h
  have hu : n.map Char.toUpper = w.map Char.toUpper := by simpa [sameCI] using hs
  rw [← hu] at h1
  clear hs hu
  revert n
  decide +kernel

/-- A byte operand is not taken for a register. -/
theorem ArgText.not_reg {i : Instr} {w : Str} {a : Arg} (ha : ArgText i w a) (hk : kindOf i = .byte) :
    ∀ n ∈ registerNames, sameCI n w = false := by
  intro n hn
  unfold ArgText at ha
  rw [hk] at ha
  split at ha
  · rename_i h; simp at h
  · by_cases he : n = acName
    · subst he
      rw [Bool.eq_false_iff]
      intro hs
      rw [sameCI_comm] at hs
      exact ha.2 ((sameCI_iff _ _).1 hs)
    · exact hex_not_reg ((hexValue_iff _ _).1 ha.1).1 hn he
  · rename_i h; simp at h
  · rename_i l _
    rw [Bool.eq_false_iff]
    intro hs
    obtain ⟨rfl, ⟨h1, _⟩, _⟩ := ha
    have hu : n.map Char.toUpper = w.map Char.toUpper := by simpa [sameCI] using hs
    have : (n.map Char.toUpper).head? = some 'T' := by
      rw [hu, List.head?_map, h1]; rfl
    clear hs hu
    revert n
    decide +kernel
  · rename_i h; simp at h
  · exact ha.elim

/-- Completeness for a line: a statement is recognised, with its label. -/
theorem Reads.exec {line : Str} {st : Stmt} (hn : NoTerm line) (h : Reads line st)
    (labels : List Str) :
    ∃ r ∈ rows, r.2.2 = st.instr ∧ ∃ codes,
      executeRegex labels line = some (codes, st.label.getD [], r.1) ∧ Codes labels r st.arg codes := by
  obtain ⟨w, s, hs, ha, hl⟩ := h
  obtain ⟨r, hr, e⟩ := instr_row st.instr
  rw [← e] at hs ha
  obtain ⟨ts, h1, h2, h3⟩ := hs.fit hr fun hk => (ha.harmless hk).2
  obtain ⟨p, q, hpq⟩ := List.append_of_mem hr
  have hp := no_earlier hpq h2 (by
    intro hk
    rw [h3 (by rw [hk]; simp)]
    exact ha.not_reg hk)
  refine ⟨r, hr, e, translate labels r.1 ts, ?_, ha.codes hr h2 h3 labels⟩
  rw [executeRegex, ← rows_fst]
  cases hlab : st.label with
  | none =>
    rw [hlab] at hl
    subst hl
    have := executeRegexFrom_plain (labels := labels) hn (p := p) (q := q) (r := r) (ts := ts)
      (by intro x hx; rw [hpq]; exact hx) h1 h2 hp (plain_rest hr hs ha)
    rw [← hpq] at this
    exact this
  | some l =>
    rw [hlab] at hl
    obtain ⟨⟨t1, t2⟩, rfl⟩ := hl
    have fw := firstWord_append t2 s
    have st : startsT (l ++ ' ' :: s) = true := by
      cases l with
      | nil => simp at t1
      | cons c l => simpa [startsT] using t1
    have := executeRegexFrom_label (labels := labels) hn (p := p) (q := q) (r := r) (ts := ts)
      (by intro x hx; rw [hpq]; exact hx) (by rw [restWords_append t2]; exact h1) h2 hp
      (by rw [fw]; simpa [startsT] using t1) (T_line st)
    rw [← hpq, fw] at this
    exact this

/-- Soundness for a line: what is accepted is a statement. -/
theorem exec_reads {line : Str} (hn : NoTerm line) {labels : List Str} {codes : List Str} {eti : Str}
    {op : Operation} (h : executeRegex labels line = some (codes, eti, op)) (hc : codes ≠ []) :
    ∃ st, Reads line st := by
  rw [executeRegex, ← rows_fst] at h
  obtain ⟨p, r, q, ts, hpq, rfl, hf, hp, rfl, hl⟩ := executeRegexFrom_some hn rows (fun _ h => h) h
  have hr : r ∈ rows := by rw [hpq]; simp
  have hne : kindOf r.2.2 ≠ .none → translateOperand labels r.1 (argOf ts) ≠ [] := by
    intro hk
    rw [translate_of hr hf, if_neg hk] at hc
    exact hc
  have wordy : ∀ s, lex s = some ts → kindOf r.2.2 ≠ .none → Wordy (argOf ts) := by
    intro s hs hk
    rcases lex_inv hs with ⟨m', rfl, rfl⟩ | ⟨m', b, t, rfl, rfl, hb, h⟩ |
      ⟨m', b, t, g, u, rfl, rfl, hb, h, hg, _⟩
    · intro c hc; simp [argOf] at hc
    · exact h
    · exact h
  have arg : ∀ s, lex s = some ts → ∃ a, ArgText r.2.2 (argOf ts) a := by
    intro s hs
    have lab : kindOf r.2.2 ≠ .none → startsT (argOf ts) = true →
        argOf ts = argOf ts ∧ IsLabel (argOf ts) ∧ ∀ c ∈ argOf ts, WordChar c := fun hk h =>
      ⟨rfl, ⟨by simpa [startsT] using h, (wordy s hs hk).noSpace⟩,
        fun c hc => (isWord_iff c).1 (wordy s hs hk c hc)⟩
    cases hk : kindOf r.2.2 with
    | none => exact ⟨.none, by unfold ArgText; rw [hk]; trivial⟩
    | byte =>
      rcases translate_ne_nil (hne (by rw [hk]; simp)) with h | ⟨n, h⟩
      · exact ⟨.label (argOf ts), by unfold ArgText; rw [hk]; exact lab (by rw [hk]; simp) h⟩
      · exact ⟨.num n, by unfold ArgText; rw [hk]; exact ⟨h, not_ac hpq hf hp hk⟩⟩
    | addr =>
      rcases translate_ne_nil (hne (by rw [hk]; simp)) with h | ⟨n, h⟩
      · exact ⟨.label (argOf ts), by unfold ArgText; rw [hk]; exact lab (by rw [hk]; simp) h⟩
      · exact ⟨.num n, by unfold ArgText; rw [hk]; exact h⟩
  rcases hl with ⟨rfl, hl⟩ | ⟨ht, rfl, hl⟩
  · obtain ⟨a, ha⟩ := arg _ hl
    exact ⟨⟨none, r.2.2, a⟩, argOf ts, line, hf.spells (Row.slotsOk hr) hl, ha, rfl⟩
  · obtain ⟨a, ha⟩ := arg _ hl
    refine ⟨⟨some (firstWord line), r.2.2, a⟩, argOf ts, restWords line,
      hf.spells (Row.slotsOk hr) hl, ha, ?_⟩
    rcases words_cases line with ⟨h1, h2, h3⟩ | ⟨h1, h2⟩
    · exfalso
      rw [h3, lex_one (by intro c hc; simp at hc)] at hl
      cases hl
      exact Harmless.no_fit (.inl rfl) hr hf
    · exact ⟨⟨by simpa [startsT] using ht, h2⟩, h1⟩

end Mpp.Front
