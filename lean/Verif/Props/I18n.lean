import Verif.Front.I18n
/-!
# Property C60: the languages of the page
-/
namespace Mpp.Front

/-! ## The tables -/

theorem entry_some {t : List (String × String)} {key : String} :
    (∃ v, entry t key = some v) ↔ key ∈ t.map (·.1) := by
  induction t with
  | nil => simp [entry]
  | cons e t ih =>
    obtain ⟨k, v⟩ := e
    unfold entry
    by_cases h : k = key
    · simp [h]
    · rw [if_neg h, ih]
      simp [Ne.symm h]

theorem entry_mem {t : List (String × String)} {key v : String} (h : entry t key = some v) :
    (key, v) ∈ t := by
  induction t with
  | nil => cases h
  | cons e t ih =>
    obtain ⟨k, w⟩ := e
    unfold entry at h
    by_cases hk : k = key
    · rw [if_pos hk] at h
      cases h; subst hk; simp
    · rw [if_neg hk] at h
      exact List.mem_cons_of_mem _ (ih h)

theorem keys_eu : ∀ k, k ∈ euTable.map (·.1) ↔ k ∈ enTable.map (·.1) := by
  have h1 : ∀ k ∈ euTable.map (·.1), k ∈ enTable.map (·.1) := by decide +kernel
  have h2 : ∀ k ∈ enTable.map (·.1), k ∈ euTable.map (·.1) := by decide +kernel
  exact fun k => ⟨h1 k, h2 k⟩

theorem keys_es : ∀ k, k ∈ esTable.map (·.1) ↔ k ∈ enTable.map (·.1) := by
  have h1 : ∀ k ∈ esTable.map (·.1), k ∈ enTable.map (·.1) := by decide +kernel
  have h2 : ∀ k ∈ enTable.map (·.1), k ∈ esTable.map (·.1) := by decide +kernel
  exact fun k => ⟨h1 k, h2 k⟩

theorem texts_full : ∀ t ∈ [euTable, enTable, esTable], ∀ e ∈ t, e.2 ≠ "" := by decide +kernel

theorem data_cases (lang : String) :
    languageData lang = euTable ∨ languageData lang = enTable ∨ languageData lang = esTable := by
  unfold languageData
  split
  · exact .inl rfl
  · split
    · exact .inr (.inl rfl)
    · split
      · exact .inr (.inr rfl)
      · exact .inr (.inl rfl)

theorem loc_some (lang key : String) : (loc lang key).isSome = true ↔ key ∈ enTable.map (·.1) := by
  have hk : key ∈ (languageData lang).map (·.1) ↔ key ∈ enTable.map (·.1) := by
    rcases data_cases lang with h | h | h <;> rw [h]
    · exact keys_eu key
    · exact keys_es key
  have hf : ∀ e ∈ languageData lang, e.2 ≠ "" := by
    rcases data_cases lang with h | h | h <;> rw [h] <;> exact texts_full _ (by simp)
  rw [← hk, ← entry_some]
  unfold loc
  cases he : entry (languageData lang) key with
  | none => simp
  | some v =>
    have : v ≠ "" := hf _ (entry_mem he)
    split
    · rename_i h; cases h; exact absurd rfl this
    · simp

/-- **C60.** The three languages have texts for the same keys, none of them empty: whatever the language
is (also one that is not offered, for which English is used), either every language has a text for a key
or none has. -/
theorem C60_same (key lang lang' : String) :
    (loc lang key).isSome = (loc lang' key).isSome ∧ loc lang key ≠ some "" := by
  refine ⟨?_, ?_⟩
  · rw [Bool.eq_iff_iff, loc_some, loc_some]
  · unfold loc
    split
    · simp
    · rename_i h; exact h

theorem used_table : ∀ k ∈ usedKeys, k = "memory.writting" ∨ k ∈ enTable.map (·.1) := by decide +kernel

/-- **C60.** Every text that the page asks for exists in every language, but for one. -/
theorem C60_used_partial (key : String) (hk : key ∈ usedKeys) (hw : key ≠ "memory.writting")
    (lang : String) : ∃ text, loc lang key = some text ∧ text ≠ "" := by
  have h := (loc_some lang key).2 ((used_table key hk).resolve_left hw)
  obtain ⟨text, ht⟩ := Option.isSome_iff_exists.1 h
  exact ⟨text, ht, fun e => (C60_same key lang lang).2 (by rw [ht, e])⟩

/-- Not every text exists: the memory box asks for one under a misspelt key (`MemoryNode.tsx:175`), so it
says nothing, in every language, while memory is written. -/
theorem C60_writing_wrong : "memory.writting" ∈ usedKeys ∧
    (∀ lang, loc lang "memory.writting" = none) ∧ ∀ lang, (loc lang "memory.writing").isSome = true := by
  refine ⟨by decide +kernel, fun lang => ?_, fun lang => (loc_some _ _).2 (by decide +kernel)⟩
  have : ¬ (loc lang "memory.writting").isSome = true := by
    rw [loc_some]; decide +kernel
  simpa using this

/-- **C60.** The texts of a supported language are those of its table. -/
theorem C60_own (key text : String) :
    (loc "en" key = some text → (key, text) ∈ enTable) ∧
    (loc "es" key = some text → (key, text) ∈ esTable) ∧
    (loc "eu" key = some text → (key, text) ∈ euTable) := by
  have go : ∀ lang, loc lang key = some text → (key, text) ∈ languageData lang := by
    intro lang h
    unfold loc at h
    split at h
    · cases h
    · exact entry_mem h
  exact ⟨go "en", go "es", go "eu"⟩

example : loc "eu" "words.save" ≠ loc "es" "words.save" ∧ loc "fr" "words.save" = some "Save" := by
  decide +kernel

/-! ## Every text is in the language that is set -/

/-- No two components share a listener, every one has its own in the list, and the texts are in the
language that is set. -/
structure Texts.Good (t : Texts) : Prop where
  nodup : t.listeners.Nodup
  fresh : ∀ id ∈ t.listeners, id < t.next
  same : t.labels.map Label.id = t.listeners
  same_key : ∀ l ∈ t.labels, l.text = loc t.lang l.key ∨ l.text = loc t.lang l.first

theorem tellAll_eq (lang : String) (ids : List Nat) (ls : List Label) :
    tellAll lang ids ls = ls.map fun l =>
      if l.id ∈ ids then { l with text := loc lang l.first } else l := by
  induction ids generalizing ls with
  | nil => simp [tellAll]
  | cons id ids ih =>
    rw [tellAll, ih, List.map_map]
    apply List.map_congr_left
    intro l _
    simp only [Function.comp, Label.told]
    by_cases h : l.id = id
    · simp [h]
    · simp [h]

theorem erase_map {ls : List Label} {id : Nat} (hn : (ls.map Label.id).Nodup) :
    (ls.filter fun l => ¬ (l.id = id)).map Label.id = (ls.map Label.id).erase id := by
  rw [hn.erase_eq_filter, List.filter_map]
  congr 1
  apply List.filter_congr
  intro l _
  by_cases h : l.id = id <;> simp [Function.comp, h]

theorem Texts.Good.step {t : Texts} (g : t.Good) (e : TextEvent) : (t.step e).Good := by
  cases e with
  | mount key =>
    refine ⟨?_, ?_, ?_, ?_⟩
    · show (t.listeners ++ [t.next]).Nodup
      rw [List.nodup_append]
      refine ⟨g.nodup, by simp, ?_⟩
      intro a ha b hb
      rw [List.mem_singleton.1 hb]
      have := g.fresh a ha
      omega
    · intro id hid
      show id < t.next + 1
      rcases List.mem_append.1 hid with h | h
      · have := g.fresh id h; omega
      · rw [List.mem_singleton.1 h]; omega
    · show (t.labels ++ [_]).map Label.id = t.listeners ++ [t.next]
      rw [List.map_append, g.same]; rfl
    · intro l hl
      rcases List.mem_append.1 hl with h | h
      · exact g.same_key l h
      · rw [List.mem_singleton.1 h]; exact .inl rfl
  | rekey id key =>
    refine ⟨g.nodup, g.fresh, ?_, ?_⟩
    · show (t.labels.map _).map Label.id = t.listeners
      rw [List.map_map, ← g.same]
      apply List.map_congr_left
      intro l _
      simp only [Function.comp]
      split <;> rfl
    · intro l hl
      have hl : l ∈ t.labels.map _ := hl
      rw [List.mem_map] at hl
      obtain ⟨l', hl', rfl⟩ := hl
      split
      · exact .inl rfl
      · exact g.same_key l' hl'
  | unmount id =>
    simp only [Texts.step]
    split
    · rename_i h
      simp only [List.any_eq_true, decide_eq_true_eq] at h
      obtain ⟨l, hl, rfl⟩ := h
      have hm : l.id ∈ t.listeners := by rw [← g.same]; exact List.mem_map_of_mem hl
      have hs : spliceOut t.listeners l.id = t.listeners.erase l.id := by simp [spliceOut, hm]
      refine ⟨?_, ?_, ?_, ?_⟩
      · show (spliceOut t.listeners l.id).Nodup
        rw [hs]; exact g.nodup.erase _
      · intro id hid
        have hid : id ∈ spliceOut t.listeners l.id := hid
        rw [hs] at hid
        exact g.fresh id (List.mem_of_mem_erase hid)
      · show _ = spliceOut t.listeners l.id
        rw [hs, ← g.same]
        exact erase_map (by rw [g.same]; exact g.nodup)
      · intro l' hl'
        exact g.same_key l' (List.mem_filter.1 hl').1
    · exact g
  | language lang =>
    refine ⟨g.nodup, g.fresh, ?_, ?_⟩
    · show (tellAll lang t.listeners t.labels).map Label.id = t.listeners
      rw [tellAll_eq, List.map_map, ← g.same]
      apply List.map_congr_left
      intro l _
      simp only [Function.comp]
      split <;> rfl
    · intro l hl
      have hl : l ∈ tellAll lang t.listeners t.labels := hl
      rw [tellAll_eq, List.mem_map] at hl
      obtain ⟨l', hl', rfl⟩ := hl
      have hm : l'.id ∈ t.listeners := by rw [← g.same]; exact List.mem_map_of_mem hl'
      rw [if_pos hm]
      exact .inr rfl

/-- **C60.** However components come and go and the language is changed, every component that is on the
page shows its text in the language set last, provided its key is the one it began with. Missing: a
component that is rendered with another key, which may show the text of the first one, but still in
the language set last; see `C60_status_wrong`. -/
theorem C60_shown_partial (lang : String) (es : List TextEvent) :
    let t := (Texts.start lang).steps es
    ∀ l ∈ t.labels, (l.key = l.first → l.text = loc t.lang l.key) ∧
      (l.text = loc t.lang l.key ∨ l.text = loc t.lang l.first) := by
  have go : ∀ (es : List TextEvent) (t : Texts), t.Good → (t.steps es).Good := by
    intro es
    induction es with
    | nil => intro t g; exact g
    | cons e es ih => intro t g; exact ih _ (g.step e)
  have g0 : (Texts.start lang).Good :=
    ⟨List.nodup_nil, fun _ h => (by cases h), rfl, fun _ h => (by cases h)⟩
  intro t l hl
  have h := (go es _ g0).same_key l hl
  exact ⟨fun hk => by rcases h with h | h <;> rw [h] <;> simp [t, hk], h⟩

/-- The language set last, and which components are there, spelt out. -/
theorem C60_language (t : Texts) (lang : String) : (t.step (.language lang)).lang = lang ∧
    (t.step (.language lang)).labels.map (fun l => (l.id, l.key)) = t.labels.map fun l => (l.id, l.key) := by
  refine ⟨rfl, ?_⟩
  show (tellAll lang t.listeners t.labels).map _ = _
  rw [tellAll_eq, List.map_map]
  apply List.map_congr_left
  intro l _
  simp only [Function.comp]
  split <;> rfl

/-- Not always is it the right text: the status line (`RunButtons.tsx:282`) and the line of the memory
box (`MemoryNode.tsx:175`) each have one component that is rendered with one of two keys. When the
language is changed while a program runs, the status becomes "stopped"; when it is changed while memory
is written, the box says that it is read. -/
theorem C60_status_wrong :
    (∃ l ∈ ((Texts.start "es").steps
        [.mount "status.stopped", .rekey 0 "status.running", .language "en"]).labels,
      l.key = "status.running" ∧ l.text = loc "en" "status.stopped" ∧ l.text ≠ loc "en" l.key) ∧
    ∃ l ∈ ((Texts.start "es").steps
        [.mount "memory.reading", .rekey 0 "memory.writting", .language "en"]).labels,
      l.key = "memory.writting" ∧ l.text = loc "en" "memory.reading" ∧ l.text ≠ none := by
  decide +kernel

example : ((Texts.start "es").steps [.mount "words.yes", .mount "words.save", .unmount 0,
      .language "en", .mount "words.no", .language "eu", .unmount 7]).labels.map (fun l => (l.id, l.text)) =
    [(1, loc "eu" "words.save"), (2, loc "eu" "words.no")] := by decide +kernel

/-- Removing a listener that is not there removes another one (`lib/i18n/index.ts:54`); React calls the
function once only. -/
example : spliceOut [1, 2] 3 = [1] := by decide

/-! ## The language that is stored -/

theorem takeWhile_before (l : List Char) : '-' ∉ l.takeWhile (· ≠ '-') ∧
    (l = l.takeWhile (· ≠ '-') ∨ ∃ rest, l = l.takeWhile (· ≠ '-') ++ '-' :: rest) := by
  induction l with
  | nil => simp
  | cons c l ih =>
    by_cases hc : c = '-'
    · subst hc; simp
    · rw [List.takeWhile_cons_of_pos (by simpa using hc)]
      refine ⟨?_, ?_⟩
      · rw [List.mem_cons]
        rintro (h | h)
        · exact hc h.symm
        · exact ih.1 h
      · rcases ih.2 with h | ⟨rest, h⟩
        · exact .inl (congrArg (c :: ·) h)
        · exact .inr ⟨rest, congrArg (c :: ·) h⟩

theorem navigatorLang_before (language : String) : '-' ∉ (navigatorLang language).toList ∧
    (language = navigatorLang language ∨ ∃ rest, language = navigatorLang language ++ "-" ++ rest) := by
  have h := takeWhile_before language.toList
  unfold navigatorLang
  rw [String.toList_ofList]
  refine ⟨h.1, h.2.imp (fun e => ?_) fun ⟨rest, e⟩ => ⟨String.ofList rest, ?_⟩⟩
  · rw [← e, String.ofList_toList]
  · apply String.toList_inj.1
    simpa using e

/-- **C60.** After any visits and choices, the language that the settings show is the language of the
texts and the one that is stored; with nothing stored, it is that of the browser without the region, whatever
the default in the settings. -/
theorem C60_stored (stored : Option String) (navigator : String) (vs : List Visit) :
    let l := (Language.load stored navigator).steps vs
    l.box = l.active ∧ l.stored = some l.active ∧
      (vs = [] → (∀ x, stored = some x → l.active = x) ∧ (stored = none → '-' ∉ l.active.toList ∧
        (navigator = l.active ∨ ∃ region, navigator = l.active ++ "-" ++ region))) := by
  have load : ∀ st nav, (Language.load st nav).box = (Language.load st nav).active ∧
      (Language.load st nav).stored = some (Language.load st nav).active ∧
      (Language.load st nav).active = st.getD (navigatorLang nav) := by
    intro st nav
    cases st <;> exact ⟨rfl, rfl, rfl⟩
  have go : ∀ (vs : List Visit) (l : Language), l.box = l.active ∧ l.stored = some l.active →
      (l.steps vs).box = (l.steps vs).active ∧ (l.steps vs).stored = some (l.steps vs).active := by
    intro vs
    induction vs with
    | nil => intro l h; exact h
    | cons v vs ih =>
      intro l h
      apply ih
      cases v with
      | load nav => exact ⟨(load _ _).1, (load _ _).2.1⟩
      | choose lang => exact ⟨rfl, rfl⟩
  refine ⟨(go vs _ ⟨(load _ _).1, (load _ _).2.1⟩).1, (go vs _ ⟨(load _ _).1, (load _ _).2.1⟩).2, ?_⟩
  rintro rfl
  have h := (load stored navigator).2.2
  refine ⟨fun x e => ?_, fun e => ?_⟩
  · show (Language.load stored navigator).active = x
    rw [h, e]; rfl
  · show '-' ∉ (Language.load stored navigator).active.toList ∧ (navigator = (Language.load stored navigator).active ∨
      ∃ region, navigator = (Language.load stored navigator).active ++ "-" ++ region)
    rw [h, e]
    exact navigatorLang_before navigator

/-- **C60.** A chosen language is there after any number of further visits. -/
theorem C60_kept (l : Language) (lang : String) (navs : List String) :
    (l.steps (.choose lang :: navs.map .load)).active = lang := by
  have go : ∀ (navs : List String) (l : Language), l.active = lang ∧ l.stored = some lang →
      (l.steps (navs.map .load)).active = lang := by
    intro navs
    induction navs with
    | nil => intro l h; exact h.1
    | cons n navs ih =>
      intro l h
      apply ih
      simp [Language.step, Language.load, getStored, h.2]
  exact go navs _ ⟨rfl, rfl⟩

/-- Not always is the language one of those offered: a browser in another language makes the settings
show that language, with the texts in English. -/
theorem C60_offered_wrong : (Language.load none "fr-FR").active = "fr" ∧
    "fr" ∉ availableLanguages ∧ languageData "fr" = enTable := by
  refine ⟨by decide +kernel, by decide, ?_⟩
  unfold languageData
  rw [if_neg (by decide), if_neg (by decide), if_neg (by decide)]

/-- **C60, the choices.** The languages that the settings offer are those with texts of their own: any other
language has the texts of English, and no two of those offered have the same texts. -/
theorem C60_offers : (∀ lang, lang ∉ availableLanguages → languageData lang = languageData "en") ∧
    availableLanguages.Pairwise fun a b => languageData a ≠ languageData b := by
  constructor
  · intro lang h
    have h1 : lang ≠ "eu" := by rintro rfl; exact h (by decide)
    have h2 : lang ≠ "es" := by rintro rfl; exact h (by decide)
    simp [languageData, h1, h2]
  · decide +kernel

example : (Language.load none "eu-ES").active = "eu" ∧ "eu" ∈ availableLanguages := by decide +kernel

end Mpp.Front
