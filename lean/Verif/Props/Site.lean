import Verif.Front.Site
import Mathlib.Data.List.Basic
/-!
# C82, C83: the navigation and the theme of the documentation
-/
namespace Mpp.Front

/-! ## The side bar -/

/-- The items of a section: its header, if it has one, and its links. -/
def Section.items (s : Section) : List SideItem :=
  (s.head.map SideItem.head).toList ++ s.children.map fun c => .link c.1 c.2

theorem sideFrom_spec (items : List SideItem) (col : List Section) (i : Nat)
    (h : (i = 0 ∧ col = []) ∨ (i ≠ 0 ∧ col ≠ [])) (hc : ∀ s ∈ col.tail, s.head ≠ none) :
    ∃ ss, sideFrom col i items = some ss ∧ ss.flatMap Section.items = col.flatMap Section.items ++ items ∧
      (∀ s ∈ ss.tail, s.head ≠ none) ∧ (col ≠ [] → ss.head?.map Section.head = col.head?.map Section.head) := by
  induction items generalizing col i with
  | nil => exact ⟨col, rfl, by simp, hc, fun _ => rfl⟩
  | cons x xs ih =>
    have grow : ∀ (col : List Section) (s : Section) c, (col ++ [s]) ≠ [] →
        pushChild (col ++ [s]) c = some (col ++ [{ s with children := s.children ++ [c] }]) := by
      intro col s c _
      simp [pushChild]
    cases x with
    | head t =>
      have tl : ∀ s ∈ (col ++ [(⟨some t, []⟩ : Section)]).tail, s.head ≠ none := by
        intro s hs
        cases col with
        | nil => simp at hs
        | cons d col =>
          simp only [List.cons_append, List.tail_cons, List.mem_append, List.mem_singleton] at hs
          rcases hs with hs | rfl
          · exact hc s hs
          · simp
      obtain ⟨ss, e, f, t', g⟩ := ih (col ++ [⟨some t, []⟩]) (i + 1) (.inr ⟨by omega, by simp⟩) tl
      refine ⟨ss, by simpa [sideFrom, sideStep] using e, ?_, t', fun ne => ?_⟩
      · rw [f]; simp [Section.items]
      · rw [g (by simp), List.head?_append_of_ne_nil _ ne]
    | link t l =>
      have : ∃ col' s, (if i = 0 then col ++ [(⟨none, []⟩ : Section)] else col) = col' ++ [s] ∧
          (col' ++ [s]).flatMap Section.items = col.flatMap Section.items ∧
          (∀ s' ∈ (col' ++ [s]).tail, s'.head ≠ none) ∧
          (col ≠ [] → (col' ++ [s]).head?.map Section.head = col.head?.map Section.head) := by
        rcases h with ⟨rfl, rfl⟩ | ⟨h, ne⟩
        · exact ⟨[], ⟨none, []⟩, rfl, by simp [Section.items], by simp, fun h => absurd rfl h⟩
        · rw [if_neg h]
          refine ⟨col.dropLast, col.getLast ne, (List.dropLast_concat_getLast ne).symm, ?_, ?_, ?_⟩
          · rw [List.dropLast_concat_getLast ne]
          · rw [List.dropLast_concat_getLast ne]; exact hc
          · rw [List.dropLast_concat_getLast ne]; exact fun _ => rfl
      obtain ⟨col', s, e1, e2, e3, e4⟩ := this
      have tl : ∀ s' ∈ (col' ++ [{ s with children := s.children ++ [(t, l)] }]).tail, s'.head ≠ none := by
        intro s' hs
        cases col' with
        | nil => simp at hs
        | cons d col' =>
          simp only [List.cons_append, List.tail_cons, List.mem_append, List.mem_singleton] at hs e3
          rcases hs with hs | rfl
          · exact e3 s' (.inl hs)
          · exact e3 s (.inr rfl)
      obtain ⟨ss, e, f, t', g⟩ := ih (col' ++ [{ s with children := s.children ++ [(t, l)] }]) (i + 1)
        (.inr ⟨by omega, by simp⟩) tl
      refine ⟨ss, ?_, ?_, t', fun ne => ?_⟩
      · rw [sideFrom, sideStep, e1, grow col' s (t, l) (by simp)]
        exact e
      · rw [f, ← e2]; simp [Section.items]
      · rw [g (by simp), ← e4 ne]
        cases col' <;> rfl

/-- **C82, grouping.** Whatever the items, the sections are the items cut before every header: put
together they are the items in their order, and only a first section made for links that no header
precedes has no header. -/
theorem C82_sections (items : List SideItem) : ∃ ss, sections items = some ss ∧
    ss.flatMap Section.items = items ∧ ∀ s ∈ ss.tail, s.head ≠ none := by
  obtain ⟨ss, e, f, t, _⟩ := sideFrom_spec items [] 0 (.inl ⟨rfl, rfl⟩) (by simp)
  exact ⟨ss, e, by simpa using f, t⟩

example : sections [.link "a" "x", .head "B", .link "c" "y", .link "d" "z"] =
    some [⟨none, [("a", "x")]⟩, ⟨some "B", [("c", "y"), ("d", "z")]⟩] := by decide +kernel

/-- The links of a side bar that are marked as the current page. -/
def marked (bar : List (Option String × List (Str × Bool))) : List Str :=
  (bar.flatMap (·.2)).filterMap fun l => if l.2 then some l.1 else none

/-- The links of a side bar. -/
def linked (bar : List (Option String × List (Str × Bool))) : List Str := (bar.flatMap (·.2)).map (·.1)

/-- The address of a page. -/
def address (p : String) : Str := '/' :: p.toList

theorem page_table : ∀ p ∈ docPages, ∀ form ∈ [[], ".html".toList],
    ((sidebar (address p.1 ++ form)).map fun bar => (marked bar, linked bar)) =
      some ([address p.1], linked ((sidebar []).getD [])) := by decide +kernel

theorem links_table : (linked ((sidebar []).getD [])).Perm (docPages.map fun p => address p.1) ∧
    (docPages.map fun p => address p.1).Nodup := by decide +kernel

/-- **C82, the pages.** Every page of the documentation has a side bar; it links to every page once and to
nothing else, and marks the page itself and no other. -/
theorem C82_pages : ∀ p ∈ docPages, ∀ form ∈ [[], ".html".toList],
    ∃ bar, sidebar (address p.1 ++ form) = some bar ∧ marked bar = [address p.1] ∧
      (linked bar).Nodup ∧ ∀ a, a ∈ linked bar ↔ ∃ q ∈ docPages, a = address q.1 := by
  intro p hp form hf
  have := page_table p hp form hf
  cases e : sidebar (address p.1 ++ form) with
  | none => rw [e] at this; cases this
  | some bar =>
    rw [e] at this
    simp only [Option.map_some, Option.some.injEq, Prod.mk.injEq] at this
    obtain ⟨h1, h2⟩ := this
    refine ⟨bar, rfl, h1, ?_, fun a => ?_⟩
    · rw [h2]; exact links_table.1.nodup_iff.2 links_table.2
    · rw [h2, links_table.1.mem_iff, List.mem_map]
      constructor
      · rintro ⟨q, hq, rfl⟩; exact ⟨q, hq, rfl⟩
      · rintro ⟨q, hq, rfl⟩; exact ⟨q, hq, rfl⟩

/-! ## The file of a page -/

theorem split_last (pre ext : Str) (h : '.' ∉ ext) : (split '.' (pre ++ '.' :: ext)).getLastD [] = ext := by
  have one : ∀ s : Str, '.' ∉ s → split '.' s = [s] := by
    intro s hs
    induction s with
    | nil => rfl
    | cons c s ih =>
      have hc : c ≠ '.' := fun e => hs (by simp [e])
      rw [split, if_neg hc, ih fun h => hs (by simp [h])]
  have : ∀ pre : Str, ∃ ws, split '.' (pre ++ '.' :: ext) = ws ++ [ext] := by
    intro pre
    induction pre with
    | nil => exact ⟨[[]], by rw [List.nil_append, split, if_pos rfl, one ext h]; rfl⟩
    | cons c pre ih =>
      obtain ⟨ws, e⟩ := ih
      rw [List.cons_append, split]
      split
      · exact ⟨[] :: ws, by rw [e]; rfl⟩
      · rw [e]
        cases ws with
        | nil =>
          exfalso
          have : ∀ s : Str, (split '.' s).length = s.count '.' + 1 := by
            intro s
            induction s with
            | nil => rfl
            | cons c s ih =>
              rw [split]
              split
              · rename_i h; subst h; simp [ih]
              · rename_i h
                cases e : split '.' s with
                | nil => rw [e] at ih; simp at ih
                | cons w ws => rw [e] at ih; simp at ih ⊢; rw [List.count_cons_of_ne h]; exact ih
          have l := this (pre ++ '.' :: ext)
          rw [e] at l
          simp at l
        | cons w ws => exact ⟨(c :: w) :: ws, rfl⟩
  obtain ⟨ws, e⟩ := this pre
  rw [e]; simp

/-- **C82, the source.** The link to the source of a page names the file under `docs/src/pages` from which
the page was made, whether the page is asked for by its path, with `.html` or with a slash at the end. -/
theorem C82_file (p pre ext form : Str) (hp : '.' ∉ p) (hs : p.getLast? ≠ some '/') (he : '.' ∉ ext)
    (hf : form ∈ [[], ".html".toList, "/".toList]) :
    currentFile (p ++ form) (pre ++ '.' :: ext) = "src/pages".toList ++ p ++ '.' :: ext := by
  suffices h : dropSlash (currentPage (p ++ form)) = p by
    have e := split_last pre ext he
    unfold currentFile
    generalize "src/pages".toList = q at *
    rw [e, h]
  have stay : ∀ s : Str, '.' ∉ s → ∀ r : Str, r.head? = some '.' ∨ r = [] → currentPage (s ++ r) = s := by
    intro s h r hr
    rw [currentPage, List.takeWhile_append_of_pos (by
      intro c hc
      simp only [decide_eq_true_eq, ne_eq]
      rintro rfl
      exact h hc)]
    cases r with
    | nil => simp
    | cons c r =>
      rcases hr with hr | hr
      · cases hr; simp
      · cases hr
  simp only [List.mem_cons, List.not_mem_nil, or_false] at hf
  rcases hf with rfl | rfl | rfl
  · rw [stay p hp [] (.inr rfl), dropSlash, if_neg hs]
  · rw [stay p hp _ (.inl rfl), dropSlash, if_neg hs]
  · have := stay (p ++ "/".toList) (by simpa using hp) [] (.inr rfl)
    rw [List.append_nil] at this
    rw [this, dropSlash, if_pos (by simp)]
    simp

example : currentFile "/es/instructions/ADD.html".toList
    "/home/x.y/docs/src/pages/es/instructions/ADD.mdx".toList =
    "src/pages/es/instructions/ADD.mdx".toList := by decide +kernel

/-! ## Languages -/

/-- **C82, the language.** Everything below `/es/` is Spanish. A page below another pair of letters could
not be rendered: there is no side bar for it. -/
theorem C82_language (rest : Str) : getLanguage ("/es/".toList ++ rest) = "es".toList ∧
    ∀ a b : Char, 'a' ≤ a ∧ a ≤ 'z' → 'a' ≤ b ∧ b ≤ 'z' → [a, b] ≠ "es".toList →
      sidebar ('/' :: a :: b :: '/' :: rest) = none := by
  refine ⟨by simp [getLanguage, langMatch, langHere, langTail, isLower, isUpper], fun a b ha' hb' ne => ?_⟩
  have ha : isLower a = true := by simp [isLower, ha']
  have hb : isLower b = true := by simp [isLower, hb']
  have dot : ∀ c, isLower c = true → c ≠ '.' ∧ c ≠ '-' := by
    rintro c hc
    constructor <;> (rintro rfl; exact absurd hc (by decide))
  have page : currentPage ('/' :: a :: b :: '/' :: rest) = '/' :: a :: b :: '/' :: currentPage rest := by
    simp [currentPage, (dot a ha).1, (dot b hb).1]
  have lang : getLanguage ('/' :: a :: b :: '/' :: currentPage rest) = [a, b] := by
    simp [getLanguage, langMatch, langHere, langTail, ha, hb, isUpper]
  simp only [sidebar, page, lang, sidebarOf, if_neg ne, Option.bind_none]

/-- What `langPathRegex` takes for a language: two small letters, perhaps a hyphen, at most two capitals. -/
def LangTag (l : Str) : Prop := ∃ a b : Char, ∃ mid caps : Str, l = a :: b :: (mid ++ caps) ∧
  ('a' ≤ a ∧ a ≤ 'z') ∧ ('a' ≤ b ∧ b ≤ 'z') ∧ (mid = [] ∨ mid = ['-']) ∧ caps.length ≤ 2 ∧
  ∀ c ∈ caps, 'A' ≤ c ∧ c ≤ 'Z'

theorem isUpper_iff (c : Char) : isUpper c = true ↔ 'A' ≤ c ∧ c ≤ 'Z' := by simp [isUpper]
theorem isLower_iff (c : Char) : isLower c = true ↔ 'a' ≤ c ∧ c ≤ 'z' := by simp [isLower]

theorem langTail_iff (pre s l : Str) : langTail pre s = some l ↔
    ∃ caps post : Str, s = caps ++ '/' :: post ∧ l = pre ++ caps ∧ caps.length ≤ 2 ∧
      ∀ c ∈ caps, 'A' ≤ c ∧ c ≤ 'Z' := by
  have sl : isUpper '/' = false := by decide
  simp only [← isUpper_iff]
  constructor
  · intro h
    unfold langTail at h
    split at h
    · rename_i c r
      split at h
      · rename_i hc
        split at h
        · rename_i d r'
          split at h
          · rename_i hd
            split at h
            · rename_i e
              cases r' with
              | nil => cases e
              | cons x post =>
                cases e
                cases h
                exact ⟨[c, d], post, rfl, rfl, by simp, by simp [hc, hd]⟩
            · cases h
          · split at h
            · rename_i e
              subst e
              cases h
              exact ⟨[c], r', rfl, rfl, by simp, by simp [hc]⟩
            · cases h
        · cases h
      · split at h
        · rename_i e
          subst e
          cases h
          exact ⟨[], r, rfl, by simp, by simp, by simp⟩
        · cases h
    · cases h
  · rintro ⟨caps, post, rfl, rfl, len, up⟩
    match caps, len, up with
    | [], _, _ => simp [langTail, sl]
    | [c], _, up => simp [langTail, sl, up c (by simp)]
    | [c, d], _, up => simp [langTail, up c (by simp), up d (by simp)]

theorem langHere_iff (s l : Str) : langHere s = some l ↔ LangTag l ∧ ∃ post, s = '/' :: (l ++ '/' :: post) := by
  constructor
  · intro h
    unfold langHere at h
    split at h
    · rename_i a b r
      split at h
      · rename_i hab
        simp only [Bool.and_eq_true, isLower_iff] at hab
        split at h
        · rename_i r'
          obtain ⟨caps, post, rfl, rfl, len, up⟩ := (langTail_iff _ _ _).1 h
          exact ⟨⟨a, b, ['-'], caps, rfl, hab.1, hab.2, .inr rfl, len, up⟩, post, by simp⟩
        · obtain ⟨caps, post, rfl, rfl, len, up⟩ := (langTail_iff _ _ _).1 h
          exact ⟨⟨a, b, [], caps, rfl, hab.1, hab.2, .inl rfl, len, up⟩, post, by simp⟩
      · cases h
    · cases h
  · rintro ⟨⟨a, b, mid, caps, rfl, ha, hb, hm, len, up⟩, post, rfl⟩
    have hab : (isLower a && isLower b) = true := by simp [(isLower_iff a).2 ha, (isLower_iff b).2 hb]
    rcases hm with rfl | rfl
    · simp only [List.cons_append, List.nil_append, langHere, hab, if_true]
      have : ∀ r', caps ++ '/' :: post ≠ '-' :: r' := by
        intro r' e
        cases caps with
        | nil => cases e
        | cons c caps =>
          cases e
          exact absurd (up '-' (by simp)) (by decide)
      split
      · rename_i r' e
        exact absurd e (this r')
      · exact (langTail_iff _ _ _).2 ⟨caps, post, rfl, rfl, len, up⟩
    · simp only [List.cons_append, List.nil_append, langHere, hab, if_true]
      exact (langTail_iff _ _ _).2 ⟨caps, post, rfl, rfl, len, up⟩

/-- A language between two slashes, `pre` being what stands before. -/
def LangAt (path pre l : Str) : Prop := LangTag l ∧ ∃ post, path = pre ++ '/' :: (l ++ '/' :: post)

/-- **C82, which language.** It is the first part of the address that looks like a language, or Spanish. -/
theorem C82_address (path : Str) :
    (∀ pre l, LangAt path pre l → (∀ pre' l', LangAt path pre' l' → pre.length ≤ pre'.length) →
      getLanguage path = l) ∧
    ((∀ pre l, ¬ LangAt path pre l) → getLanguage path = "es".toList) := by
  have key : ∀ path : Str, (∀ pre l, LangAt path pre l → (∀ pre' l', LangAt path pre' l' → pre.length ≤ pre'.length) →
      langMatch path = some l) ∧ ((∀ pre l, ¬ LangAt path pre l) → langMatch path = none) := by
    intro path
    induction path with
    | nil =>
      refine ⟨?_, fun _ => rfl⟩
      rintro pre l ⟨_, post, e⟩ _
      simp at e
    | cons c s ih =>
      have up : ∀ {pre l}, LangAt s pre l → LangAt (c :: s) (c :: pre) l := by
        rintro pre l ⟨t, post, e⟩
        exact ⟨t, post, by rw [e]; simp⟩
      refine ⟨?_, ?_⟩
      · intro pre l h first
        cases pre with
        | nil =>
          have := (langHere_iff (c :: s) l).2 h
          rw [langMatch, this]
          rfl
        | cons d pre =>
          have hn : langHere (c :: s) = none := by
            cases e : langHere (c :: s) with
            | none => rfl
            | some l' =>
              have := first [] l' ((langHere_iff _ _).1 e)
              simp at this
          rw [langMatch, hn, Option.none_or]
          obtain ⟨t, post, e⟩ := h
          simp only [List.cons_append, List.cons.injEq] at e
          refine ih.1 pre l ⟨t, post, e.2⟩ fun pre' l' h' => ?_
          have := first (c :: pre') l' (up h')
          simpa using this
      · intro h
        have hn : langHere (c :: s) = none := by
          cases e : langHere (c :: s) with
          | none => rfl
          | some l' => exact absurd ((langHere_iff _ _).1 e) (h [] l')
        rw [langMatch, hn, Option.none_or]
        exact ih.2 fun pre l h' => h _ _ (up h')
  refine ⟨fun pre l h first => ?_, fun h => ?_⟩
  · rw [getLanguage, (key path).1 pre l h first]; rfl
  · rw [getLanguage, (key path).2 h]; rfl

example : getLanguage "/es/instructions/en-GB/ADD".toList = "es".toList :=
  (C82_address _).1 [] "es".toList
    ⟨⟨'e', 's', [], [], rfl, by decide, by decide, .inl rfl, by simp, by simp⟩, "instructions/en-GB/ADD".toList, rfl⟩
    (fun _ _ _ => Nat.zero_le _)

/-- **C82, a slash at the end.** Nothing is marked then: the page is there, but the reader does not see
where it is. -/
theorem C82_slash : ∀ p ∈ docPages, ∃ bar, sidebar (address p.1 ++ "/".toList) = some bar ∧ marked bar = [] := by
  have : ∀ p ∈ docPages, (sidebar (address p.1 ++ "/".toList)).map marked = some [] := by decide +kernel
  intro p hp
  have := this p hp
  cases e : sidebar (address p.1 ++ "/".toList) with
  | none => rw [e] at this; cases this
  | some bar => rw [e] at this; exact ⟨bar, rfl, by simpa using this⟩

/-! ## The theme -/

/-- What a reader does: choose a theme on a page or open a page, with the preference of the system at that
time. -/
inductive ThemeEvent
  | choose (dark : Bool)
  | open (prefersDark : Bool)

def themeName (dark : Bool) : Str := if dark then "dark".toList else "light".toList

def ThemeEvent.step (s : Themed) : ThemeEvent → Themed
  | .choose d => s.choose (themeName d)
  | .open p => Themed.open s.stored p

/-- The theme that the reader means: the last choice, or else, as long as nothing was chosen, what the
system preferred when the page was opened. -/
def meant (chosen : Option Bool) (now : Bool) : List ThemeEvent → Option Bool × Bool
  | [] => (chosen, now)
  | .choose d :: es => meant (some d) d es
  | .open p :: es => meant chosen (chosen.getD p) es

/-- The page looks and says that the theme is `dark`. -/
structure Looks (s : Themed) (dark : Bool) : Prop where
  look : s.dark = dark
  radio : s.checked = [themeName dark]

theorem themed_open (c : Option Bool) (p : Bool) : Looks (Themed.open (c.map themeName) p) (c.getD p) ∧
    headDark (c.map themeName) p = c.getD p := by
  cases c with
  | none => cases p <;> exact ⟨⟨by decide, by decide⟩, by decide⟩
  | some d => cases d <;> cases p <;> exact ⟨⟨by decide, by decide⟩, by decide⟩

/-- **C83.** Whatever a reader chooses and whichever pages they open, in any order: the page has the theme
that they mean, exactly its button is checked, and the script in the head of the next page sets the same
theme as the button after it, so that nothing flickers. -/
theorem C83_theme (chosen : Option Bool) (p : Bool) (es : List ThemeEvent) (q : Bool) :
    let s := es.foldl ThemeEvent.step (Themed.open (chosen.map themeName) p)
    let m := meant chosen (chosen.getD p) es
    Looks s m.2 ∧ s.stored = m.1.map themeName ∧
      headDark s.stored q = (Themed.open s.stored q).dark := by
  have main : ∀ (es : List ThemeEvent) (s : Themed) (chosen : Option Bool) (now : Bool),
      Looks s now → s.stored = chosen.map themeName →
      Looks (es.foldl ThemeEvent.step s) (meant chosen now es).2 ∧
      (es.foldl ThemeEvent.step s).stored = (meant chosen now es).1.map themeName := by
    intro es
    induction es with
    | nil => intro s c n h1 h2; exact ⟨h1, h2⟩
    | cons e es ih =>
      intro s c n h1 h2
      cases e with
      | choose d =>
        refine ih _ (some d) d ?_ rfl
        show Looks ⟨some (themeName d), themeName d, effectDark (themeName d)⟩ d
        cases d <;> exact ⟨by decide, by decide⟩
      | «open» p =>
        refine ih _ c (c.getD p) ?_ h2
        show Looks (Themed.open s.stored p) _
        rw [h2]
        exact (themed_open c p).1
  obtain ⟨h1, h2⟩ := main es (Themed.open (chosen.map themeName) p) chosen (chosen.getD p)
    (themed_open chosen p).1 rfl
  refine ⟨h1, h2, ?_⟩
  rw [h2]
  exact (themed_open _ q).2.trans (themed_open _ q).1.look.symm

/-- **C83, other texts in the storage.** Then the script in the head makes the page light and the button
makes it dark, and neither button is checked. -/
theorem C83_other (t : Str) (p : Bool) (h : t ≠ []) (h1 : t ≠ "light".toList) (h2 : t ≠ "dark".toList) :
    headDark (some t) p = false ∧ (Themed.open (some t) p).dark = true ∧
      (Themed.open (some t) p).checked = [] := by
  cases t with
  | nil => exact absurd rfl h
  | cons c s =>
    refine ⟨?_, ?_, ?_⟩
    · simp only [headDark, Option.getD_some, List.isEmpty_cons, Bool.false_and, Bool.or_false,
        decide_eq_false_iff_not, Option.some.injEq]
      exact h2
    · exact decide_eq_true h1
    · simp only [Themed.checked, Themed.open, firstTheme, themes, List.filter_cons, List.filter_nil]
      rw [if_neg (fun e => h1 (of_decide_eq_true e).symm),
        if_neg (fun e => h2 (of_decide_eq_true e).symm)]

example : (([.choose false, .open true] : List ThemeEvent).foldl ThemeEvent.step (Themed.open none true)).dark =
    false := (C83_theme none true [.choose false, .open true] true).1.look

end Mpp.Front
