import Verif.Front.Transpiler
import Verif.Front.Hexa
import Verif.Props.Link
import Verif.Front.Render
/-!
# C104: the page of the transpiler
-/
namespace Mpp.Front

theorem mem_firstOnly {α κ : Type} [DecidableEq κ] {key : α → κ} {l : List α} {a : α} :
    a ∈ firstOnly key l ↔ ∃ pre post, l = pre ++ a :: post ∧ ∀ t ∈ pre, key t ≠ key a := by
  simp only [firstOnly, List.mem_map, List.mem_filter, beq_iff_eq, Prod.exists, exists_and_right,
    exists_eq_right, List.mem_zipIdx_iff_getElem?, List.findIdx?_eq_some_iff_getElem]
  constructor
  · rintro ⟨i, hi, h, -, hb⟩
    refine ⟨l.take i, ⟨l.drop (i + 1), ?_⟩, ?_⟩
    · have : l[i] = a := by
        have := List.getElem?_eq_getElem h
        rw [hi] at this; exact (Option.some.inj this).symm
      rw [← this, List.getElem_cons_drop h, List.take_append_drop]
    · intro t ht
      obtain ⟨j, hj, rfl⟩ := List.mem_take_iff_getElem.mp ht
      simpa using hb j (by omega)
  · rintro ⟨pre, ⟨post, rfl⟩, h⟩
    refine ⟨pre.length, by simp, by simp, by simp, fun j hj => ?_⟩
    rw [List.getElem_append_left hj]
    simpa using h _ (List.getElem_mem hj)

theorem firstOnly_nodup {α κ : Type} [DecidableEq κ] (key : α → κ) (l : List α) :
    ((firstOnly key l).map key).Nodup := by
  unfold firstOnly
  rw [List.map_map, List.Nodup, List.pairwise_map]
  have hz : l.zipIdx.Pairwise fun p q => p.2 ≠ q.2 := by
    rw [← List.pairwise_map (f := Prod.snd) (R := (· ≠ ·)), List.zipIdx_map_snd]
    exact List.nodup_range'
  refine List.Pairwise.imp_of_mem ?_ (hz.sublist List.filter_sublist)
  intro p q hp hq hne he
  simp only [List.mem_filter, beq_iff_eq] at hp hq
  have e : key p.1 = key q.1 := he
  have h1 := hp.2
  rw [e, hq.2] at h1
  exact hne (Option.some.inj h1).symm

theorem firstOnly_sublist {α κ : Type} [DecidableEq κ] (key : α → κ) (l : List α) :
    (firstOnly key l).Sublist l := by
  have h : ((l.zipIdx.filter fun a => l.findIdx? (fun t => key t = key a.1) == some a.2).map
      (·.1)).Sublist (l.zipIdx.map (·.1)) := List.filter_sublist.map _
  rwa [List.zipIdx_map_fst] at h

theorem exists_firstKey {α κ : Type} [DecidableEq κ] (key : α → κ) {l : List α} {t : α} (h : t ∈ l) :
    ∃ pre a post, l = pre ++ a :: post ∧ key a = key t ∧ ∀ u ∈ pre, key u ≠ key a := by
  induction l with
  | nil => cases h
  | cons b l ih =>
    by_cases hb : key b = key t
    · exact ⟨[], b, l, rfl, hb, by simp⟩
    · rcases List.mem_cons.mp h with rfl | h
      · exact absurd rfl hb
      · obtain ⟨pre, a, post, rfl, e, hp⟩ := ih h
        refine ⟨b :: pre, a, post, rfl, e, fun u hu => ?_⟩
        rcases List.mem_cons.mp hu with rfl | hu
        · rw [e]; exact hb
        · exact hp u hu

theorem firstOnly_all {α κ : Type} [DecidableEq κ] (key : α → κ) {l : List α} {t : α} (h : t ∈ l) :
    ∃ a ∈ firstOnly key l, key a = key t := by
  obtain ⟨pre, a, post, e, ek, hp⟩ := exists_firstKey key h
  exact ⟨a, mem_firstOnly.mpr ⟨pre, post, e, hp⟩, ek⟩

/-- All the texts typed, one after the other. -/
def TrPage.types (p : TrParser) (s : TrPage) (texts : List Str) : TrPage := texts.foldl (TrPage.type p) s

theorem types_last (p : TrParser) (s : TrPage) (texts : List Str) (t : Str) :
    s.types p (texts ++ [t]) = (s.types p texts).type p t := by
  simp [TrPage.types]

/-- **C104.** Whatever the transpiler is and whatever was typed before: the page shows the message of the error
of the text in the editor and nothing else, or the translation of this text. -/
theorem C104_shows (p : TrParser) (s : TrPage) (texts : List Str) (t : Str) :
    (s.types p (texts ++ [t])).view =
      match p t with
      | .error e => .error e
      | .ok r => .translated (trCode r) (trVariables r) (trLabels r) := by
  rw [types_last]
  unfold TrPage.type
  cases p t <;> rfl

/-- **C104.** The code that is shown has one line for each instruction, in their order. -/
theorem C104_lines (r : List TrIns) (hne : r ≠ []) (h : ∀ i ∈ r, '\n' ∉ i.text) :
    Lines (trCode r) (r.map TrIns.text) := by
  unfold trCode
  induction r with
  | nil => exact absurd rfl hne
  | cons i r ih =>
    cases r with
    | nil => simpa using Lines.last (h i (by simp))
    | cons j r =>
      have := Lines.cons (h i (by simp)) (ih (by simp) fun k hk => h k (by simp [hk]))
      simpa using this

/-- Two instructions. -/
example : Lines (trCode [⟨"ADD B".toList, none, none⟩, ⟨"FIN".toList, none, none⟩]) ["ADD B".toList, "FIN".toList] :=
  C104_lines _ (by simp) (by simp)

/-- **C104.** The page can be opened exactly if its first text can be translated, and shows the translation. -/
theorem C104_open (p : TrParser) (code : Str) (s : TrPage) :
    TrPage.open p code = some s ↔
      ∃ r, p code = .ok r ∧ s.result = r ∧ s.view = .translated (trCode r) (trVariables r) (trLabels r) ∧
        s.error = none := by
  unfold TrPage.open
  cases h : p code with
  | error e => simp
  | ok r =>
    simp only [Option.some.injEq, Except.ok.injEq]
    constructor
    · rintro rfl; exact ⟨r, rfl, rfl, rfl, rfl⟩
    · rintro ⟨r', rfl, h1, -, h2⟩
      cases s; simp_all

/-- **C104.** The button opens the page of M++ with the translation of the text in the editor; there is none
beside an error. -/
theorem C104_run (p : TrParser) (s : TrPage) (texts : List Str) (t : Str) :
    (s.types p (texts ++ [t])).run.bind (fun q => codeParam (locationSearch q)) =
      match p t with
      | .error _ => none
      | .ok r => some (trCode r) := by
  unfold TrPage.run
  rw [C104_shows]
  cases p t with
  | error e => rfl
  | ok r => exact C68_link _

/-- A row of a table: the name and the address of an entry, the address in base 16 or nothing. -/
def TrRow (row : Str × Str) (name : Str) (address : Option Nat) : Prop :=
  row.1 = name ∧ match address with
    | none => row.2 = []
    | some n => HexValue row.2 n

theorem trAddress_row (name : Str) (a : Option Nat) : TrRow (name, trAddress a) name a := by
  refine ⟨rfl, ?_⟩
  cases a with
  | none => rfl
  | some n => exact toHex_upper n

/-- What a table has to be, for entries `e` of the instructions: each name once, every name that occurs, in
order, and beside it the address at its first occurrence. -/
structure TrTable (rows : List (Str × Str)) (result : List TrIns) (entry : TrIns → Option (Str × Option Nat)) :
    Prop where
  once : (rows.map (·.1)).Nodup
  all : ∀ i ∈ result, ∀ e, entry i = some e → e.1 ∈ rows.map (·.1)
  first : ∀ row ∈ rows, ∃ pre i post e, result = pre ++ i :: post ∧ entry i = some e ∧ TrRow row e.1 e.2 ∧
    ∀ j ∈ pre, ∀ e', entry j = some e' → e'.1 ≠ row.1
  order : (rows.map (·.1)).Sublist ((result.filterMap entry).map (·.1))

theorem table_of (result : List TrIns) (entry : TrIns → Option (Str × Option Nat)) (keep : TrIns → Bool)
    (key : TrIns → Option Str) (row : TrIns → Str × Str) (hk : ∀ i, keep i = true ↔ (entry i).isSome)
    (hkey : ∀ i e, entry i = some e → key i = some e.1)
    (hrow : ∀ i e, entry i = some e → TrRow (row i) e.1 e.2) :
    TrTable ((firstOnly key (result.filter keep)).map row) result entry := by
  have hent : ∀ a ∈ firstOnly key (result.filter keep), ∃ e, entry a = some e := fun a ha => by
    have := (List.mem_filter.mp ((firstOnly_sublist key _).subset ha)).2
    exact Option.isSome_iff_exists.mp ((hk a).mp this)
  have hname : ∀ a ∈ firstOnly key (result.filter keep), key a = some (row a).1 := fun a ha => by
    obtain ⟨e, he⟩ := hent a ha
    rw [hkey a e he, (hrow a e he).1]
  refine ⟨?_, ?_, ?_, ?_⟩
  · have h := firstOnly_nodup key (result.filter keep)
    rw [List.map_congr_left hname] at h
    have h' : (((firstOnly key (result.filter keep)).map row).map (·.1)).map some =
        (firstOnly key (result.filter keep)).map fun a => some (row a).1 := by simp
    rw [← h'] at h
    exact (List.pairwise_map.mp h).imp fun hn he => hn (by rw [he])
  · intro i hi e he
    have hm : i ∈ result.filter keep := List.mem_filter.mpr ⟨hi, (hk i).mpr (by simp [he])⟩
    obtain ⟨a, ha, ek⟩ := firstOnly_all key hm
    rw [hname a ha, hkey i e he] at ek
    rw [← Option.some.inj ek, List.map_map]
    exact List.mem_map.mpr ⟨a, ha, rfl⟩
  · intro r hr
    obtain ⟨a, ha, rfl⟩ := List.mem_map.mp hr
    obtain ⟨e, he⟩ := hent a ha
    obtain ⟨pre, post, e1, hp⟩ := mem_firstOnly.mp ha
    obtain ⟨l1, l2, rfl, f1, f2⟩ := List.filter_eq_append_iff.mp e1
    obtain ⟨m1, m2, rfl, g1, g2, g3⟩ := List.filter_eq_cons_iff.mp f2
    refine ⟨l1 ++ m1, a, m2, e, by simp, he, hrow a e he, ?_⟩
    intro j hj e' he'
    have hkj : keep j = true := (hk j).mpr (by simp [he'])
    rcases List.mem_append.mp hj with hj | hj
    · have : j ∈ pre := by rw [← f1]; exact List.mem_filter.mpr ⟨hj, hkj⟩
      have := hp j this
      rw [hname a ha, hkey j e' he'] at this
      exact fun h => this (by rw [h])
    · exact absurd hkj (g1 j hj)
  · have hl : ∀ l : List TrIns, (l.filter keep).map (fun a => (row a).1) = (l.filterMap entry).map (·.1) := by
      intro l
      induction l with
      | nil => rfl
      | cons i l ih =>
        cases he : entry i with
        | none =>
          have : keep i = false := by
            have := hk i
            rw [he] at this
            simpa using this
          rw [List.filter_cons_of_neg (by simp [this]), List.filterMap_cons_none he, ih]
        | some e =>
          rw [List.filter_cons_of_pos ((hk i).mpr (by simp [he])), List.filterMap_cons_some he]
          simp only [List.map_cons, ih, (hrow i e he).1]
    rw [← hl, List.map_map]
    exact (firstOnly_sublist key _).map _

/-- The variable of an instruction. -/
def TrIns.varEntry (i : TrIns) : Option (Str × Option Nat) := i.var.map fun v => (v.name, v.address)

/-- The label of an instruction, if the user gave it. -/
def TrIns.labelEntry (i : TrIns) : Option (Str × Option Nat) :=
  match i.label with
  | some l => if l.user then some (l.name, l.address) else none
  | none => none

/-- **C104.** The table of variables has each variable of the translation once, with its address. -/
theorem C104_variables (result : List TrIns) : TrTable (trVariables result) result TrIns.varEntry := by
  refine table_of result _ _ _ _ (fun i => ?_) (fun i e he => ?_) (fun i e he => ?_)
  · simp [TrIns.varEntry]
  · unfold TrIns.varEntry at he
    cases hv : i.var <;> simp_all
    rw [← he]
  · unfold TrIns.varEntry at he
    cases hv : i.var with
    | none => simp [hv] at he
    | some v =>
      simp only [hv, Option.map_some, Option.some.injEq] at he
      subst he
      exact trAddress_row _ _

/-- **C104.** The table of labels has each label of the user once, with its address, and no other label. -/
theorem C104_labels (result : List TrIns) : TrTable (trLabels result) result TrIns.labelEntry := by
  refine table_of result _ _ _ _ (fun i => ?_) (fun i e he => ?_) (fun i e he => ?_)
  · unfold TrIns.labelEntry
    cases hl : i.label with
    | none => simp
    | some l => cases hu : l.user <;> simp [hu]
  · unfold TrIns.labelEntry at he
    cases hl : i.label with
    | none => simp [hl] at he
    | some l =>
      rw [hl] at he
      by_cases hu : l.user = true <;> simp_all
      rw [← he]
  · unfold TrIns.labelEntry at he
    cases hl : i.label with
    | none => simp [hl] at he
    | some l =>
      rw [hl] at he
      by_cases hu : l.user = true
      · simp only [hu, if_true, Option.some.injEq] at he
        subst he
        exact trAddress_row _ _
      · simp [hu] at he

/-- A transpiler for the examples: a text without letters is an error, every other is one jump to itself with
a variable used twice. -/
def trSample : TrParser := fun t =>
  if t.any (·.isAlpha) then
    .ok [⟨"ST AC,1F".toList, some ⟨t, some 31⟩, some ⟨"main".toList, true, some 0⟩⟩,
      ⟨"LD AC,1F".toList, some ⟨t, some 31⟩, some ⟨"auto".toList, false, some 3⟩⟩]
  else .error "no letters".toList

/-- A text, an error, another text. -/
example : (TrPage.open trSample "a".toList).map TrPage.view = some (.translated "ST AC,1F\nLD AC,1F".toList
      [("a".toList, "1F".toList)] [("main".toList, "0".toList)]) ∧
    ((TrPage.mk [] none).types trSample ["a".toList, "1".toList]).view = .error "no letters".toList ∧
    ((TrPage.mk [] none).types trSample ["1".toList, "b".toList]).view =
      .translated "ST AC,1F\nLD AC,1F".toList [("b".toList, "1F".toList)] [("main".toList, "0".toList)] ∧
    TrPage.open trSample "1".toList = none := by decide +kernel

/-- **C104.** If a transpiler gave one name two addresses, only the first would be in the table. -/
theorem C104_address_wrong : ¬ ∀ (result : List TrIns) (i : TrIns) (n : Str) (a : Nat), i ∈ result →
    i.varEntry = some (n, some a) → ∃ row ∈ trVariables result, TrRow row n (some a) := by
  intro h
  obtain ⟨row, hr, h1, h2⟩ := h [⟨[], some ⟨"x".toList, some 1⟩, none⟩, ⟨[], some ⟨"x".toList, some 2⟩, none⟩]
    ⟨[], some ⟨"x".toList, some 2⟩, none⟩ "x".toList 2 (by simp) rfl
  have e : row = ("x".toList, "1".toList) := by
    have : trVariables [⟨[], some ⟨"x".toList, some 1⟩, none⟩, ⟨[], some ⟨"x".toList, some 2⟩, none⟩] =
      [("x".toList, "1".toList)] := by decide +kernel
    rw [this] at hr; simpa using hr
  subst e
  have h3 : HexValue "1".toList 1 := toHex_upper 1
  exact absurd (h2.unique h3) (by decide)

/-- **C104.** If each name has one address in the translation, every variable is in the table with it. -/
theorem C104_address (result : List TrIns) (i : TrIns) (e : Str × Option Nat) (hi : i ∈ result)
    (he : i.varEntry = some e)
    (one : ∀ j ∈ result, ∀ e', j.varEntry = some e' → e'.1 = e.1 → e' = e) :
    ∃ row ∈ trVariables result, TrRow row e.1 e.2 := by
  have T := C104_variables result
  obtain ⟨row, hr, hn⟩ := List.mem_map.mp (T.all i hi e he)
  obtain ⟨pre, j, post, e', rfl, hj, hrow, -⟩ := T.first row hr
  have : e' = e := one j (by simp) e' hj (by rw [← hrow.1, hn])
  subst this
  exact ⟨row, hr, hrow⟩

end Mpp.Front
