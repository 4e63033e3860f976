import Verif.Front.Marks
import Verif.Props.Assembler
/-!
# Property C56: the marks of the editor
-/
namespace Mpp.Front

/-- The code units of a character in UTF-16 (RFC 2781, section 2.1), in which JavaScript counts columns. -/
def utf16 (c : Char) : List Nat :=
  if c.toNat < 0x10000 then [c.toNat]
  else [0xD800 + (c.toNat - 0x10000) / 0x400, 0xDC00 + (c.toNat - 0x10000) % 0x400]

/-- The columns that a text takes. -/
def columns (s : Str) : Nat := (s.flatMap utf16).length

theorem units_columns (s : Str) : units s = columns s := by
  unfold units columns
  induction s with
  | nil => rfl
  | cons c s ih =>
    rw [List.flatMap_cons, List.length_append, ← ih, List.map_cons, List.sum_cons]
    congr 1
    unfold utf16
    by_cases h : c.toNat < 0x10000 <;> simp [h]

theorem cores_cleanLines {text : Str} {lines cores : List Str} (hl : Lines text lines)
    (hc : List.Forall₂ Core lines cores) (hp : ∀ c ∈ cores, ∀ x ∈ c, ¬ OddTerm x) :
    cleanLines text = cores ∧ ∀ l ∈ cores, NoTerm l := by
  have e : cleanLines text = cores := by rw [cleanLines_eq, hl.eq, ← cores_eq hc]
  refine ⟨e, ?_⟩
  rw [← e]
  exact Plain.noTerm ⟨lines, cores, hl, hc, hp⟩

theorem parseInput_parts {text : Str} {d : Nat} {out : Output} (h : parseInput text d = some out) :
    out.errors = (parseLines (pre (cleanLines text)) 0 (cleanLines text)).1 ∧
    out.etiPositions = etiPos d (parseLines (pre (cleanLines text)) 0 (cleanLines text)).2 := by
  unfold parseInput at h
  simp only [Option.map_eq_some_iff] at h
  obtain ⟨_, _, rfl⟩ := h
  exact ⟨rfl, rfl⟩

/-- An error is marked on exactly the lines that hold something but not a statement with a right
operand, in order and once each. The mark begins at column 0 and is as long as the line without the
comment and the blanks around it. -/
theorem C56_errors (text : Str) (d : Nat) (out : Output) (lines cores : List Str)
    (hl : Lines text lines) (hc : List.Forall₂ Core lines cores)
    (hp : ∀ c ∈ cores, ∀ x ∈ c, ¬ OddTerm x) (h : parseInput text d = some out) :
    (∀ m, m ∈ out.errors ↔ ∃ c, cores[m.line]? = some c ∧ c ≠ [] ∧ (∀ st, ¬ Right cores c st) ∧
      m.startCol = 0 ∧ m.endCol = columns c) ∧
    out.errors.Pairwise (·.line < ·.line) := by
  obtain ⟨e, hn⟩ := cores_cleanLines hl hc hp
  obtain ⟨h1, _⟩ := parseInput_parts h
  rw [e] at h1
  obtain ⟨h2, h3, _⟩ := parseLines_acc (labels := pre cores) 0 hn
  rw [h1]
  refine ⟨fun m => ?_, h3⟩
  rw [h2]
  simp only [right_iff hn]
  constructor
  · rintro ⟨k, c, h4, h5, h6, rfl⟩
    exact ⟨c, by simpa using h4, h5, fun st h => h6 st h.1 h.2, rfl, congrArg Int.ofNat (units_columns c)⟩
  · rintro ⟨c, h4, h5, h6, h7, h8⟩
    refine ⟨m.line, c, h4, h5, fun st hr hg => h6 st ⟨hr, hg⟩, ?_⟩
    rw [units_columns, ← h7, ← h8, Nat.zero_add]

/-- A label is marked on exactly the lines with a right statement that carries it. The address is that
of the first byte of the statement in the code of the right statements, counted from `d`. The mark
begins at column 0 and is as long as the label. -/
theorem C56_labels (text : Str) (d : Nat) (out : Output) (lines cores : List Str)
    (hl : Lines text lines) (hc : List.Forall₂ Core lines cores)
    (hp : ∀ c ∈ cores, ∀ x ∈ c, ¬ OddTerm x) (h : parseInput text d = some out) :
    ∃ acc, Accepted cores acc ∧ ∀ l a m, (l, a, m) ∈ out.etiPositions ↔
      ∃ before st after, acc = before ++ (m.line, st) :: after ∧ st.label = some l ∧
        a = d + sizeOf (before.map (·.2)) ∧ m.startCol = 0 ∧ m.endCol = columns l := by
  obtain ⟨e, hn⟩ := cores_cleanLines hl hc hp
  obtain ⟨_, h1⟩ := parseInput_parts h
  rw [e] at h1
  obtain ⟨_, _, acc, h2, h3, h4, _⟩ := parseLines_acc (labels := pre cores) 0 hn
  refine ⟨acc, ⟨h3, fun i st => ?_⟩, fun l a m => ?_⟩
  · rw [h4]
    simp only [right_iff hn]
    constructor
    · rintro ⟨k, c, rfl, h5, h6⟩
      exact ⟨c, by simpa using h5, h6⟩
    · rintro ⟨c, h5, h6⟩
      exact ⟨i, c, by omega, h5, h6⟩
  · rw [h1, etiPos_acc h2]
    constructor
    · rintro ⟨before, j, st, after, rfl, h5, h6, rfl⟩
      exact ⟨before, st, after, rfl, h5, h6, rfl, congrArg Int.ofNat (units_columns l)⟩
    · rintro ⟨before, st, after, rfl, h5, h6, h7, h8⟩
      refine ⟨before, m.line, st, after, rfl, h5, h6, ?_⟩
      rw [units_columns, ← h7, ← h8]

/-- The lines with a right statement are determined by the text. -/
theorem C56_accepted_unique (cores : List Str) (p q : List (Nat × Stmt)) (hp : Accepted cores p)
    (hq : Accepted cores q) : p = q := by
  have hm : ∀ x, x ∈ p ↔ x ∈ q := fun x => by
    rw [show x = (x.1, x.2) from rfl, hp.2, hq.2]
  have hp1 := hp.1
  have hq1 := hq.1
  clear hp hq
  induction p generalizing q with
  | nil =>
    cases q with
    | nil => rfl
    | cons y q => exact absurd ((hm y).2 (by simp)) (by simp)
  | cons x p ih =>
    cases q with
    | nil => exact absurd ((hm x).1 (by simp)) (by simp)
    | cons y q =>
      obtain ⟨a1, a2⟩ := List.pairwise_cons.1 hp1
      obtain ⟨b1, b2⟩ := List.pairwise_cons.1 hq1
      have e : x = y := by
        rcases List.mem_cons.1 ((hm x).1 (by simp)) with h | h
        · exact h
        · rcases List.mem_cons.1 ((hm y).2 (by simp)) with h' | h'
          · exact h'.symm
          · have := a1 y h'
            have := b1 x h
            omega
      subst e
      rw [ih q (fun z => ?_) a2 b2]
      constructor
      · intro hz
        rcases List.mem_cons.1 ((hm z).1 (by simp [hz])) with rfl | h
        · exact absurd (a1 z hz) (by omega)
        · exact h
      · intro hz
        rcases List.mem_cons.1 ((hm z).2 (by simp [hz])) with rfl | h
        · exact absurd (b1 z hz) (by omega)
        · exact h

/-- When a line begins with its statement, the mark of an error covers the statement, and the mark of a
label the label: the columns from `startCol` to `endCol` hold the text. -/
theorem C56_place (text : Str) (d : Nat) (out : Output) (lines cores : List Str)
    (hl : Lines text lines) (hc : List.Forall₂ Core lines cores)
    (hp : ∀ c ∈ cores, ∀ x ∈ c, ¬ OddTerm x) (h : parseInput text d = some out) (i : Nat)
    (line : Str) (hi : lines[i]? = some line) (hb : ∀ x, line.head? = some x → ¬ Blank x) :
    (∀ m ∈ out.errors, m.line = i → ∃ c rest, cores[i]? = some c ∧ line = c ++ rest ∧
      m.startCol = 0 ∧ m.endCol = columns c) ∧
    (∀ l a m, (l, a, m) ∈ out.etiPositions → m.line = i → ∃ rest, line = l ++ ' ' :: rest ∧
      m.startCol = 0 ∧ m.endCol = columns l) := by
  obtain ⟨c, hci, hcore⟩ : ∃ c, cores[i]? = some c ∧ Core line c := by
    have hlen := hc.length_eq
    obtain ⟨h1, h2⟩ := List.getElem?_eq_some_iff.1 hi
    refine ⟨cores[i], List.getElem?_eq_getElem _, ?_⟩
    rw [← h2]
    exact List.forall₂_iff_get.1 hc |>.2 i h1 (by omega)
  have hpre : c ≠ [] → ∃ rest, line = c ++ rest := by
    intro hne
    obtain ⟨a, b, k, e, ha, _, _⟩ := hcore.parts
    cases a with
    | nil => exact ⟨b ++ k, by simpa using e⟩
    | cons x a =>
      exact absurd (ha x (by simp)) (hb x (by rw [e]; rfl))
  constructor
  · intro m hm he
    obtain ⟨c', h1, h2, _, h3, h4⟩ := ((C56_errors text d out lines cores hl hc hp h).1 m).1 hm
    rw [he, hci] at h1
    cases h1
    obtain ⟨rest, e⟩ := hpre h2
    exact ⟨c, rest, hci, e, h3, h4⟩
  · intro l a m hm he
    obtain ⟨acc, hacc, h1⟩ := C56_labels text d out lines cores hl hc hp h
    obtain ⟨before, st, after, rfl, h2, _, h3, h4⟩ := (h1 l a m).1 hm
    obtain ⟨c', h5, h6, _⟩ := (hacc.2 m.line st).1 (by simp)
    rw [he, hci] at h5
    cases h5
    obtain ⟨rest, e⟩ := hpre h6.ne_nil
    obtain ⟨w, s, _, _, hh⟩ := h6
    rw [h2] at hh
    exact ⟨s ++ rest, by rw [e, hh.2]; simp, h3, h4⟩

/-- The annotations of a right program: one for each statement, in the row of the statement, and its
text is the bytes of the statement, one to a line. -/
theorem C56_notes (text : Str) (prog : List Stmt) (out : Output) (lines cores : List Str)
    (hl : Lines text lines) (hc : List.Forall₂ Core lines cores) (hs : Source text prog)
    (hv : Valid prog) (ha : LabelsAreAddresses prog) (hsz : sizeOf prog ≤ 65536)
    (h : parseInput text 0 = some out) :
    ∃ (rows : List Nat) (bss : List (List (BitVec 8))), Code prog bss ∧ rows.Pairwise (· < ·) ∧
      List.Forall₂ (fun i st => ∃ c, cores[i]? = some c ∧ Reads c st) rows prog ∧
      out.annotations.map (·.1) = rows ∧
      List.Forall₂ (fun s bs => ∃ xs, s = join '\n' xs ∧ List.Forall₂ HexByte xs bs)
        (out.annotations.map (·.2)) bss := by
  have hp : ∀ c ∈ cores, ∀ x ∈ c, ¬ OddTerm x := by
    obtain ⟨lines', cores', h1, h2, h3, _⟩ := hs
    have e : lines' = lines := by rw [← h1.eq, hl.eq]
    subst e
    rw [cores_eq hc, ← cores_eq h2]
    exact h3
  obtain ⟨e, hn⟩ := cores_cleanLines hl hc hp
  obtain ⟨hr1, hr2⟩ := (source_iff _ _).1 hs
  rw [e] at hr1 hr2
  obtain ⟨p1, p2⟩ := parseLines_ok (labels := pre cores) 0 hn hr2 ((valid_iff hn hr2).1 hv)
  obtain ⟨_, _, acc, h2, h3, h4, h5⟩ := parseLines_acc (labels := pre cores) 0 hn
  have eprog : acc.map (·.2) = prog :=
    ((source_iff text _).2 ⟨by rw [e]; exact hn, by rw [e]; exact h5 p1⟩).unique hs
  have hout : out.results = (parseLines (pre cores) 0 cores).2.map
      (settle (etiPos 0 (parseLines (pre cores) 0 cores).2)) := by
    have h3 := post_settle (results := (parseLines (pre cores) 0 cores).2) (dir := 0) (by
      intro r hr
      obtain ⟨st, _, this⟩ := Forall₂.of_left p2 hr
      rw [this.eti]
      cases hl : st.label with
      | none => exact .inl rfl
      | some l => exact .inr (by simpa [startsT] using (this.lab l hl).1)) (by
      intro x hx
      obtain ⟨st, hst, hk⟩ := Forall₂.of_left p2 hx
      exact (Kept.settles p2 hv 0 hst hk).1)
    unfold parseInput at h
    simp only [e, h3, Option.map_some, Option.some.injEq] at h
    rw [← h]
  generalize hres : (parseLines (pre cores) 0 cores).2 = results at *
  have key : ∀ rs (ps : List (Nat × Stmt)), List.Forall₂ (Noted (pre cores) cores 0) rs ps →
      (∀ p ∈ ps, p.2 ∈ prog) →
      ∃ bss, List.Forall₂ (StmtCode prog) (ps.map (·.2)) bss ∧
        List.Forall₂ (fun s bs => ∃ xs, s = join '\n' xs ∧ List.Forall₂ HexByte xs bs)
          (rs.map fun x => join '\n' (settle (etiPos 0 results) x).result) bss ∧
        (rs.map fun x => (settle (etiPos 0 results) x).originalOffset) = ps.map (·.1) ∧
        List.Forall₂ (fun i st => ∃ c, cores[i]? = some c ∧ Reads c st) (ps.map (·.1)) (ps.map (·.2)) := by
    intro rs ps h hm
    induction h with
    | nil => exact ⟨[], .nil, .nil, rfl, .nil⟩
    | @cons x p rs ps h1 _ ih =>
      obtain ⟨_, bs, g1, g2⟩ := Kept.final p2 hv ha hsz (hm _ (by simp)) h1.kept
      obtain ⟨bss, g3, g4, g5, g6⟩ := ih fun st hst => hm st (by simp [hst])
      refine ⟨bs :: bss, .cons g1 g3, .cons ⟨_, rfl, g2⟩ g4, ?_, .cons ?_ g6⟩
      · rw [List.map_cons, List.map_cons, g5, ← h1.line]
        congr 1
        unfold settle
        split
        · split <;> rfl
        · rfl
      · obtain ⟨k, e1, e2⟩ := h1.pos
        exact ⟨x.line, by show cores[p.1]? = _; rw [e1]; simpa using e2, h1.reads⟩
  obtain ⟨bss, k1, k2, k3, k4⟩ := key results acc h2 fun p hp => by
    rw [← eprog]; exact List.mem_map_of_mem hp
  rw [eprog] at k1 k4
  refine ⟨acc.map (·.1), bss, k1, ?_, k4, ?_, ?_⟩
  · rw [List.pairwise_map]
    exact h3
  · rw [← k3, Output.annotations, hout, List.map_map, List.map_map]
    rfl
  · rw [Output.annotations, hout, List.map_map, List.map_map]
    exact k2

/-- A text with a blank line, a comment, a label, a number out of range and a label that is declared
nowhere. -/
def markedText : Str := "MOV 5, AC\n\nT1 ADD 1FF # too big\nT2 FIN\n# FIN\nJMP T3\nJMP T2".toList

/-- Non-vacuity: the marks of this text. -/
example : (parseInput markedText 0).map Output.errors = some [⟨2, 0, 10⟩, ⟨5, 0, 6⟩] ∧
    (parseInput markedText 0).map Output.etiPositions = some [("T2".toList, 2, ⟨3, 0, 2⟩)] ∧
    (parseInput markedText 0).map Output.annotations =
      some [(0, "64\n05".toList), (3, "FF".toList), (6, "74\n00\n02".toList)] := by decide +kernel

/-- A character outside the basic plane takes two columns. -/
example : (parseInput [Char.ofNat 0x1F600, 'x'] 0).map Output.errors = some [⟨0, 0, 3⟩] ∧
    columns [Char.ofNat 0x1F600, 'x'] = 3 := by decide +kernel

/-- The columns do not count the blanks at the beginning of a line, which `trim` has removed: the label
`T1` is in columns 4 to 6, the mark in columns 0 to 2; the statement `NOP` is in columns 2 to 5, the
mark in columns 0 to 3. -/
theorem C56_indent_wrong : (parseInput "    T1 FIN\n  NOP".toList 0).map
    (fun out => (out.errors, out.etiPositions)) =
      some ([⟨1, 0, 3⟩], [("T1".toList, 0, ⟨0, 0, 2⟩)]) ∧
    ("    T1 FIN".toList.drop 4).take 2 = "T1".toList ∧
    ("  NOP".toList.drop 2).take 3 = "NOP".toList := by decide +kernel

/-- A line is accepted when its label operand stands before something with the shape of an instruction,
even if that line is an error: then the accepted line loses its annotation although it carries no
mark, and the line after it is left with an unresolved label. -/
theorem C56_lost : (parseInput "T1 ADD 1FF\nJMP T1\nT2 JMP T2".toList 0).map
    (fun out => (out.errors, out.annotations)) =
      some ([⟨0, 0, 10⟩], [(2, "74\nT2".toList)]) := by decide +kernel

end Mpp.Front
