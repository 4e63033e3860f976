import Verif.Front.Listing
import Verif.Props.Session
/-!
# C76: the code drawer offers to save exactly the programs, and lists each byte beside its address
-/
namespace Mpp.Front

/-! ## The drawer has the code of the editor -/

/-- The drawer is about the text in the editor, and its offset is 0. -/
structure Ui.Tracks (s : Ui) : Prop where
  offset : s.drawer.offset = 0
  shown : s.drawer.shownOffset = 0
  valid : s.drawer.offsetValid = true
  slots : ∀ t, translation s.page.code = some t →
    match t with
    | none => s.drawer.canSave = false
    | some lines => s.drawer.slots = lines ∧ s.drawer.canSave = decide (lines.length ≤ 65536)
  origin : ∃ actions, (∀ a ∈ actions, ∃ t, a = Action.code t) ∧
    Editor.start.acts (actions ++ [.code s.page.code]) = some s.drawer

theorem Ui.Tracks.same {s s' : Ui} (t : s.Tracks) (hd : s'.drawer = s.drawer)
    (hc : s'.page.code = s.page.code) : s'.Tracks :=
  ⟨hd ▸ t.offset, hd ▸ t.shown, hd ▸ t.valid, by rw [hd, hc]; exact t.slots, by
    rw [hd, hc]; exact t.origin⟩

theorem instructionLoop_page {s : Ui} {pause : Value} {r : Ui × List Task}
    (h : s.instructionLoop pause = some r) : r.1.page.code = s.page.code := by
  rcases instructionLoop_inv h with ⟨_, rfl⟩ | ⟨_, _, _, _, _, _, _, ⟨_, rfl⟩ | ⟨_, rfl⟩⟩ <;> rfl

theorem programLoop_page {s : Ui} {imm st : Bool} {pause : Value} {r : Ui × List Task}
    (h : s.programLoop imm pause st = some r) : r.1.page.code = s.page.code := by
  rcases programLoop_inv h with ⟨_, rfl⟩ | ⟨_, _, _, _, ⟨_, rfl⟩ | ⟨_, _, _, _, _, _, _, rfl⟩⟩ <;> rfl

theorem resume_page {s : Ui} {late : Bool} {t : Task} {r : Ui × List Task}
    (h : s.resume late t = some r) : r.1.page.code = s.page.code := by
  cases t with
  | instruction pause => exact instructionLoop_page h
  | starting => exact programLoop_page (s := { s with page := s.page.step .run, current := true }) h
  | program imm pause st =>
    simp only [Ui.resume] at h
    split at h
    · cases h; rfl
    · exact programLoop_page h
  | dialog pause st => cases h; rfl
  | dismissed pause st => exact programLoop_page h

theorem press_page {s : Ui} {b : Button} {r : Ui × List Task} (h : s.press b = some r) :
    r.1.page.code = s.page.code := by
  cases b with
  | state =>
    simp only [Ui.press, Ui.cycle, Option.map_eq_some_iff] at h
    obtain ⟨s1, ⟨_, _, rfl⟩, rfl⟩ := h
    rfl
  | instruction =>
    exact instructionLoop_page
      (s := { s with page := s.page.step .run, current := true, running := true }) h
  | program =>
    simp only [Ui.press] at h
    split at h
    · cases h; rfl
    · exact programLoop_page
        (s := { s with page := s.page.step .run, current := true, running := true }) h

theorem tracks_code {e e' : Editor} {text : Str} (h0 : e.offset = 0) (h1 : e.shownOffset = 0)
    (h2 : e.offsetValid = true) {as : List Action} (ha : ∀ a ∈ as, ∃ t, a = .code t)
    (h3 : Editor.start.acts as = some e) (h : e.act (.code text) = some e') (s : Ui) (hd : s.drawer = e')
    (hc : s.page.code = text) : s.Tracks := by
  have last : Editor.start.acts (as ++ [.code text]) = some e' := by
    rw [Editor.acts_append, h3]
    simp [Editor.acts, h]
  simp only [Editor.act, Option.map_eq_some_iff] at h
  obtain ⟨t, ht, rfl⟩ := h
  refine ⟨?_, ?_, ?_, ?_, ⟨as, ha, by rw [hc, hd]; exact last⟩⟩
  · rw [hd]; cases t <;> exact h0
  · rw [hd]; cases t <;> exact h1
  · rw [hd]; cases t <;> exact h2
  · intro t' ht'
    rw [hc, ht] at ht'
    cases ht'
    rw [hd]
    cases t with
    | none => rfl
    | some lines =>
      refine ⟨rfl, ?_⟩
      show decide (e.offset + (lines.length : Int) - 1 ≤ 65536 - 1) = _
      rw [h0]
      exact decide_eq_decide.2 (by omega)

theorem Ui.Tracks.step {s s' : Ui} {e : Event} (he : e.offered) (g : s.Good s.tasks) (t : s.Tracks)
    (h : s.step e = some s') : s'.Tracks := by
  cases e with
  | press b =>
    obtain ⟨_, _, _, r, h1, rfl⟩ := press_step g h
    exact t.same (press_drawer h1) (press_page h1)
  | stop late =>
    obtain ⟨_, _, t', _, ⟨_, rfl⟩ | ⟨_, r, h1, rfl⟩⟩ := stop_step g h
    · exact t.same rfl rfl
    · exact t.same (resume_drawer (s := { s with current := false }) h1)
        (resume_page (s := { s with current := false }) h1)
  | wake n late =>
    obtain ⟨_, t', _, _, _, _, r, h1, rfl⟩ := wake_step g h
    exact t.same (resume_drawer h1) (resume_page h1)
  | answer n go =>
    obtain ⟨_, _, _, _, _, ⟨_, rfl⟩ | ⟨_, rfl⟩⟩ := answer_step g h <;> exact t.same rfl rfl
  | cycle v =>
    simp only [Ui.step] at h
    split at h
    · cases h
    · cases h
      refine t.same rfl ?_
      cases v with
      | none => rfl
      | some n => simp only [Page.step]; split; · rfl
                  split <;> rfl
  | tour v =>
    simp only [Ui.step] at h
    split at h
    · cases h
    · cases h; exact t.same rfl rfl
  | drawer a =>
    simp only [Ui.step] at h
    split at h
    · cases h
    · simp only [Option.map_eq_some_iff] at h
      obtain ⟨e, he', rfl⟩ := h
      cases a with
      | code text =>
        obtain ⟨as, ha, h1⟩ := t.origin
        refine tracks_code t.offset t.shown t.valid ?_ h1 he' _ rfl rfl
        intro a h
        rcases List.mem_append.1 h with h | h
        · exact ha a h
        · exact ⟨_, List.mem_singleton.1 h⟩
      | offset n => exact absurd rfl (he n)
  | save =>
    obtain ⟨_, _, _, h4, h5⟩ := calls_rest (save_step h)
    exact t.same h5 (by rw [h4])
  | setPc =>
    obtain ⟨_, _, _, h4, h5⟩ := calls_rest (setPc_step h)
    exact t.same h5 (by rw [h4])

theorem steps_tracks {h : H} {p : Page} {s0 s : Ui} {es : List Event} (h0 : Ui.start h p = some s0)
    (he : ∀ e ∈ es, e.offered) (hs : s0.steps es = some s) : s.Tracks := by
  have t0 : s0.Tracks := by
    unfold Ui.start at h0
    simp only [Option.map_eq_some_iff] at h0
    obtain ⟨e, h1, rfl⟩ := h0
    exact tracks_code (as := []) rfl rfl rfl (fun _ h => by cases h) rfl h1 _ rfl rfl
  exact (steps_keep (I := fun x => x.Good x.tasks ∧ x.Tracks) (ok := Event.offered)
    (fun s1 e s2 he i h => ⟨i.1.step h, i.2.step he i.1 h⟩) he ⟨start_good h0, t0⟩ hs).2

/-! ## When saving is enabled -/

/-- Whatever was done on the page, saving is enabled exactly when the text that is in the editor now is
translated without errors, to at least one and at most 65536 bytes. -/
theorem C76_enabled (h : H) (p : Page) (s0 s : Ui) (es : List Event) (h0 : Ui.start h p = some s0)
    (he : ∀ e ∈ es, e.offered) (hs : s0.steps es = some s) :
    s.drawer.canSave = true ↔
      ∃ slots, translation s.page.code = some (some slots) ∧ slots.length ≤ 65536 := by
  have t := steps_tracks h0 he hs
  obtain ⟨x, hx⟩ := Option.isSome_iff_exists.1 (translation_total s.page.code)
  have := t.slots x hx
  rw [hx]
  cases x with
  | none =>
    rw [this]
    exact ⟨fun h => (by cases h), fun ⟨_, h, _⟩ => (by cases h)⟩
  | some lines =>
    rw [this.2, decide_eq_true_iff]
    exact ⟨fun h => ⟨lines, rfl, h⟩, fun ⟨_, h1, h2⟩ => (by cases h1; exact h2)⟩

/-- In terms of the language: saving is enabled exactly when the text is a program of at least one
statement whose operands are right and that fits into memory. (A byte operand that is a label is longer
than one byte, see `C36_byte_label`; such programs are left out here.) -/
theorem C76_program (h : H) (p : Page) (s0 s : Ui) (es : List Event) (h0 : Ui.start h p = some s0)
    (he : ∀ e ∈ es, e.offered) (hs : s0.steps es = some s) (hp : Plain s.page.code)
    (ha : ∀ prog, Source s.page.code prog → LabelsAreAddresses prog) :
    s.drawer.canSave = true ↔
      ∃ prog, Source s.page.code prog ∧ Valid prog ∧ prog ≠ [] ∧ sizeOf prog ≤ 65536 := by
  rw [C76_enabled h p s0 s es h0 he hs]
  constructor
  · rintro ⟨slots, h1, h2⟩
    obtain ⟨prog, hs, hv, hne⟩ := (translation_iff hp).1 ⟨_, h1⟩
    have := translation_size hs hv h1
    exact ⟨prog, hs, hv, hne, by omega⟩
  · rintro ⟨prog, hs, hv, hne, hsz⟩
    obtain ⟨slots, bss, h1, h2, h3⟩ := translation_code hs hne hv (ha prog hs) hsz
    refine ⟨slots, h1, ?_⟩
    rw [h3.length_eq, flatten_size h2]
    exact hsz

/-! ## The listing -/

theorem calls_execAll {cs : List Call} {s s' : Ui} (h : s.calls cs = some s') :
    ∃ vs, execAll cs s.core = some (vs, s'.core) := by
  induction cs generalizing s with
  | nil => cases h; exact ⟨[], rfl⟩
  | cons c cs ih =>
    simp only [Ui.calls, Option.bind_eq_some_iff] at h
    obtain ⟨r, h1, h2⟩ := h
    obtain ⟨vs, h3⟩ := ih h2
    exact ⟨r.1 :: vs, by simp only [execAll, h1, Option.bind_some]; rw [h3]; rfl⟩

theorem listing_slots {text : Str} {slots : List Str} (h : translation text = some (some slots)) :
    ∃ str, listing text = some str ∧ split '\n' str = slots := by
  unfold translation at h
  simp only [Option.map_eq_some_iff] at h
  obtain ⟨out, h1, h2⟩ := h
  refine ⟨_, by unfold listing; rw [h1]; rfl, ?_⟩
  split at h2
  · cases h2
  · exact Option.some.inj h2

/-- The listing under a program: one row for each byte of its machine code, in order, numbered from 0 on
without gaps, with the two hexadecimal digits of the byte. -/
theorem C76_rows (h : H) (p : Page) (s0 s : Ui) (es : List Event) (h0 : Ui.start h p = some s0)
    (he : ∀ e ∈ es, e.offered) (hs : s0.steps es = some s) (prog : List Stmt)
    (hsrc : Source s.page.code prog) (hne : prog ≠ []) (hv : Valid prog)
    (ha : LabelsAreAddresses prog) (hsz : sizeOf prog ≤ 65536) :
    ∃ bss rows, Code prog bss ∧ s.listing = some rows ∧ rows.length = bss.flatten.length ∧
      ∀ (k : Nat) n row, rows[k]? = some (n, row) → n = k ∧ ∃ b, bss.flatten[k]? = some b ∧ HexByte row b := by
  have t := steps_tracks h0 he hs
  obtain ⟨slots, bss, h1, h2, h3⟩ := translation_code hsrc hne hv ha hsz
  obtain ⟨str, h4, h5⟩ := listing_slots h1
  refine ⟨bss, gutterRows 0 str, h2, ?_, ?_, ?_⟩
  · unfold Ui.listing; rw [h4, t.shown]; rfl
  · rw [gutterRows, List.length_mapIdx, h5]; exact h3.length_eq
  · intro k n row hk
    rw [gutterRows, h5, List.getElem?_mapIdx, Option.map_eq_some_iff] at hk
    obtain ⟨x, hx, e⟩ := hk
    cases e
    refine ⟨by omega, ?_⟩
    obtain ⟨hlt, hx⟩ := List.getElem?_eq_some_iff.1 hx
    have hlt' : k < bss.flatten.length := by rw [← h3.length_eq]; exact hlt
    refine ⟨bss.flatten[k], List.getElem?_eq_getElem hlt', ?_⟩
    have := h3.get hlt hlt'
    simp only [List.get_eq_getElem] at this
    rw [← hx]
    exact this

/-- Saving what is listed: afterwards the cell of memory whose address is the number beside a row holds the
byte in the row. All other cells and all registers are as before, and the next cycle is a fetch. -/
theorem C76_saved (ph : Phase) (h : H) (p : Page) (s0 s s' : Ui) (es : List Event) (hr : Reach ph h)
    (on : ph.on = true) (ui : ph.ui = true) (h0 : Ui.start h p = some s0)
    (he : ∀ e ∈ es, e.offered) (hs : s0.steps es = some s) (prog : List Stmt)
    (hsrc : Source s.page.code prog) (hne : prog ≠ []) (hv : Valid prog)
    (ha : LabelsAreAddresses prog) (hsz : sizeOf prog ≤ 65536) (q : P) (hq : Shows s.core q)
    (save : s.step .save = some s') :
    ∃ rows m, s.listing = some rows ∧ Ready s'.core { q with mem := m } ∧
      (∀ n row, (n, row) ∈ rows → ∃ (a : BitVec 16) (b : BitVec 8), n = a.toNat ∧ HexByte row b ∧
        m a = b ∧ Cell s'.core a b) ∧
      ∀ a : BitVec 16, (∀ row, ((a.toNat : Int), row) ∉ rows) → m a = q.mem a := by
  have t := steps_tracks h0 he hs
  obtain ⟨_, i⟩ := steps_sound (start_good h0) (start_sound h0 ⟨ph, hr, on, ui⟩) hs
  obtain ⟨bss, rows, hc, hl, hlen, hrow⟩ := C76_rows h p s0 s es h0 he hs prog hsrc hne hv ha hsz
  obtain ⟨as, _, hact⟩ := t.origin
  obtain ⟨slots, bss', h1, h2, h3⟩ := translation_code hsrc hne hv ha hsz
  have hcan : s.drawer.canSave = true :=
    (C76_enabled h p s0 s es h0 he hs).2 ⟨slots, h1, by rw [h3.length_eq, flatten_size h2]; exact hsz⟩
  obtain ⟨ph', r', on', ui'⟩ := i.core
  have hp : Plain s.page.code := by
    obtain ⟨lines, cores, a, b, c, _⟩ := hsrc
    exact ⟨lines, cores, a, b, c⟩
  obtain ⟨prog', k1, _, _, k4⟩ := C41_program as _ s.drawer hact hcan hp ph' s.core q r' on' ui' hq
  have : prog' = prog := k1.unique hsrc
  subst this
  obtain ⟨bss'', vs, h', m, c1, c2, c3, c4, c5⟩ := k4 ha
  cases (C37_unique _ _ _ hsrc hsrc _ _ hc c1).2
  obtain ⟨vs', c6⟩ := calls_execAll (save_step save)
  rw [c2] at c6
  cases c6
  refine ⟨rows, m, hl, c3, ?_, ?_⟩
  · intro n row hmem
    obtain ⟨k, hk⟩ := List.getElem?_of_mem hmem
    obtain ⟨rfl, b, hb, hx⟩ := hrow k n row hk
    have hlt : k < 65536 := by
      have := c5.1
      have := (List.getElem?_eq_some_iff.1 hb).1
      omega
    have hm : m (BitVec.ofNat 16 k) = b := by
      have := c4.here k b hb
      rwa [t.offset, show (0 : Int).toNat + k = k by simp] at this
    refine ⟨BitVec.ofNat 16 k, b, ?_, hx, hm, ?_⟩
    · simp; omega
    · obtain ⟨_, _, _, _, _, sh⟩ := c3
      rw [← hm]
      exact sh.mem _
  · intro a hn
    apply c4.elsewhere
    right
    rw [t.offset]
    apply Classical.byContradiction
    intro hlt
    have hlt : a.toNat < rows.length := by rw [hlen]; simpa using hlt
    have hk := List.getElem?_eq_getElem hlt
    obtain ⟨e, _⟩ := hrow a.toNat _ _ hk
    refine hn rows[a.toNat].2 ?_
    rw [← e]
    exact List.getElem_mem hlt

/-- The sample program typed into the editor of a page: the theorems apply, and the listing is its machine
code, with the address of each byte. -/
theorem sample_session : ∃ ph h s0 s s' q, Reach ph h ∧ ph.on = true ∧ ph.ui = true ∧
    Ui.start h (load emptyStore none) = some s0 ∧ s0.steps [.drawer (.code sampleText)] = some s ∧
    Source s.page.code sampleProg ∧ sampleProg ≠ [] ∧ Valid sampleProg ∧ LabelsAreAddresses sampleProg ∧
    sizeOf sampleProg ≤ 65536 ∧ Shows s.core q ∧ s.step .save = some s' ∧ s.running = false ∧ s.listing = some
      ([(0, "64"), (1, "00"), (2, "4B"), (3, "67"), (4, "05"), (5, "72"), (6, "00"), (7, "0B"), (8, "74"),
        (9, "00"), (10, "02"), (11, "FF")].map fun x => (x.1, x.2.toList)) := by
  obtain ⟨h, ph, hr, on, ui, _, sh⟩ := ready_all ⟨1, 2, 3, 4, 5, 7, 9, true, false, fun _ => 0, []⟩ rfl
  obtain ⟨s0, h0, hs⟩ := C59_defined ph h (load emptyStore none) hr on ui
  obtain ⟨c0, _, r0, _, _, t0, _⟩ := start_inv h0
  obtain ⟨s, e1⟩ := Option.isSome_iff_exists.1
    (((hs [] s0 rfl).2.2.2.2 (by rw [t0]; intro t ht; cases ht)).2.2.1 (.code sampleText))
  have st : s0.steps [.drawer (.code sampleText)] = some s := by simp [Ui.steps, e1]
  have hcode : s.page.code = sampleText := by
    have := e1
    simp only [Ui.step] at this
    split at this
    · cases this
    · simp only [Option.map_eq_some_iff] at this
      obtain ⟨_, _, rfl⟩ := this
      rfl
  obtain ⟨o1, _, o3, _, o5⟩ := other_step trivial e1
  obtain ⟨s', e2⟩ := Option.isSome_iff_exists.1
    ((hs _ s st).2.2.2.2 (by rw [o5, t0]; intro t ht; cases ht)).1
  obtain ⟨v1, v2, v3, v4⟩ := sample_valid
  have tr := steps_tracks h0 (es := [.drawer (.code sampleText)])
    (by intro e he; rw [List.mem_singleton.1 he]; intro n h; cases h) st
  refine ⟨ph, h, s0, s, s', _, hr, on, ui, h0, st, hcode ▸ sample_source, v3, v1, v2, by rw [v4]; decide,
    by rw [o1, c0]; exact sh, e2, o3.trans r0, ?_⟩
  unfold Ui.listing
  rw [hcode, tr.shown]
  decide +kernel

end Mpp.Front
