import Verif.Props.Play
import Verif.Props.Docs
import Verif.Props.Examples
import Verif.Props.Link
/-!
# C79: the programs of the documentation and the samples, run on the page

What C42, C43, C48, C49 and C63-C66 say of the drawer and the core, for a user of the page: the program is opened from
the documentation or chosen in the drawer, then saved, PC is set and run-program is pressed.
-/
namespace Mpp.Front

/-- The drawer with one text, as after its first render. -/
theorem tracks_calls {s : Ui} (t : s.Tracks) {e : Editor}
    (he : Editor.start.acts [.code s.page.code] = some e) (hc : e.canSave = true) :
    s.drawer.saveCalls = e.saveCalls ∧ s.drawer.pcCalls = e.pcCalls := by
  simp only [Editor.acts, Editor.act, Option.bind_eq_some_iff, Option.map_eq_some_iff] at he
  obtain ⟨_, ⟨x, hx, rfl⟩, e'⟩ := he
  cases e'
  have := t.slots x hx
  cases x with
  | none => cases hc
  | some lines =>
    obtain ⟨h1, h2⟩ := this
    have h3 : ((0 : Int) + lines.length - 1 ≤ 65536 - 1) := by
      simpa [Editor.newTranslation, Editor.check, Editor.start] using hc
    have h4 : s.drawer.canSave = true := by rw [h2, decide_eq_true_iff]; omega
    refine ⟨?_, ?_⟩
    · unfold Editor.saveCalls
      rw [if_pos h4, if_pos hc, t.offset, h1]
      rfl
    · unfold Editor.pcCalls
      rw [if_pos t.valid, if_pos (by rfl), t.shown]
      rfl

/-- Saving, setting PC and pressing run-program, with the calls to the core that this makes. -/
theorem played_press (ph : Phase) (h : H) (p : Page) (s0 s : Ui) (es : List Event) (hr : Reach ph h)
    (on : ph.on = true) (ui : ph.ui = true) (h0 : Ui.start h p = some s0) (he : ∀ e ∈ es, e.offered)
    (hs : s0.steps es = some s) (idle : s.running = false) :
    ∃ s1 s2 vs, s.steps [.save, .setPc] = some s1 ∧ s1.step (.press .program) = some s2 ∧
      s1.shown = some s1.core ∧
      execAll (s.drawer.saveCalls ++ s.drawer.pcCalls) s.core = some (vs, s1.core) := by
  obtain ⟨g, i⟩ := steps_sound (start_good h0) (start_sound h0 ⟨ph, hr, on, ui⟩) hs
  have ht := (good_nil g idle).1
  have tr := steps_tracks h0 he hs
  obtain ⟨as, hc, hact⟩ := tr.origin
  obtain ⟨ph', r', on', ui'⟩ := i.core
  obtain ⟨sa, e1⟩ := calls_some (drawer_allowed hact on' ui').1 r'
  obtain ⟨b1, _, b3, b4, b5⟩ := calls_rest e1
  have ra := calls_reach (drawer_allowed hact on' ui').1 r' e1
  obtain ⟨sb, e2⟩ := calls_some (s := sa) (drawer_allowed hact on' ui').2 ra
  obtain ⟨c1, _, c3, _, _⟩ := calls_rest e2
  have st : s.steps [.save, .setPc] = some sb := by
    have e1' : s.step .save = some sa := by simp [Ui.step, ht, e1]
    have e2' : sa.step .setPc = some sb := by simp [Ui.step, b3, ht, b5, e2]
    simp [Ui.steps, e1', e2']
  have sh : sb.shown = some sb.core := by
    rw [Editor.pcCalls, if_pos tr.valid] at e2
    exact calls_fresh (cs := []) rfl e2
  obtain ⟨s0', hd, def'⟩ := C59_defined ph h p hr on ui
  rw [h0] at hd; cases hd
  obtain ⟨s2, e3⟩ := Option.isSome_iff_exists.1
    ((def' _ sb (steps_append hs st)).2.1 (by rw [c1, b1, idle]) .program)
  obtain ⟨vs1, x1⟩ := calls_execAll e1
  obtain ⟨vs2, x2⟩ := calls_execAll e2
  refine ⟨sb, s2, vs1 ++ vs2, st, e3, sh, ?_⟩
  rw [execAll_append, x1]
  simp only [Option.bind_some, x2, Option.map_some]

/-- **C79.** A text of which it is known how it comes out when it is put into the drawer, saved and run on the
core: on the page, with this text in the editor and nothing running, saving, setting PC and pressing run-program
starts a run that can always be brought to its end by waiting, and as soon as it is over the machine is as known, and
the page has been told of it. -/
theorem C79_played (ph : Phase) (h : H) (p : Page) (s0 s : Ui) (es : List Event) (hr : Reach ph h)
    (on : ph.on = true) (ui : ph.ui = true) (h0 : Ui.start h p = some s0) (he : ∀ e ∈ es, e.offered)
    (hs : s0.steps es = some s) (idle : s.running = false) (Q : P → Prop)
    (known : ∀ u, ∃ e vs h1 n h2 q, Editor.start.acts [.code s.page.code] = some e ∧ e.canSave = true ∧
      execAll (e.saveCalls ++ e.pcCalls) s.core = some (vs, h1) ∧ RunProgram u n h1 h2 ∧ Ready h2 q ∧ Q q) :
    ∃ s1, s.steps [.save, .setPc, .press .program] = some s1 ∧
      (∀ es' s', (∀ e ∈ es', e.leaves ∧ e.offered) → s1.steps es' = some s' → s'.running = false →
        ∃ q, Ready s'.core q ∧ Q q ∧ s'.shown = some s'.core) ∧
      ∀ es' s', (∀ e ∈ es', e.leaves) → s1.steps es' = some s' →
        ∃ es'' s'', (∀ e ∈ es'', e.waits) ∧ s'.steps es'' = some s'' ∧ s''.running = false := by
  obtain ⟨s1, s2, vs, st, e2, sh1, ex⟩ := played_press ph h p s0 s es hr on ui h0 he hs idle
  have st1 := steps_append hs st
  have known' : ∀ u, ∃ n h2 q, RunProgram u n s1.core h2 ∧ Ready h2 q ∧ Q q := by
    intro u
    obtain ⟨e, vs', h1, n, h2, q, k1, k2, k3, k4, k5, k6⟩ := known u
    obtain ⟨c1, c2⟩ := tracks_calls (steps_tracks h0 he hs) k1 k2
    rw [← c1, ← c2, ex] at k3
    cases k3
    exact ⟨n, h2, q, k4, k5, k6⟩
  refine ⟨s2, steps_append (es := [.save, .setPc]) st (by simp [Ui.steps, e2]), ?_, ?_⟩
  · intro es' s' hl hs' over
    obtain ⟨u, n, run⟩ := C77_run ph h p s0 s1 s2 s' _ es' hr on ui h0 st1 e2 (fun e h => (hl e h).1) hs' over
    obtain ⟨n', h', q, run', ready, hq⟩ := known' u
    have := (ProgramLoop.det run run').2
    subst this
    refine ⟨q, ready, hq, ?_⟩
    refine shown_later h0 (es := es ++ [.save, .setPc]) ?_ st1 sh1 (es' := .press .program :: es') ?_ ?_ over
    · intro e h
      rcases List.mem_append.1 h with h | h
      · exact he e h
      · rcases List.mem_pair.1 h with rfl | rfl <;> intro n h <;> cases h
    · intro e h
      rcases List.mem_cons.1 h with rfl | h
      · intro n h; cases h
      · exact (hl e h).2
    · rw [Ui.steps, e2]; exact hs'
  · intro es' s' hl hs'
    exact C77_ends ph h p s0 s1 s2 s' _ es' hr on ui h0 st1 e2 hl hs' fun u =>
      let ⟨n, h', _, a, _⟩ := known' u
      ⟨n, h', a⟩

/-- **C79.** And a text whose run is known not to end on the core: on the page it is never over by itself. -/
theorem C79_endless (ph : Phase) (h : H) (p : Page) (s0 s : Ui) (es : List Event) (hr : Reach ph h)
    (on : ph.on = true) (ui : ph.ui = true) (h0 : Ui.start h p = some s0) (he : ∀ e ∈ es, e.offered)
    (hs : s0.steps es = some s) (idle : s.running = false)
    (known : ∀ u, ∃ e vs h1, Editor.start.acts [.code s.page.code] = some e ∧ e.canSave = true ∧
      execAll (e.saveCalls ++ e.pcCalls) s.core = some (vs, h1) ∧ ∀ n h2, ¬ RunProgram u n h1 h2) :
    ∃ s1, s.steps [.save, .setPc, .press .program] = some s1 ∧
      ∀ es' s', (∀ e ∈ es', e.leaves) → s1.steps es' = some s' → s'.running = true := by
  obtain ⟨s1, s2, vs, st, e2, sh1, ex⟩ := played_press ph h p s0 s es hr on ui h0 he hs idle
  have st1 := steps_append hs st
  refine ⟨s2, steps_append (es := [.save, .setPc]) st (by simp [Ui.steps, e2]), ?_⟩
  intro es' s' hl hs'
  cases hrun : s'.running with
  | true => rfl
  | false =>
    obtain ⟨u, n, run⟩ := C77_run ph h p s0 s1 s2 s' _ es' hr on ui h0 st1 e2 hl hs' hrun
    obtain ⟨e, vs', h1, k1, k2, k3, k4⟩ := known u
    obtain ⟨c1, c2⟩ := tracks_calls (steps_tracks h0 he hs) k1 k2
    rw [← c1, ← c2, ex] at k3
    cases k3
    exact absurd run (k4 n _)

/-! ## From the documentation -/

/-- What a reader of the documentation does: the button beside the text is pressed, and on the page that opens, with
the machine `h`, the program is saved, PC is set and run-program is pressed, at once or after whatever `es` while the
text in the editor was left as it came; `s` is the page before the program is saved. -/
structure FromDocs (text : Str) (st : Store) (h : H) (es : List Event) (s : Ui) : Prop where
  machine : ∃ ph, Reach ph h ∧ ph.on = true ∧ ph.ui = true
  opened : ∃ s0, Ui.start h (load st (codeParam (locationSearch (openCode text)))) = some s0 ∧ s0.steps es = some s
  offered : ∀ e ∈ es, e.offered
  idle : s.running = false
  kept : s.page.code = (load st (codeParam (locationSearch (openCode text)))).code

/-- The run is over with `Q`, as soon as it is over; and it can always be brought to its end by waiting. -/
def Ends (s : Ui) (Q : P → Prop) : Prop :=
  ∃ s1, s.steps [.save, .setPc, .press .program] = some s1 ∧
    (∀ es' s', (∀ e ∈ es', e.leaves ∧ e.offered) → s1.steps es' = some s' → s'.running = false →
      ∃ q, Ready s'.core q ∧ Q q ∧ s'.shown = some s'.core) ∧
    ∀ es' s', (∀ e ∈ es', e.leaves) → s1.steps es' = some s' →
      ∃ es'' s'', (∀ e ∈ es'', e.waits) ∧ s'.steps es'' = some s'' ∧ s''.running = false

theorem FromDocs.code {text : Str} {st : Store} {h : H} {es : List Event} {s : Ui}
    (d : FromDocs text st h es s) : s.page.code = (load st (some text)).code := by
  rw [d.kept, C68_link]

theorem FromDocs.core {text : Str} {st : Store} {h : H} {es : List Event} {s : Ui}
    (d : FromDocs text st h es s) : ∃ ph, Reach ph s.core ∧ ph.on = true ∧ ph.ui = true := by
  obtain ⟨ph, hr, on, ui⟩ := d.machine
  obtain ⟨s0, h0, hs⟩ := d.opened
  exact (steps_sound (start_good h0) (start_sound h0 ⟨ph, hr, on, ui⟩) hs).2.core

theorem FromDocs.ends {text : Str} {st : Store} {h : H} {es : List Event} {s : Ui}
    (d : FromDocs text st h es s) (Q : P → Prop)
    (known : ∀ u, ∃ e vs h1 n h2 q, Editor.start.acts [.code (load st (some text)).code] = some e ∧
      e.canSave = true ∧ execAll (e.saveCalls ++ e.pcCalls) s.core = some (vs, h1) ∧ RunProgram u n h1 h2 ∧
      Ready h2 q ∧ Q q) : Ends s Q := by
  obtain ⟨ph, hr, on, ui⟩ := d.machine
  obtain ⟨s0, h0, hs⟩ := d.opened
  exact C79_played ph h _ s0 s es hr on ui h0 d.offered hs d.idle Q (by rw [d.code]; exact known)

/-- **C79.** The factorial program of the documentation, with any numeral of n ≥ 1: the run ends with AC = n! (modulo
256) on the page. -/
theorem C79_factorial (x : Str) (a : BitVec 8) (hx : HexValue x a.toNat) (hx' : ¬ SameName x acName) (ha : a ≠ 0)
    (st : Store) (h : H) (es : List Event) (s : Ui) (d : FromDocs (factorialText x) st h es s) (p : P)
    (hp : Shows s.core p) :
    Ends s fun q => q.ac.toNat = a.toNat.factorial % 256 ∧ q.d = p.d ∧ q.e = p.e ∧ q.sp = 0xEEEE ∧
      q.errs = p.errs ∧
      (∀ i : BitVec 16, 53 ≤ i.toNat → i.toNat + 3 * (a.toNat - 1) < 0xEEEC ∨ 0xEEEE ≤ i.toNat →
        q.mem i = p.mem i) := by
  obtain ⟨ph, hr, on, ui⟩ := d.core
  refine d.ends _ fun u => ?_
  obtain ⟨e, vs, h1, n, h2, q, k1, k2, k3, k4, k5, k6, k7, k8, _, k9, k10, k11⟩ :=
    C63_factorial x a hx hx' ha ph s.core p hr on ui hp st u
  exact ⟨e, vs, h1, n, h2, q, k1, k2, k3, k4, k5, k6, k7, k8, k9, k10, k11⟩

/-- **C79.** The multiplication of the documentation whose result starts at 0. -/
theorem C79_product (x y : Str) (a b : BitVec 8) (hx : HexValue x a.toNat) (hx' : ¬ SameName x acName)
    (hy : HexValue y b.toNat) (hy' : ¬ SameName y acName)
    (st : Store) (h : H) (es : List Event) (s : Ui) (d : FromDocs (product0Text x y) st h es s) (p : P)
    (hp : Shows s.core p) :
    Ends s fun q => q.ac = a * b ∧ q.b = a ∧ q.c = 0 ∧ q.d = p.d ∧ q.e = p.e ∧ q.errs = p.errs ∧
      (∀ i : BitVec 16, 29 ≤ i.toNat → i ≠ 0x1233 → q.mem i = p.mem i) := by
  obtain ⟨ph, hr, on, ui⟩ := d.core
  refine d.ends _ fun u => ?_
  obtain ⟨e, vs, h1, n, h2, q, k1, k2, k3, k4, k5, k6, k7, k8, k9, k10, _, _, _, _, k11, _, k12⟩ :=
    C66_product x y a b hx hx' hy hy' ph s.core p hr on ui hp st u
  exact ⟨e, vs, h1, n, h2, q, k1, k2, k3, k4, k5, k6, k7, k8, k9, k10, k11, k12⟩

/-- **C79.** The solutions of the exercises that do not jump away, POP aside (C65). -/
theorem C79_solution (x : Exercise) (hx : x ≠ .pop) (hj : x.jumps = false)
    (st : Store) (h : H) (es : List Event) (s : Ui) (d : FromDocs x.text st h es s) (p : P)
    (hp : Shows s.core p) (hs : x = .push → 11 ≤ p.sp.toNat) :
    Ends s fun q => x.Asks p q ∧ q.errs = p.errs ∧
      ∀ i : BitVec 16, 10 ≤ i.toNat → i ∉ x.cells p → q.mem i = p.mem i := by
  obtain ⟨ph, hr, on, ui⟩ := d.core
  refine d.ends _ fun u => ?_
  obtain ⟨e, vs, h1, h2, q, k1, k2, k3, _, _, _, _, _, k⟩ :=
    C65_solved_partial x hx ph s.core p hr on ui hp hs st u
  obtain ⟨n, h3, q', k4, k5, k6, k7, k8⟩ := k hj
  exact ⟨e, vs, h1, n, h3, q', k1, k2, k3, k4, k5, k6, k7, k8⟩

/-- **C79.** The run of the "malicious function" is never over by itself. -/
theorem C79_malicious (st : Store) (h : H) (es : List Event) (s : Ui) (d : FromDocs maliciousText st h es s) (p : P)
    (hp : Shows s.core p) :
    ∃ s1, s.steps [.save, .setPc, .press .program] = some s1 ∧
      ∀ es' s', (∀ e ∈ es', e.leaves) → s1.steps es' = some s' → s'.running = true := by
  obtain ⟨ph', hr', on', ui'⟩ := d.core
  obtain ⟨ph, hr, on, ui⟩ := d.machine
  obtain ⟨s0, h0, hs⟩ := d.opened
  refine C79_endless ph h _ s0 s es hr on ui h0 d.offered hs d.idle fun u => ?_
  obtain ⟨e, vs, h1, k1, k2, k3, k4, _⟩ := C64_endless ph' s.core p hr' on' ui' hp st u
  exact ⟨e, vs, h1, by rw [d.code]; exact k1, k2, k3, k4⟩

/-! ## The samples of the drawer -/

/-- What a user of the page does: with the text of a sample in the editor and nothing running, on a page with whatever
history `es`; `s` is the page before the program is saved. -/
structure Chosen (text : Str) (h : H) (es : List Event) (s : Ui) : Prop where
  machine : ∃ ph, Reach ph h ∧ ph.on = true ∧ ph.ui = true
  opened : ∃ p s0, Ui.start h p = some s0 ∧ s0.steps es = some s
  offered : ∀ e ∈ es, e.offered
  idle : s.running = false
  code : s.page.code = text

theorem Chosen.core {text : Str} {h : H} {es : List Event} {s : Ui} (d : Chosen text h es s) :
    ∃ ph, Reach ph s.core ∧ ph.on = true ∧ ph.ui = true := by
  obtain ⟨ph, hr, on, ui⟩ := d.machine
  obtain ⟨p, s0, h0, hs⟩ := d.opened
  exact (steps_sound (start_good h0) (start_sound h0 ⟨ph, hr, on, ui⟩) hs).2.core

theorem Chosen.ends {text : Str} {h : H} {es : List Event} {s : Ui} (d : Chosen text h es s) (Q : P → Prop)
    (known : ∀ u, ∃ e vs h1 n h2 q, Editor.start.acts [.code text] = some e ∧
      e.canSave = true ∧ execAll (e.saveCalls ++ e.pcCalls) s.core = some (vs, h1) ∧ RunProgram u n h1 h2 ∧
      Ready h2 q ∧ Q q) : Ends s Q := by
  obtain ⟨ph, hr, on, ui⟩ := d.machine
  obtain ⟨p, s0, h0, hs⟩ := d.opened
  exact C79_played ph h _ s0 s es hr on ui h0 d.offered hs d.idle Q (by rw [d.code]; exact known)

/-- **C79.** The four samples of the drawer, the numerals of MULTIPLICATION and CALL FUNCTION chosen at will. -/
theorem C79_samples (h : H) (es : List Event) (s : Ui) (p : P) (hp : Shows s.core p) :
    (∀ (x y : Str) (a b : BitVec 8), HexValue x a.toNat → ¬ SameName x acName → HexValue y b.toNat →
      ¬ SameName y acName → Chosen (productText x y) h es s →
      Ends s fun q => q.ac = a * b ∧ q.b = a ∧ q.errs = p.errs ∧
        ∀ i : BitVec 16, 27 ≤ i.toNat → i ≠ 0x1233 → q.mem i = p.mem i) ∧
    (Chosen countingText h es s → Ends s fun q => q.ac = 5 ∧ q.b = p.b ∧ q.c = p.c ∧ q.d = p.d ∧ q.e = p.e ∧
      q.errs = p.errs ∧ ∀ i : BitVec 16, 12 ≤ i.toNat → q.mem i = p.mem i) ∧
    (Chosen searchText h es s → Ends s fun q => q.ac = 5 ∧ q.mem (q.d ++ q.e) = 5 ∧ 0xFE ≤ (q.d ++ q.e).toNat ∧
      (∀ i : BitVec 16, 0xFE ≤ i.toNat → i.toNat < (q.d ++ q.e).toNat → q.mem i ≠ 5) ∧
      (∀ i : BitVec 16, 32 ≤ i.toNat → q.mem i = if i = 0x102 then 5 else p.mem i) ∧ q.errs = p.errs) ∧
    ∀ (x y : Str) (a b : BitVec 8), HexValue x a.toNat → ¬ SameName x acName → HexValue y b.toNat →
      ¬ SameName y acName → Chosen (callText x y) h es s →
      Ends s fun q => q.d = a + b ∧ q.ac = a + b ∧ q.b = a ∧ q.c = b ∧ q.sp = 0x0123 ∧ q.errs = p.errs ∧
        ∀ i : BitVec 16, 30 ≤ i.toNat → i ∉ [0x0121, 0x0122, 0xFFFA, 0xFFFB, 0xFFFC, 0xFFFD] →
          q.mem i = p.mem i := by
  have none : ∀ a ∈ ([] : List Action), ∃ t, a = Action.code t := fun _ h => by cases h
  refine ⟨?_, ?_, ?_, ?_⟩
  · intro x y a b hx hx' hy hy' d
    obtain ⟨ph, hr, on, ui⟩ := d.core
    refine d.ends _ fun u => ?_
    obtain ⟨e, vs, h1, n, h2, q, k1, k2, k3, k4, k5, k6, k7, _, _, _, _, _, _, _, k8, _, k9⟩ :=
      C42_product x y a b hx hx' hy hy' [] none ph s.core p hr on ui hp u
    exact ⟨e, vs, h1, n, h2, q, k1, k2, k3, k4, k5, k6, k7, k8, k9⟩
  · intro d
    obtain ⟨ph, hr, on, ui⟩ := d.core
    refine d.ends _ fun u => ?_
    obtain ⟨e, vs, h1, n, h2, m, k1, k2, k3, k4, k5, k6⟩ := C43_count [] none ph s.core p hr on ui hp u
    exact ⟨e, vs, h1, n, h2, _, k1, k2, k3, k4, k5, rfl, rfl, rfl, rfl, rfl, rfl, k6⟩
  · intro d
    obtain ⟨ph, hr, on, ui⟩ := d.core
    refine d.ends _ fun u => ?_
    obtain ⟨e, vs, h1, n, h2, q, k1, k2, k3, k4, k5, k6, k7, k8, k9, k10, _, _, _, _, _, _, k11⟩ :=
      C48_search [] none ph s.core p hr on ui hp u
    exact ⟨e, vs, h1, n, h2, q, k1, k2, k3, k4, k5, k6, k7, k8, k9, k10, k11⟩
  · intro x y a b hx hx' hy hy' d
    obtain ⟨ph, hr, on, ui⟩ := d.core
    refine d.ends _ fun u => ?_
    obtain ⟨e, vs, h1, n, h2, q, k1, k2, k3, k4, k5, k6, k7, k8, k9, _, _, _, _, k10, k11, k12⟩ :=
      C49_call x y a b hx hx' hy hy' [] none ph s.core p hr on ui hp u
    exact ⟨e, vs, h1, n, h2, q, k1, k2, k3, k4, k5, k6, k7, k8, k9, k10, k11, k12⟩

/-- The factorial of 5, from the button in the documentation to the end of the run: 120 is on the page. -/
example : ∃ h s0 s1 s' es', FromDocs (factorialText "5".toList) emptyStore h [] s0 ∧
    s0.steps [.save, .setPc, .press .program] = some s1 ∧ s1.steps es' = some s' ∧ s'.running = false ∧
    s'.shown = some s'.core ∧ exec (.getRegisterValue .acum) s'.core = some (120, s'.core) := by
  obtain ⟨h, ph, hr, on, ui, _, hq⟩ := ready_all ⟨0, 0, 0, 0, 0, 0, 0, false, false, fun _ => 0, []⟩ rfl
  obtain ⟨s0, h0, _⟩ := C59_defined ph h
    (load emptyStore (codeParam (locationSearch (openCode (factorialText "5".toList))))) hr on ui
  have d : FromDocs (factorialText "5".toList) emptyStore h [] s0 :=
    ⟨⟨ph, hr, on, ui⟩, ⟨s0, h0, rfl⟩, fun _ h => (by cases h), (start_inv h0).2.2.1,
      by rw [(start_inv h0).2.2.2.2.1]⟩
  obtain ⟨s1, e1, k1, k2⟩ := C79_factorial "5".toList 5 (by decide +kernel) (by decide +kernel) (by decide) emptyStore h
    [] s0 d _ ((start_inv h0).1 ▸ hq)
  obtain ⟨es', s', l1, l2, l3⟩ := k2 [] s1 (fun _ h => (by cases h)) rfl
  obtain ⟨q, m1, ⟨m2, _⟩, m3⟩ := k1 es' s' (fun e h => (l1 e h).leaves) l2 l3
  obtain ⟨_, _, _, _, _, sh⟩ := m1
  refine ⟨h, s0, s1, s', es', d, e1, l2, l3, m3, ?_⟩
  rw [sh.ac]
  have : q.ac = 120 := BitVec.eq_of_toNat_eq (by rw [m2]; decide)
  rw [this]
  rfl

end Mpp.Front
