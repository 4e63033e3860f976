import Verif.Front.Backend
import Verif.Diagram
import Verif.Props.Machine
/-!
# C62: the page never uses a core that is not ready
-/
namespace Mpp.Front

/-- The instance `k` is the one in use, has been initialised and has a callback. -/
def Backend.Serves (b : Backend) (k : Nat) : Prop :=
  b.core = some k ∧ ∃ p, Reach p (b.inst k) ∧ p.on = true ∧ p.ui = true

/-- What holds between tasks. -/
structure Backend.Sound (b : Backend) : Prop where
  core : ∀ k, b.core = some k → k < b.made ∧ b.module = some k ∧ b.Serves k
  fresh : ∀ k, b.made ≤ k → b.inst k = H.start

theorem Backend.Sound.start : Backend.start.Sound :=
  ⟨fun _ e => (by cases e), fun _ _ => rfl⟩

/-- Some instance, freshly made or initialised before, is initialised and connected. -/
theorem connectRest_ok (b : Backend) (k : Nat) (p : Phase) (rand : Nat → Nat) (hc : b.core = some k)
    (hm : b.module = some k) (r : Reach p (b.inst k)) (hi : p.inits < 27183337) :
    ∃ h', exec (.init rand) (b.inst k) = some (0, h') ∧
      b.connectRest rand = some { b with inst := upd b.inst k { h' with ui := true }, loaded := true } ∧
      Reach ⟨true, true, p.inits + 1, p.pending + 1⟩ (upd b.inst k { h' with ui := true } k) := by
  obtain ⟨h', e, _⟩ := C34_init r hi rand
  refine ⟨h', e, ?_, ?_⟩
  · have ui : ∀ h : H, exec (.setUpdateUi true) h = some (0, { h with ui := true }) := fun _ => rfl
    simp only [Backend.connectRest, hc, Backend.execute, e, Option.map_some, Option.bind_some,
      Backend.createCallback, hm, if_true, upd_same, ui]
    have : upd (upd b.inst k h') k { h' with ui := true } = upd b.inst k { h' with ui := true } := by
      funext i; unfold upd; split <;> rfl
    rw [this]
  · have r1 := r.step (c := .init rand) hi e
    rw [upd_same]
    exact r1.step (c := .setUpdateUi true) (v := 0) trivial rfl

theorem connectRests_ok (rands : List (Nat → Nat)) : ∀ (b : Backend) (k : Nat) (p : Phase),
    b.core = some k → b.module = some k → Reach p (b.inst k) → p.inits + rands.length ≤ 27183337 →
    ∃ b', b.connectRests rands = some b' ∧ b'.core = some k ∧ b'.module = some k ∧ b'.made = b.made ∧
      b'.waiting = b.waiting ∧ (∀ j, j ≠ k → b'.inst j = b.inst j) ∧
      (rands ≠ [] → b'.Serves k ∧ b'.loaded = true) ∧ (rands = [] → b' = b) := by
  induction rands with
  | nil =>
    intro b k p h1 h2 h3 h4
    exact ⟨b, rfl, h1, h2, rfl, rfl, fun _ _ => rfl, fun e => absurd rfl e, fun _ => rfl⟩
  | cons rand rands ih =>
    intro b k p h1 h2 h3 h4
    simp only [List.length_cons] at h4
    obtain ⟨h', e, e1, r1⟩ := connectRest_ok b k p rand h1 h2 h3 (by omega)
    obtain ⟨b', e2, c1, c2, c3, c4, c5, c6, c7⟩ := ih
      { b with inst := upd b.inst k { h' with ui := true }, loaded := true } k ⟨true, true, p.inits + 1, p.pending + 1⟩ h1 h2
      r1 (by show p.inits + 1 + _ ≤ _; omega)
    refine ⟨b', by simp only [Backend.connectRests, e1, Option.bind_some, e2], c1, c2, c3, c4, ?_, ?_,
      fun e => by cases e⟩
    · intro j hj
      rw [c5 j hj]
      exact upd_ne _ _ hj
    · intro _
      by_cases hr : rands = []
      · have := c7 hr
        subst this
        exact ⟨⟨h1, _, r1, rfl, rfl⟩, rfl⟩
      · exact c6 hr

/-- The loads that become ready together. -/
theorem loads (rands : List (Nat → Nat)) (b : Backend) (hr : rands ≠ []) :
    rands.foldl (fun (b : Backend) _ => b.loadRest) b =
      { b with module := some (b.made + rands.length - 1), core := some (b.made + rands.length - 1),
               made := b.made + rands.length } := by
  induction rands generalizing b with
  | nil => exact absurd rfl hr
  | cons r rs ih =>
    rw [List.foldl_cons]
    by_cases h : rs = []
    · subst h; rfl
    · rw [ih b.loadRest h]
      simp only [Backend.loadRest, List.length_cons]
      have e1 : b.made + 1 + rs.length - 1 = b.made + (rs.length + 1) - 1 := by omega
      have e2 : b.made + 1 + rs.length = b.made + (rs.length + 1) := by omega
      rw [e1, e2]

theorem ready_ok (b : Backend) (s : b.Sound) (rands : List (Nat → Nat)) (hl : rands.length ≤ 27183337)
    (hr : rands ≠ []) : ∃ b' k, b.step (.ready rands) = some (none, b') ∧ b'.core = some k ∧
      b'.module = some k ∧ b'.made = b.made + rands.length ∧ k = b.made + rands.length - 1 ∧
      b'.waiting = b.waiting - rands.length ∧ (∀ j, j ≠ k → b'.inst j = b.inst j) ∧ b'.Serves k ∧
      b'.loaded = true := by
  simp only [Backend.step]
  rw [loads rands _ hr]
  have h0 : b.inst (b.made + rands.length - 1) = H.start := by
    apply s.fresh
    have := List.length_pos_iff.mpr hr
    omega
  obtain ⟨b', e, c1, c2, c3, c4, c5, c6, _⟩ := connectRests_ok rands
    { b with module := some (b.made + rands.length - 1), core := some (b.made + rands.length - 1),
             made := b.made + rands.length, waiting := b.waiting - rands.length }
    (b.made + rands.length - 1) Phase.start rfl rfl
    (by show Reach _ (b.inst _); rw [h0]; exact ⟨[], [], rfl, rfl⟩)
    (by show 0 + rands.length ≤ _; omega)
  refine ⟨b', _, ?_, c1, c2, c3, rfl, c4, c5, (c6 hr).1, (c6 hr).2⟩
  have e' : Backend.connectRests
      { module := some (b.made + rands.length - 1), core := some (b.made + rands.length - 1),
        made := b.made + rands.length, inst := b.inst, waiting := b.waiting - rands.length,
        loaded := b.loaded } rands = some b' := e
  rw [e']; rfl

theorem page_allowed {c : Call} (hp : c.ofPage = true) (ha : c.Allowed ⟨true, true, 1, 1⟩) {p : Phase}
    (h1 : p.on = true) (h2 : p.ui = true) : c.Allowed p ∧ (c.after p) = p := by
  cases c with
  | init r => cases hp
  | shutdown => cases hp
  | setUpdateUi u => cases hp
  | runClockCycle u => exact ⟨⟨h1, fun _ => h2⟩, rfl⟩
  | setMemoryValue i v => exact ⟨⟨h1, h2, ha.2.2⟩, rfl⟩
  | setRegisterPc v => exact ⟨⟨h1, h2, ha.2.2⟩, rfl⟩
  | getMemorySize => exact ⟨trivial, rfl⟩
  | getMemoryValueSizeBits => exact ⟨trivial, rfl⟩
  | _ => exact ⟨h1, rfl⟩

/-- One task keeps the page in order. -/
theorem backend_step_sound (b : Backend) (s : b.Sound) (e : BackendEvent) (hc : e.Can b) :
    ∃ v b', b.step e = some (v, b') ∧ b'.Sound := by
  cases e with
  | connect =>
    cases h : b.core with
    | none =>
      refine ⟨none, { b with waiting := b.waiting + 1 }, by simp [Backend.step, h], ⟨fun k e => ?_, s.fresh⟩⟩
      exact s.core k e
    | some k =>
      refine ⟨none, { b with loaded := true }, by simp [Backend.step, h], ⟨fun k e => ?_, s.fresh⟩⟩
      exact s.core k e
  | ready rands =>
    obtain ⟨b', k, e, c1, c2, c3, c4, c5, c6, c7, c8⟩ := ready_ok b s rands hc.2.1 hc.2.2
    have := List.length_pos_iff.mpr hc.2.2
    refine ⟨none, b', e, ⟨fun j ej => ?_, fun j hj => ?_⟩⟩
    · rw [c1] at ej; cases ej
      exact ⟨by omega, c2, c7⟩
    · rw [c6 j (by omega)]
      exact s.fresh j (by omega)
  | fail => exact ⟨none, _, rfl, ⟨s.core, s.fresh⟩⟩
  | disconnect =>
    cases h : b.core with
    | none => exact ⟨none, b, by simp [Backend.step, h], s⟩
    | some k =>
      obtain ⟨lt, m, _, p, r, h1, h2⟩ := s.core k h
      obtain ⟨v, h', e, _⟩ := r.inv.call .shutdown h1
      refine ⟨none, { b with core := none, inst := upd b.inst k h' }, ?_, ⟨fun j e => (by cases e), ?_⟩⟩
      · simp [Backend.step, h, Backend.execute, e]
      · intro j hj
        show upd b.inst k h' j = _
        have hj : b.made ≤ j := hj
        rw [upd_ne _ _ (by omega)]
        exact s.fresh j hj
  | page c =>
    obtain ⟨_, hp, ha⟩ := hc
    cases h : b.core with
    | none => exact ⟨none, b, by simp [Backend.step, Backend.execute, h], s⟩
    | some k =>
      obtain ⟨lt, m, _, p, r, h1, h2⟩ := s.core k h
      obtain ⟨al, af⟩ := page_allowed hp ha h1 h2
      obtain ⟨v, h', e, _⟩ := r.inv.call c al
      have r' := r.step al e
      rw [af] at r'
      refine ⟨some v, { b with inst := upd b.inst k h' }, by simp [Backend.step, Backend.execute, h, e],
        ⟨fun j ej => ?_, fun j hj => ?_⟩⟩
      · have ej : b.core = some j := ej
        rw [h] at ej; cases ej
        exact ⟨lt, m, h, p, by show Reach p (upd b.inst k h' k); rw [upd_same]; exact r', h1, h2⟩
      · show upd b.inst k h' j = _
        have hj : b.made ≤ j := hj
        rw [upd_ne _ _ (by omega)]
        exact s.fresh j hj

theorem backend_steps_sound (es : List BackendEvent) : ∀ b : Backend, b.Sound → b.Can es →
    ∃ vs b', b.steps es = some (vs, b') ∧ b'.Sound := by
  induction es with
  | nil => intro b s _; exact ⟨[], b, rfl, s⟩
  | cons e es ih =>
    intro b s c
    obtain ⟨v, b1, e1, s1⟩ := backend_step_sound b s e c.1
    obtain ⟨vs, b', e2, s2⟩ := ih b1 s1 (c.2 _ e1)
    exact ⟨v :: vs, b', by simp only [Backend.steps, e1, Option.bind_some, e2, Option.map_some], s2⟩

/-! ## The claims -/

/-- **C62.** However calls of `connectBackend` overlap, however many modules become ready in one task or
fail, and whatever the page calls while it is shown: nothing is undefined, and whenever there is a core it
has been initialised and has a callback. -/
theorem C62_serves (es : List BackendEvent) (c : Backend.start.Can es) :
    ∃ vs b, Backend.start.steps es = some (vs, b) ∧
      ∀ k, b.core = some k → ∃ p, Reach p (b.inst k) ∧ p.on = true ∧ p.ui = true := by
  obtain ⟨vs, b, e, s⟩ := backend_steps_sound es _ Backend.Sound.start c
  exact ⟨vs, b, e, fun k h => (s.core k h).2.2.2⟩

/-- Without `disconnectBackend`, a page that is shown has a core. -/
theorem shown_step (b b' : Backend) (e : BackendEvent) (v : Option CInt) (he : b.step e = some (v, b'))
    (s : b.Sound) (c : e.Can b) (hd : e ≠ .disconnect) (hb : b.loaded = true → b.core.isSome = true) :
    (b'.loaded = true → b'.core.isSome = true) ∧ (b.core.isSome = true → b'.core.isSome = true) := by
  cases e with
  | disconnect => exact absurd rfl hd
  | connect =>
    simp only [Backend.step] at he
    split at he <;> cases he
    · rename_i h; exact ⟨fun _ => h, fun _ => h⟩
    · exact ⟨hb, fun h => h⟩
  | ready rands =>
    obtain ⟨b2, k, e2, c1, _⟩ := ready_ok b s rands c.2.1 c.2.2
    rw [he] at e2; cases e2
    rw [c1]; exact ⟨fun _ => rfl, fun _ => rfl⟩
  | fail => cases he; exact ⟨fun h => (by cases h), fun h => h⟩
  | page call =>
    simp only [Backend.step, Backend.execute] at he
    split at he
    · cases he; exact ⟨hb, fun h => h⟩
    · rename_i k h
      cases hx : exec call (b.inst k) with
      | none => rw [hx] at he; cases he
      | some r => rw [hx] at he; cases he; exact ⟨fun _ => by simp [h], fun _ => by simp [h]⟩

theorem page_values (es : List BackendEvent) : ∀ (b b' : Backend) (vs : List (Option CInt)), b.Sound →
    b.Can es → (∀ e ∈ es, e ≠ .disconnect) → (b.loaded = true → b.core.isSome = true) →
    b.steps es = some (vs, b') → ∀ x ∈ es.zip vs, (∃ c, x.1 = .page c) → x.2.isSome = true := by
  induction es with
  | nil => intro b b' vs _ _ _ _ _ x hx; simp at hx
  | cons e es ih =>
    intro b b' vs s c hd hb he x hx hp
    obtain ⟨v, b1, e1, s1⟩ := backend_step_sound b s e c.1
    simp only [Backend.steps, e1, Option.bind_some] at he
    cases e2 : b1.steps es with
    | none => rw [e2] at he; cases he
    | some q =>
      rw [e2] at he; cases he
      have sh := shown_step b b1 e v e1 s c.1 (hd e List.mem_cons_self) hb
      rw [List.zip_cons_cons, List.mem_cons] at hx
      rcases hx with rfl | hx
      · obtain ⟨c', rfl⟩ := hp
        have := hb c.1.1
        simp only [Backend.step, Backend.execute] at e1
        split at e1
        · rename_i h; rw [h] at this; cases this
        · rename_i k h
          cases hy : exec c' (b.inst k) with
          | none => rw [hy] at e1; cases e1
          | some r => rw [hy] at e1; cases e1; rfl
      · exact ih b1 q.2 q.1 s1 (c.2 _ e1) (fun e he => hd e (List.mem_cons_of_mem _ he)) sh.1 e2 x hx hp

/-- **C62.** As long as nothing calls `disconnectBackend` (and nothing on the page does), no call that the
page makes fails with "MppCore not loaded": each one gets the value of the core. -/
theorem C62_answers (es : List BackendEvent) (c : Backend.start.Can es)
    (hd : ∀ e ∈ es, e ≠ .disconnect) (vs : List (Option CInt)) (b : Backend)
    (run : Backend.start.steps es = some (vs, b)) (i : Nat) (call : Call) (he : es[i]? = some (.page call)) :
    ∃ x, vs[i]? = some (some x) := by
  have len : ∀ (es : List BackendEvent) (b b' : Backend) (vs : List (Option CInt)),
      b.steps es = some (vs, b') → vs.length = es.length := by
    intro es
    induction es with
    | nil => intro b b' vs e; cases e; rfl
    | cons e es ih =>
      intro b b' vs h
      simp only [Backend.steps] at h
      cases h1 : b.step e with
      | none => rw [h1] at h; cases h
      | some r =>
        rw [h1] at h
        simp only [Option.bind_some] at h
        cases h2 : r.2.steps es with
        | none => rw [h2] at h; cases h
        | some q => rw [h2] at h; cases h; simp [ih _ _ _ h2]
  have hl := len es _ _ _ run
  have hi : i < es.length := (List.getElem?_eq_some_iff.mp he).1
  have hv : vs[i]? = some vs[i] := List.getElem?_eq_getElem (by omega)
  have mem : (BackendEvent.page call, vs[i]'(by omega)) ∈ es.zip vs := by
    apply List.mem_iff_getElem?.mpr
    refine ⟨i, ?_⟩
    rw [List.getElem?_zip_eq_some]
    exact ⟨he, hv⟩
  have := page_values es _ _ _ Backend.Sound.start c hd (fun e => by cases e) run _ mem ⟨call, rfl⟩
  obtain ⟨x, hx⟩ := Option.isSome_iff_exists.mp this
  exact ⟨x, hv.trans (congrArg some hx)⟩

theorem fresh_ok (b : Backend) (s : b.Sound) (rands : List (Nat → Nat)) (rand : Nat → Nat)
    (can : (BackendEvent.ready (rands ++ [rand])).Can b) :
    ∃ b' k, b.step (.ready (rands ++ [rand])) = some (none, b') ∧ b'.core = some k ∧ b'.loaded = true ∧
      (∀ t, RegIs (b'.inst k) t 0) ∧ NextState (b'.inst k) 0 ∧
      ∀ i : BitVec 16, ∃ v : CInt,
        exec (.getMemoryValue (i.setWidth 32)) (b'.inst k) = some (v, b'.inst k) ∧
        v.toInt = rand i.toNat % 255 := by
  have hl : rands.length < 27183337 := by
    have := can.2.1
    simp only [List.length_append, List.length_cons, List.length_nil] at this
    omega
  have app : ∀ (rs : List (Nat → Nat)) (b : Backend), b.connectRests (rs ++ [rand]) =
      (b.connectRests rs).bind fun b => b.connectRest rand := by
    intro rs
    induction rs with
    | nil =>
      intro b
      simp only [List.nil_append, Backend.connectRests, Option.bind_some]
      cases b.connectRest rand <;> rfl
    | cons r rs ih =>
      intro b
      simp only [List.cons_append, Backend.connectRests]
      cases b.connectRest r with
      | none => rfl
      | some b => exact ih b
  have hr : rands ++ [rand] ≠ [] := by simp
  have hlen : (rands ++ [rand]).length = rands.length + 1 := by simp
  let b0 : Backend :=
    { b with
      module := some (b.made + (rands ++ [rand]).length - 1)
      core := some (b.made + (rands ++ [rand]).length - 1)
      made := b.made + (rands ++ [rand]).length
      waiting := b.waiting - (rands ++ [rand]).length }
  let k := b.made + (rands ++ [rand]).length - 1
  have h0 : b.inst k = H.start := s.fresh _ (by show b.made ≤ b.made + _ - 1; omega)
  have r0 : Reach Phase.start (b0.inst k) := by
    show Reach _ (b.inst k); rw [h0]; exact ⟨[], [], rfl, rfl⟩
  obtain ⟨b1, e1, c1, c2, _, _, _, c6, c7⟩ := connectRests_ok rands b0 k Phase.start rfl rfl r0
    (by show 0 + rands.length ≤ _; omega)
  have st : b.step (.ready (rands ++ [rand])) = (b1.connectRest rand).map fun b => (none, b) := by
    simp only [Backend.step]
    rw [loads _ _ hr]
    show (Backend.connectRests b0 (rands ++ [rand])).map _ = _
    rw [app, e1]; rfl
  have main : ∀ p, Reach p (b1.inst k) → p.inits < 27183337 → ∃ b' k, b.step (.ready (rands ++ [rand])) =
      some (none, b') ∧ b'.core = some k ∧ b'.loaded = true ∧
      (∀ t, RegIs (b'.inst k) t 0) ∧ NextState (b'.inst k) 0 ∧
      ∀ i : BitVec 16, ∃ v : CInt,
        exec (.getMemoryValue (i.setWidth 32)) (b'.inst k) = some (v, b'.inst k) ∧
        v.toInt = rand i.toNat % 255 := by
    intro p r hi
    obtain ⟨h', x1, x2, x3⟩ := connectRest_ok b1 k p rand c1 c2 r hi
    obtain ⟨h2, y1, y2, y3, y4⟩ := C34_init r hi rand
    rw [x1] at y1; cases y1
    obtain ⟨h3, z1, o, _⟩ := r.inv.any.init rand (by rw [r.inv.count]; omega)
    rw [x1] at z1; cases z1
    have o' := o.setUi true
    refine ⟨{ b1 with inst := upd b1.inst k { h' with ui := true }, loaded := true }, k, by rw [st, x2]; rfl,
      c1, rfl, ?_, ?_, ?_⟩
    · intro t
      show RegIs (upd b1.inst k { h' with ui := true } k) t 0
      rw [upd_same]
      have := o'.getReg t
      cases t <;> exact this
    · show NextState (upd b1.inst k { h' with ui := true } k) 0
      rw [upd_same]
      exact o'.getNextState
    · intro i
      obtain ⟨v, w1, _, _, w4⟩ := y2 i
      rw [o.getMemory i] at w1
      refine ⟨v, ?_, w4⟩
      show exec _ (upd b1.inst k { h' with ui := true } k) = some (v, upd b1.inst k { h' with ui := true } k)
      rw [upd_same, o'.getMemory i]
      cases w1; rfl
  by_cases hn : rands = []
  · have := c7 hn
    subst this
    exact main _ r0 (by decide)
  · obtain ⟨cnt⟩ : Nonempty (∃ p, Reach p (b1.inst k) ∧ p.inits < 27183337) := by
      have key : ∀ (rs : List (Nat → Nat)) (b b' : Backend) (p : Phase), b.core = some k →
          b.module = some k → Reach p (b.inst k) → p.inits + rs.length < 27183337 →
          b.connectRests rs = some b' → ∃ p', Reach p' (b'.inst k) ∧ p'.inits < 27183337 := by
        intro rs
        induction rs with
        | nil => intro b b' p _ _ r hp e; cases e; exact ⟨p, r, hp⟩
        | cons x rs ih =>
          intro b b' p h1 h2 r hp e
          simp only [List.length_cons] at hp
          obtain ⟨h', _, e1, r1⟩ := connectRest_ok b k p x h1 h2 r (by omega)
          simp only [Backend.connectRests, e1, Option.bind_some] at e
          exact ih { b with inst := upd b.inst k { h' with ui := true }, loaded := true } b'
            ⟨true, true, p.inits + 1, p.pending + 1⟩ h1 h2 r1
            (by show p.inits + 1 + _ < _; omega) e
      exact ⟨key rands b0 b1 Phase.start rfl rfl r0 (by show 0 + _ < _; omega) e1⟩
    obtain ⟨p, r, hp⟩ := cnt
    exact main p r hp

/-- **C62.** A core that has just become ready is fresh, also when several became ready together and the
same one was initialised several times: all registers are 0, the memory is what the last `init` made, and
the next state is 0. -/
theorem C62_fresh (es : List BackendEvent) (c : Backend.start.Can es) (vs : List (Option CInt))
    (b : Backend) (run : Backend.start.steps es = some (vs, b)) (rands : List (Nat → Nat))
    (rand : Nat → Nat) (can : (BackendEvent.ready (rands ++ [rand])).Can b) :
    ∃ b' k, b.step (.ready (rands ++ [rand])) = some (none, b') ∧ b'.core = some k ∧ b'.loaded = true ∧
      (∀ t, RegIs (b'.inst k) t 0) ∧ NextState (b'.inst k) 0 ∧
      ∀ i : BitVec 16, ∃ v : CInt,
        exec (.getMemoryValue (i.setWidth 32)) (b'.inst k) = some (v, b'.inst k) ∧
        v.toInt = rand i.toNat % 255 := by
  obtain ⟨vs', b0, e0, s⟩ := backend_steps_sound es _ Backend.Sound.start c
  rw [run] at e0; cases e0
  exact fresh_ok b s rands rand can

/-- With no call waiting and none made, the core stays. -/
theorem core_stays (es : List BackendEvent) : ∀ (b b' : Backend) (vs : List (Option CInt)) (k : Nat), b.Sound →
    b.Can es → (∀ e ∈ es, e ≠ .disconnect) → (∀ e ∈ es, e ≠ .connect) → b.waiting = 0 →
    b.steps es = some (vs, b') → b.core = some k → b'.core = some k := by
  induction es with
  | nil => intro b b' vs k _ _ _ _ _ run hk; cases run; exact hk
  | cons e es ih =>
    intro b b' vs k s cn hd none' w run hk
    obtain ⟨v, b1, e1, s1⟩ := backend_step_sound b s e cn.1
    simp only [Backend.steps, e1, Option.bind_some] at run
    cases e2 : b1.steps es with
    | none => rw [e2] at run; cases run
    | some q =>
      rw [e2] at run
      have hq : q.2 = b' := by cases run; rfl
      subst hq
      have : b1.core = some k ∧ b1.waiting = 0 := by
        cases e with
        | connect => exact absurd rfl (none' _ List.mem_cons_self)
        | disconnect => exact absurd rfl (hd _ List.mem_cons_self)
        | ready rands =>
          have h1 := cn.1.1
          have h2 := List.length_pos_iff.mpr cn.1.2.2
          omega
        | fail =>
          have h1 : 0 < b.waiting := cn.1
          omega
        | page c =>
          simp only [Backend.step, Backend.execute, hk] at e1
          cases hx : exec c (b.inst k) with
          | none => rw [hx] at e1; cases e1
          | some r => rw [hx] at e1; cases e1; exact ⟨rfl, w⟩
      exact ih b1 q.2 q.1 k s1 (cn.2 _ e1) (fun e he => hd e (List.mem_cons_of_mem _ he))
        (fun e he => none' e (List.mem_cons_of_mem _ he)) this.2 e2 this.1

/-- **C62.** If `connectBackend` is called only once (as in the built page), the core is never replaced:
from the moment it is there the page uses the same instance for good. -/
theorem C62_kept_partial (es es' : List BackendEvent) (c : Backend.start.Can (es ++ es'))
    (once : (es ++ es').countP (fun e => match e with | .connect => true | _ => false) ≤ 1)
    (hd : ∀ e ∈ es', e ≠ .disconnect) (vs vs' : List (Option CInt)) (b b' : Backend) (k : Nat)
    (run : Backend.start.steps es = some (vs, b)) (run' : b.steps es' = some (vs', b'))
    (hk : b.core = some k) : b'.core = some k := by
  let isC : BackendEvent → Bool := fun e => match e with | .connect => true | _ => false
  -- the number of waiting calls and of cores made is at most the number of calls
  have count : ∀ (es : List BackendEvent) (b b' : Backend) (vs : List (Option CInt)), b.Sound → b.Can es →
      b.steps es = some (vs, b') → b'.waiting + b'.made ≤ b.waiting + b.made + es.countP isC ∧ b'.Sound := by
    intro es
    induction es with
    | nil => intro b b' vs s _ e; cases e; exact ⟨by simp, s⟩
    | cons e es ih =>
      intro b b' vs s cn h
      obtain ⟨v, b1, e1, s1⟩ := backend_step_sound b s e cn.1
      simp only [Backend.steps, e1, Option.bind_some] at h
      cases e2 : b1.steps es with
      | none => rw [e2] at h; cases h
      | some q =>
        rw [e2] at h; cases h
        obtain ⟨l, s2⟩ := ih b1 q.2 q.1 s1 (cn.2 _ e1) e2
        refine ⟨?_, s2⟩
        rw [List.countP_cons]
        have : b1.waiting + b1.made ≤ b.waiting + b.made + (if isC e = true then 1 else 0) := by
          cases e with
          | connect =>
            simp only [Backend.step] at e1
            split at e1 <;> cases e1
            · show b.waiting + b.made ≤ b.waiting + b.made + 1; omega
            · show b.waiting + 1 + b.made ≤ b.waiting + b.made + 1; omega
          | ready rands =>
            obtain ⟨b2, k, x, _, _, x3, _, x5, _⟩ := ready_ok b s rands cn.1.2.1 cn.1.2.2
            rw [e1] at x; cases x
            rw [x3, x5]
            have := cn.1.1
            omega
          | fail =>
            cases e1
            show b.waiting - 1 + b.made ≤ b.waiting + b.made + 0
            omega
          | disconnect =>
            simp only [Backend.step, Backend.execute] at e1
            split at e1
            · cases hc : b.core with
              | none => rw [hc] at e1; cases e1; exact Nat.le_refl _
              | some k =>
                rw [hc] at e1
                cases hx : exec .shutdown (b.inst k) with
                | none => simp [hx] at e1
                | some r => simp only [hx, Option.map_some] at e1; cases e1; exact Nat.le_refl _
            · cases e1; exact Nat.le_refl _
          | page c =>
            simp only [Backend.step, Backend.execute] at e1
            split at e1
            · cases e1; exact Nat.le_refl _
            · rename_i k _
              cases hx : exec c (b.inst k) with
              | none => rw [hx] at e1; cases e1
              | some r => rw [hx] at e1; cases e1; exact Nat.le_refl _
        omega
  have split : ∀ (es : List BackendEvent) (b b' : Backend) (vs : List (Option CInt)),
      b.Can (es ++ es') → b.steps es = some (vs, b') → b.Can es ∧ b'.Can es' := by
    intro es
    induction es with
    | nil => intro b b' vs cn e; cases e; exact ⟨trivial, cn⟩
    | cons e es ih =>
      intro b b' vs cn h
      simp only [Backend.steps] at h
      cases e1 : b.step e with
      | none => rw [e1] at h; cases h
      | some r =>
        rw [e1] at h
        simp only [Option.bind_some] at h
        cases e2 : r.2.steps es with
        | none => rw [e2] at h; cases h
        | some q =>
          rw [e2] at h; cases h
          have x := ih r.2 q.2 q.1 (cn.2 r e1) e2
          refine ⟨⟨cn.1, fun r' hr' => ?_⟩, x.2⟩
          rw [e1] at hr'; cases hr'; exact x.1
  obtain ⟨cn, cn'⟩ := split es _ _ _ c run
  obtain ⟨l, s⟩ := count es _ _ _ Backend.Sound.start cn run
  have l : b.waiting + b.made ≤ es.countP isC := by
    have : Backend.start.waiting + Backend.start.made = 0 := rfl
    omega
  have once : es.countP isC + es'.countP isC ≤ 1 := by rw [← List.countP_append]; exact once
  have hm := (s.core k hk).1
  have w : b.waiting = 0 := by omega
  have none' : ∀ e ∈ es', e ≠ .connect := by
    intro e he hc
    have : 0 < es'.countP isC := List.countP_pos_iff.mpr ⟨e, he, by rw [hc]⟩
    omega
  exact core_stays es' b b' vs' k s cn' hd none' w run' hk

/-- Two calls of `connectBackend` whose modules become ready one after the other, with a byte stored and
read in between and read again at the end. -/
def overlap (r1 r2 : Nat → Nat) : List BackendEvent :=
  [.connect, .connect, .ready [r1], .page (.setMemoryValue 0 5), .page (.getMemoryValue 0), .ready [r2],
   .page (.getMemoryValue 0)]

/-- **C62** is false for overlapping calls, as made by the double effects of `React.StrictMode` in
development (`index.tsx:27-35`): the second core replaces the one that the page has been using, and what
was stored is lost. -/
theorem C62_kept_wrong (r1 r2 : Nat → Nat) : Backend.start.Can (overlap r1 r2) ∧
    ∃ b x, Backend.start.steps (overlap r1 r2) =
      some ([none, none, none, some 0, some 5, none, some x], b) ∧ x.toInt = r2 0 % 255 := by
  let b1 : Backend := { Backend.start with waiting := 1 }
  let b2 : Backend := { Backend.start with waiting := 2 }
  have s1 : Backend.start.step .connect = some (none, b1) := rfl
  have s2 : b1.step .connect = some (none, b2) := rfl
  have so1 : b1.Sound := ⟨fun _ e => (by cases e), fun _ _ => rfl⟩
  have so2 : b2.Sound := ⟨fun _ e => (by cases e), fun _ _ => rfl⟩
  have can3 : (BackendEvent.ready [r1]).Can b2 := ⟨(by decide : 1 ≤ 2), (by show 1 ≤ 27183337; decide), by simp⟩
  obtain ⟨b3, k3, s3, c3, m3, d3, e3, w3, i3, ⟨_, p3, q3, on3, ui3⟩, l3⟩ := ready_ok b2 so2 [r1] can3.2.1 can3.2.2
  have so3 : b3.Sound := by
    obtain ⟨v, b', x, s⟩ := backend_step_sound b2 so2 _ can3
    rw [s3] at x; cases x; exact s
  -- the byte is stored and read
  obtain ⟨h4, x4, y4, _⟩ := C29_set q3 on3 ui3 0 5
  have x4 : exec (.setMemoryValue 0 5) (b3.inst k3) = some (0, h4) := x4
  let b4 : Backend := { b3 with inst := upd b3.inst k3 h4 }
  have s4 : b3.step (.page (.setMemoryValue 0 5)) = some (some 0, b4) := by
    simp only [Backend.step, Backend.execute, c3, x4, Option.map_some]
    exact congrArg (fun x => some (some (0 : CInt), { b4 with core := x })) c3.symm
  have can4 : (BackendEvent.page (.setMemoryValue 0 5)).Can b3 :=
    ⟨l3, rfl, by simp only [Call.Allowed]; decide⟩
  have so4 : b4.Sound := by
    obtain ⟨v, b', x, s⟩ := backend_step_sound b3 so3 _ can4
    rw [s4] at x; cases x; exact s
  have x5 : exec (.getMemoryValue 0) (b4.inst k3) = some (5, b4.inst k3) := by
    show exec (.getMemoryValue 0) (upd b3.inst k3 h4 k3) = some (5, upd b3.inst k3 h4 k3)
    rw [upd_same]; exact y4
  have s5 : b4.step (.page (.getMemoryValue 0)) = some (some 5, b4) := by
    have c4 : b4.core = some k3 := c3
    simp only [Backend.step, Backend.execute, c4, x5, Option.map_some]
    have : upd b4.inst k3 (b4.inst k3) = b4.inst := by
      funext i; unfold upd; split
      · rename_i e; rw [e]
      · rfl
    rw [this]
    exact congrArg (fun x => some (some (5 : CInt), { b4 with core := x })) c4.symm
  have can5 : (BackendEvent.page (.getMemoryValue 0)).Can b4 := ⟨l3, rfl, rfl⟩
  -- the second core
  have can6 : (BackendEvent.ready ([] ++ [r2])).Can b4 :=
    ⟨(by show 1 ≤ b3.waiting; rw [w3]; exact Nat.le_refl _), (by show 1 ≤ 27183337; decide), by simp⟩
  obtain ⟨b6, k6, s6, c6, l6, _, _, g6⟩ := fresh_ok b4 so4 [] r2 can6
  have s6 : b4.step (.ready [r2]) = some (none, b6) := s6
  obtain ⟨x, x7, v7⟩ := g6 0
  have x7 : exec (.getMemoryValue 0) (b6.inst k6) = some (x, b6.inst k6) := x7
  have can7 : (BackendEvent.page (.getMemoryValue 0)).Can b6 := ⟨l6, rfl, rfl⟩
  have s7 : b6.step (.page (.getMemoryValue 0)) =
      some (some x, { b6 with inst := upd b6.inst k6 (b6.inst k6) }) := by
    simp only [Backend.step, Backend.execute, c6, x7, Option.map_some]
  refine ⟨?_, { b6 with inst := upd b6.inst k6 (b6.inst k6) }, x, ?_, v7⟩
  · refine ⟨trivial, fun r e => ?_⟩; rw [s1] at e; cases e
    refine ⟨trivial, fun r e => ?_⟩; rw [s2] at e; cases e
    refine ⟨can3, fun r e => ?_⟩; rw [s3] at e; cases e
    refine ⟨can4, fun r e => ?_⟩; rw [s4] at e; cases e
    refine ⟨can5, fun r e => ?_⟩; rw [s5] at e; cases e
    refine ⟨can6, fun r e => ?_⟩; rw [s6] at e; cases e
    exact ⟨can7, fun _ _ => trivial⟩
  · simp only [overlap, Backend.steps, s1, s2, s3, s4, s5, s6, s7, Option.bind_some, Option.map_some]

/-- With random numbers that differ from 5 the byte is lost. -/
example : ∃ r2 : Nat → Nat, ((r2 0 % 255 : Nat) : Int) ≠ 5 := ⟨fun _ => 7, by decide⟩

/-- The events of the built page: one call, one core, and the page uses it. `C62_serves`, `C62_answers` and
`C62_kept_partial` apply. -/
example (rand : Nat → Nat) : Backend.start.Can
    [.connect, .ready [rand], .page .getMemorySize, .page (.runClockCycle true), .page (.getRegisterValue .pc)] := by
  let b1 : Backend := { Backend.start with waiting := 1 }
  have s1 : Backend.start.step .connect = some (none, b1) := rfl
  have so1 : b1.Sound := ⟨fun _ e => (by cases e), fun _ _ => rfl⟩
  have can2 : (BackendEvent.ready [rand]).Can b1 := ⟨Nat.le_refl _, (by show 1 ≤ 27183337; decide), by simp⟩
  obtain ⟨b2, k, s2, c2, _, _, _, _, _, _, l2⟩ := ready_ok b1 so1 [rand] can2.2.1 can2.2.2
  refine ⟨trivial, fun r e => ?_⟩
  rw [s1] at e; cases e
  refine ⟨can2, fun r e => ?_⟩
  rw [s2] at e; cases e
  have keep : ∀ (b : Backend) (c : Call) (r : Option CInt × Backend), b.loaded = true →
      b.step (.page c) = some r → r.2.loaded = true := by
    intro b c r hl e
    simp only [Backend.step, Backend.execute] at e
    split at e
    · cases e; exact hl
    · rename_i k _
      cases hx : exec c (b.inst k) with
      | none => rw [hx] at e; cases e
      | some q => rw [hx] at e; cases e; exact hl
  refine ⟨⟨l2, rfl, trivial⟩, fun r e => ?_⟩
  have l3 := keep _ _ r l2 e
  refine ⟨⟨l3, rfl, rfl, fun _ => rfl⟩, fun r e => ?_⟩
  have l4 := keep _ _ r l3 e
  exact ⟨⟨l4, rfl, rfl⟩, fun _ _ => trivial⟩

/-- **C62.** Every function of `MppCore` is wrapped, every wrapped function and every function of `MppCore`
is an exported C function, with as many arguments except for the wrapper of `linker_set_update_ui`, which
is declared without its argument; and no exported C function is left out. -/
theorem C62_table :
    (∀ f ∈ coreMethods, f.1 ∈ exportedMethods.map Prod.fst ∧ f ∈ exportedC) ∧
    (∀ f ∈ exportedMethods, f.1 ∈ coreMethods.map Prod.fst ∧
      (f ∈ exportedC ∨ f = ("linker_set_update_ui", 0))) ∧
    (∀ f ∈ exportedC, f ∈ coreMethods) := by
  decide +kernel

/-- **C62.** The model has each of them: for every exported C function and all arguments there is a call of
the model. -/
theorem C62_modelled : ∀ f ∈ exportedC, ∀ args : List CInt, args.length = f.2 →
    (callOf f.1 args).isSome = true ∨ (callNamed f.1).isSome = true := by
  have h0 : ∀ f ∈ exportedC, f.2 = 0 → (callOf f.1 []).isSome = true ∨ (callNamed f.1).isSome = true := by
    decide +kernel
  have hn : ∀ f ∈ exportedC, f.2 = 0 ∨ f = ("linker_set_update_ui", 1) ∨ f = ("get_memory_value", 1) ∨
      f = ("set_register_pc", 1) ∨ f = ("run_clock_cycle", 1) ∨ f = ("set_memory_value", 2) := by
    decide +kernel
  intro f hf args hl
  rcases hn f hf with h | rfl | rfl | rfl | rfl | rfl
  · rw [h] at hl
    rw [List.length_eq_zero_iff.mp hl]
    exact h0 f hf h
  iterate 4
    · left
      match args, hl with
      | [_], _ => rfl
  · left
    match args, hl with
    | [_, _], _ => rfl

end Mpp.Front
