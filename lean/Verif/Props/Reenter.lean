import Verif.Reenter
import Verif.Props.Picture

/-! # C95: a callback that calls back does nothing that a list of calls does not -/

namespace Mpp

/-! ## The callback comes last -/

theorem callUi_last {β : Type} (x : Option (β × H)) :
    (x.bind fun r => r.2.callUi.map fun h => ((0 : CInt), h)) =
      (x.map fun r => ((0 : CInt), r.2)).bind fun r =>
        if true = true then if r.2.ui then some r else none else some r := by
  cases x with
  | none => rfl
  | some r => cases e : r.2.ui <;> simp [H.callUi, e]

theorem work_exec (c : Call) (h : H) :
    exec c h = (c.work h).bind fun r =>
      if c.notifies then if r.2.ui then some r else none else some r := by
  cases c with
  | runClockCycle u =>
    cases u <;> simp only [exec, Call.work, Call.notifies, H.callUi] <;>
      cases clockLoop 2 h with
      | none => rfl
      | some x => cases e : x.ui <;> simp [e]
  | setMemoryValue a v =>
    simp only [exec, Call.work, Call.notifies]
    cases getValueByOffset a with
    | none => rfl
    | some i => exact callUi_last (h.handle (.memSet i v))
  | setRegisterPc v =>
    simp only [exec, Call.work, Call.notifies]
    cases h.getRegister .pc with
    | none => rfl
    | some r => exact callUi_last (H.run (do setReg r v; publish .pcOut (← Mpp.getReg r)) h)
  | _ => simp [Call.work, Call.notifies]

/-- What is claimed of the record of a run from `h`: the calls in it, made one after the other from
outside, return the same values; a run that came back left the state they leave, and one that broke
did so in a call that is undefined after them. -/
def Flat (h : H) (r : Record) : Prop :=
  ∃ h', execAll (r.1.map Prod.fst) h = some (r.1.map Prod.snd, h') ∧
    match r.2 with
    | .back _ _ h2 => h2 = h'
    | .broke c => exec c h' = none
    | .deep => True

theorem runScript_flat {ex : Call → Nat → H → Record} (he : ∀ c k h, Flat h (ex c k h)) (s : Script)
    (k : Nat) (h : H) : Flat h (runScript ex s k h) := by
  induction s generalizing k h with
  | done => exact ⟨h, rfl, rfl⟩
  | call c next ih =>
    have f := he c k h
    unfold runScript
    generalize ex c k h = r at f
    obtain ⟨tr, o⟩ := r
    cases o with
    | back v k2 h2 =>
      obtain ⟨h', e, rfl⟩ := f
      obtain ⟨h3, e3, m⟩ := ih v k2 h2
      refine ⟨h3, ?_, m⟩
      simp only [List.map_append, execAll_append]
      rw [e, Option.bind_some, e3, Option.map_some]
    | broke c2 => exact f
    | deep => exact f

theorem execRe_succ (cb : Nat → Script) (fuel : Nat) (c : Call) (k : Nat) (h : H) :
    execRe cb (fuel + 1) c k h =
      match c.work h with
      | none => ([], .broke c)
      | some (v, h) =>
        if c.notifies then
          if h.ui then
            match runScript (execRe cb fuel) (cb k) (k + 1) h with
            | (tr, .back _ k h) => ((c, v) :: tr, .back v k h)
            | (tr, o) => ((c, v) :: tr, o)
          else ([], .broke c)
        else ([(c, v)], .back v k h) := rfl

theorem execRe_flat (cb : Nat → Script) (fuel : Nat) (c : Call) (k : Nat) (h : H) :
    Flat h (execRe cb fuel c k h) := by
  induction fuel generalizing c k h with
  | zero => exact ⟨h, rfl, trivial⟩
  | succ f ih =>
    have w := work_exec c h
    unfold execRe
    cases e : c.work h with
    | none => exact ⟨h, rfl, w.trans (by rw [e]; rfl)⟩
    | some r =>
      obtain ⟨v, h1⟩ := r
      rw [e, Option.bind_some] at w
      simp only []
      split
      · rename_i n
        rw [if_pos n] at w
        split
        · rename_i u
          rw [if_pos u] at w
          have g := runScript_flat ih (cb k) (k + 1) h1
          generalize runScript (execRe cb f) (cb k) (k + 1) h1 = q at g
          obtain ⟨tr, o⟩ := q
          obtain ⟨h', e1, m⟩ := g
          have e2 : execAll (((c, v) :: tr).map Prod.fst) h =
              some (((c, v) :: tr).map Prod.snd, h') := by
            simp only [List.map_cons, execAll, w, Option.bind_some]
            rw [e1]
            rfl
          cases o with
          | back _ _ _ => exact ⟨h', e2, m⟩
          | broke _ => exact ⟨h', e2, m⟩
          | deep => exact ⟨h', e2, m⟩
        · rename_i u
          rw [if_neg u] at w
          exact ⟨h, rfl, w⟩
      · rename_i n
        rw [if_neg n] at w
        exact ⟨h1, by simp only [List.map_cons, List.map_nil, execAll, w]; rfl, rfl⟩

/-- **C95.** Let the callback, and the page that makes the calls, be any programs over the exported
functions. Whatever they do, and however deep their calls are nested, the core goes through the
states of a plain list of calls: the calls in the order in which they began. They return the same
values as in the list; when the run comes back the state is the one that the list leaves; when it
does something undefined, then in a call that is undefined after the list. So what is proved of
lists of calls holds for callbacks that call back. -/
theorem C95_flat (cb : Nat → Script) (page : Script) (fuel k : Nat) (h : H) :
    ∃ h', execAll ((runScript (execRe cb fuel) page k h).1.map Prod.fst) h =
        some ((runScript (execRe cb fuel) page k h).1.map Prod.snd, h') ∧
      (∀ v n h2, (runScript (execRe cb fuel) page k h).2 = .back v n h2 → h2 = h') ∧
      (∀ c, (runScript (execRe cb fuel) page k h).2 = .broke c → exec c h' = none) := by
  obtain ⟨h', e, m⟩ := runScript_flat (execRe_flat cb fuel) page k h
  refine ⟨h', e, ?_, ?_⟩
  · intro v n h2 e2
    rw [e2] at m
    exact m
  · intro c e2
    rw [e2] at m
    exact m

/-- **C95.** When a run breaks, the call that broke was not allowed where it was made: as long as
every call, from the page or from inside the callback, respects the lifecycle, nothing undefined
happens. -/
theorem C95_safe (cb : Nat → Script) (page : Script) (fuel k : Nat) {ph ph' : Phase} {h : H}
    (r : Reach ph h)
    (hl : Legal ph ((runScript (execRe cb fuel) page k h).1.map Prod.fst) ph') {c : Call}
    (hc : c.Allowed ph') : (runScript (execRe cb fuel) page k h).2 ≠ .broke c := by
  intro e
  obtain ⟨h', e1, _, b⟩ := C95_flat cb page fuel k h
  obtain ⟨vs, h2, e2, i⟩ := r.inv.calls _ hl
  obtain ⟨v, h3, e3, _⟩ := i.call c hc
  rw [e2] at e1
  cases e1
  rw [b c e] at e3
  cases e3

/-! ## How deep calls are nested -/

theorem runScript_mono {ex ex' : Call → Nat → H → Record}
    (he : ∀ c k h, (ex c k h).2 ≠ .deep → ex' c k h = ex c k h) (s : Script) (k : Nat) (h : H)
    (hd : (runScript ex s k h).2 ≠ .deep) : runScript ex' s k h = runScript ex s k h := by
  induction s generalizing k h with
  | done => rfl
  | call c next ih =>
    have f := he c k h
    unfold runScript at hd ⊢
    generalize ex c k h = r at f hd
    obtain ⟨tr, o⟩ := r
    cases o with
    | back v k2 h2 =>
      rw [f (by intro e; cases e)]
      simp only [] at hd ⊢
      rw [ih v k2 h2 hd]
    | broke c2 => rw [f (by intro e; cases e)]
    | deep => exact absurd rfl hd

theorem execRe_mono (cb : Nat → Script) (fuel : Nat) (c : Call) (k : Nat) (h : H)
    (hd : (execRe cb fuel c k h).2 ≠ .deep) :
    execRe cb (fuel + 1) c k h = execRe cb fuel c k h := by
  induction fuel generalizing c k h with
  | zero => exact absurd rfl hd
  | succ f ih =>
    rw [execRe_succ cb f] at hd ⊢
    rw [execRe_succ cb (f + 1)]
    cases e : c.work h with
    | none => rfl
    | some r =>
      obtain ⟨v, h1⟩ := r
      rw [e] at hd
      simp only [] at hd ⊢
      split
      · rename_i n
        rw [if_pos n] at hd
        split
        · rename_i u
          rw [if_pos u] at hd
          have m := runScript_mono (fun c k h => ih c k h) (cb k) (k + 1) h1
          generalize runScript (execRe cb f) (cb k) (k + 1) h1 = q at m hd
          obtain ⟨tr, o⟩ := q
          cases o with
          | back _ _ _ => rw [m (by intro e; cases e)]
          | broke _ => rw [m (by intro e; cases e)]
          | deep => exact absurd rfl hd
        · rfl
      · rfl

/-- **C95.** Room for more calls does not change a run that had enough: the record does not depend on
`fuel`. -/
theorem C95_room (cb : Nat → Script) (page : Script) (fuel more k : Nat) (h : H)
    (hd : (runScript (execRe cb fuel) page k h).2 ≠ .deep) :
    runScript (execRe cb (fuel + more)) page k h = runScript (execRe cb fuel) page k h := by
  induction more with
  | zero => rfl
  | succ n ih =>
    rw [← ih] at hd ⊢
    exact runScript_mono (fun c k h => execRe_mono cb (fuel + n) c k h) page k h hd

theorem runScript_quiet {cb : Nat → Script} {f : Nat} {s : Script}
    (hs : s.All fun c => !c.notifies) (k : Nat) (h : H) :
    (runScript (execRe cb (f + 1)) s k h).2 ≠ .deep := by
  induction s generalizing k h with
  | done => intro e; cases e
  | call c next ih =>
    obtain ⟨hc, hn⟩ := hs
    have hc : c.notifies = false := by simpa using hc
    unfold runScript execRe
    cases c.work h with
    | none => intro e; cases e
    | some r =>
      simp only [hc, Bool.false_eq_true, if_false]
      exact ih _ (hn _) _ _

theorem runScript_two {cb : Nat → Script} (hq : ∀ k, (cb k).All fun c => !c.notifies) (f : Nat)
    (page : Script) (k : Nat) (h : H) : (runScript (execRe cb (f + 2)) page k h).2 ≠ .deep := by
  induction page generalizing k h with
  | done => intro e; cases e
  | call c next ih =>
    unfold runScript
    rw [execRe_succ cb (f + 1)]
    cases c.work h with
    | none => intro e; cases e
    | some r =>
      simp only []
      split
      · rename_i hn
        by_cases n : c.notifies = true
        · rw [if_pos n] at hn
          by_cases u : r.2.ui = true
          · rw [if_pos u] at hn
            generalize runScript (execRe cb (f + 1)) (cb k) (k + 1) r.2 = q at hn
            obtain ⟨tr, o⟩ := q
            cases o <;> cases hn
            exact ih _ _ _
          · rw [if_neg u] at hn
            cases hn
        · rw [if_neg n] at hn
          cases hn
          exact ih _ _ _
      · rename_i hn
        intro e
        by_cases n : c.notifies = true
        · rw [if_pos n] at hn
          by_cases u : r.2.ui = true
          · rw [if_pos u] at hn
            have q := runScript_quiet (f := f) (hq k) (k + 1) r.2 (cb := cb)
            generalize runScript (execRe cb (f + 1)) (cb k) (k + 1) r.2 = z at hn q
            obtain ⟨tr, o⟩ := z
            cases o with
            | back _ _ _ => cases hn; cases e
            | broke _ => cases hn; cases e
            | deep => exact q rfl
          · rw [if_neg u] at hn
            cases hn; cases e
        · rw [if_neg n] at hn
          cases hn; cases e

/-- **C95.** A callback that does not itself call a function that calls the callback makes no call
inside a call inside a call: whatever else it does, the page comes to its end (or to an undefined
call) with room for two. -/
theorem C95_two (cb : Nat → Script) (hq : ∀ k, (cb k).All fun c => !c.notifies) (page : Script)
    (k : Nat) (h : H) : (runScript (execRe cb 2) page k h).2 ≠ .deep :=
  runScript_two hq 0 page k h

/-- **C95.** A callback that each time begins by calling a function that calls the callback never
returns: no room is enough, unless a call is undefined. -/
theorem C95_endless (cb : Nat → Script)
    (hq : ∀ k, ∃ c next, cb k = .call c next ∧ c.notifies = true) (fuel : Nat) (c : Call)
    (hc : c.notifies = true) (k : Nat) (h : H) (v : CInt) (n : Nat) (h' : H) :
    (execRe cb fuel c k h).2 ≠ .back v n h' := by
  induction fuel generalizing c k h v n h' with
  | zero => intro e; cases e
  | succ f ih =>
    unfold execRe
    cases c.work h with
    | none => intro e; cases e
    | some r =>
      simp only [hc, if_true]
      by_cases u : r.2.ui = true
      · rw [if_pos u]
        obtain ⟨c2, next, e, hc2⟩ := hq k
        rw [e]
        unfold runScript
        have q := ih c2 hc2 (k + 1) r.2
        generalize execRe cb f c2 (k + 1) r.2 = z at q
        obtain ⟨tr, o⟩ := z
        cases o with
        | back v2 k2 h2 => exact absurd rfl (q v2 k2 h2)
        | broke _ => intro e; cases e
        | deep => intro e; cases e
      · rw [if_neg u]
        intro e; cases e

/-- **C95.** And that is what happens on a machine that is on: a callback that each time makes the
allowed call `c` makes it as often as there is room, until the stack is full. -/
theorem C95_storm (c : Call) (hn : c.notifies = true) (next : CInt → Script) {ph : Phase} {h : H}
    (r : Reach ph h) (hc : c.Allowed ph) (fuel k : Nat) :
    ∃ tr, execRe (fun _ => .call c next) fuel c k h = (tr, .deep) ∧
      tr.map Prod.fst = List.replicate fuel c := by
  have ha : c.after ph = ph := by cases c <;> first | rfl | cases hn
  have i := r.inv
  clear r
  induction fuel generalizing k h with
  | zero => exact ⟨[], rfl, rfl⟩
  | succ f ih =>
    obtain ⟨v, h', e, i2⟩ := i.call c hc
    rw [ha] at i2
    obtain ⟨tr, e2, e3⟩ := ih (k + 1) i2
    have w := work_exec c h
    rw [e] at w
    cases e1 : c.work h with
    | none => rw [e1] at w; cases w
    | some q =>
      rw [e1, Option.bind_some, if_pos hn] at w
      by_cases u : q.2.ui = true
      · rw [if_pos u] at w
        cases w
        have u : h'.ui = true := u
        refine ⟨(c, v) :: tr, ?_, by rw [List.map_cons, e3, List.replicate_succ]⟩
        rw [execRe_succ, e1]
        simp only [hn, u, if_true]
        unfold runScript
        rw [e2]
      · rw [if_neg u] at w
        cases w

/-! ## The callback of the page -/

/-- The functions that only read. -/
def Call.reads : Call → Bool
  | .getMemoryValue _ | .getMemorySize | .getMemoryValueSizeBits => true
  | c => c.isGetter

theorem On.reads {h : H} {a : A} (o : On h a) {c : Call} (e : c.reads = true) :
    ∃ x, exec c h = some (x, h) := by
  by_cases g : c.isGetter = true
  · exact o.getter g
  cases c <;> first
    | exact absurd rfl g
    | (cases e; done)
    | exact ⟨_, rfl⟩
    | skip
  rename_i v
  by_cases hv : IsAddr v
  · refine ⟨(a.mem (v.setWidth 16)).setWidth 32, ?_⟩
    have ev : v = (v.setWidth 16).setWidth 32 := by
      obtain ⟨h1, h2⟩ := hv
      have := BitVec.toInt_eq_toNat_cond v
      apply BitVec.eq_of_toNat_eq
      simp only [BitVec.toNat_setWidth]
      omega
    have := o.getMemory (v.setWidth 16)
    rw [← ev] at this
    exact this
  · exact ⟨_, On.getMemory_out hv⟩

theorem reads_quiet {c : Call} (e : c.reads = true) : c.notifies = false := by
  cases c <;> first | rfl | cases e

theorem runScript_reads {cb : Nat → Script} {f : Nat} {s : Script} (hs : s.All Call.reads) (k : Nat)
    {h : H} {a : A} (o : On h a) :
    ∃ tr, runScript (execRe cb (f + 1)) s k h = (tr, .back 0 k h) := by
  induction s generalizing k with
  | done => exact ⟨[], rfl⟩
  | call c next ih =>
    obtain ⟨hc, hn⟩ := hs
    obtain ⟨x, e⟩ := o.reads hc
    have q := reads_quiet hc
    have w := work_exec c h
    simp only [q, Bool.false_eq_true, if_false, Option.bind_fun_some] at w
    obtain ⟨tr, e2⟩ := ih x (hn x) k
    refine ⟨[(c, x)] ++ tr, ?_⟩
    unfold runScript
    rw [execRe_succ, ← w, e]
    simp only [q, Bool.false_eq_true, if_false]
    rw [e2]

/-- **C95.** A callback that only reads, as those of the page do, can be left out: on a machine that
is on, every allowed call returns what it returns when the callback does nothing, and leaves the same
state. This is what the rest of the development assumes of the callback. -/
theorem C95_reads (cb : Nat → Script) (hq : ∀ k, (cb k).All Call.reads) {ph : Phase} {h : H}
    (r : Reach ph h) (c : Call) (hc : c.Allowed ph) (k : Nat) :
    ∃ v h' tr n, exec c h = some (v, h') ∧ execRe cb 2 c k h = ((c, v) :: tr, .back v n h') := by
  obtain ⟨v, h', e, i⟩ := r.inv.call c hc
  have w := work_exec c h
  rw [e] at w
  cases e1 : c.work h with
  | none => rw [e1] at w; cases w
  | some q =>
    rw [e1, Option.bind_some] at w
    rw [execRe_succ, e1]
    by_cases n : c.notifies = true
    · rw [if_pos n] at w
      by_cases u : q.2.ui = true
      · rw [if_pos u] at w
        cases w
        have on : (c.after ph).on = true := by
          cases c <;> first | exact hc.1 | cases n
        obtain ⟨a, o⟩ := i.on on
        obtain ⟨tr, e2⟩ := runScript_reads (cb := cb) (f := 0) (hq k) (k + 1) o
        have u : h'.ui = true := u
        exact ⟨v, h', tr, k + 1, e, by simp only [n, u, if_true, e2]⟩
      · rw [if_neg u] at w
        cases w
    · rw [if_neg n] at w
      cases w
      exact ⟨v, h', [], k, e, by simp only [n]; rfl⟩

/-- A page when the callback does nothing: each call is made from outside, and the page goes on with
the value that it returned. -/
def Script.plain : Script → H → Option H
  | .done, h => some h
  | .call c next, h => (exec c h).bind fun r => (next r.1).plain r.2

/-- A page that respects the lifecycle whatever it reads. -/
def Script.Legal : Phase → Script → Prop
  | _, .done => True
  | ph, .call c next => c.Allowed ph ∧ ∀ v, (next v).Legal (c.after ph)

/-- **C95.** So a whole page, which decides by what it reads which calls it makes, comes to the same
end with a callback that only reads as with one that does nothing. -/
theorem C95_page (cb : Nat → Script) (hq : ∀ k, (cb k).All Call.reads) (page : Script) {ph : Phase}
    {h : H} (r : Reach ph h) (hl : page.Legal ph) (k : Nat) :
    ∃ h' tr n, page.plain h = some h' ∧
      runScript (execRe cb 2) page k h = (tr, .back 0 n h') := by
  induction page generalizing ph h k with
  | done => exact ⟨h, [], k, rfl, rfl⟩
  | call c next ih =>
    obtain ⟨v, h1, tr, n, e1, e2⟩ := C95_reads cb hq r c hl.1 k
    obtain ⟨h', tr', n', e3, e4⟩ := ih v (r.step hl.1 e1) (hl.2 v) n
    refine ⟨h', ((c, v) :: tr) ++ tr', n', ?_, ?_⟩
    · simp only [Script.plain, e1, Option.bind_some]
      exact e3
    · unfold runScript
      rw [e2]
      simp only []
      rw [e4]

/-! ## The hypotheses can be met -/

/-- There is a machine that is on and has a callback. -/
theorem on_and_ui : ∃ ph h, Reach ph h ∧ ph.on = true ∧ ph.ui = true := by
  obtain ⟨h, hr⟩ := ready_all ⟨0, 0, 7, 0, 0, 0, 0, false, false, fun _ => 0x01, []⟩ rfl
  obtain ⟨ph, r, on, ui, _⟩ := hr
  exact ⟨ph, h, r, on, ui⟩

/-- A callback that the first time stores a byte, which calls it again, and then reads it. -/
def exampleCallback : Nat → Script
  | 0 => .call (.setMemoryValue 7 9) fun _ => .call (.getMemoryValue 7) fun _ => .done
  | _ => .done

/-- A call inside a call: the machine's program counter is set, and while that call is not yet over a
byte is stored and read. The calls begin in this order, and are legal. -/
example : ∃ ph h v h', Reach ph h ∧
    runScript (execRe exampleCallback 3) (.call (.setRegisterPc 4) fun _ => .done) 0 h =
      ([(.setRegisterPc 4, 0), (.setMemoryValue 7 9, 0), (.getMemoryValue 7, v)], .back 0 2 h') ∧
    Legal ph [.setRegisterPc 4, .setMemoryValue 7 9, .getMemoryValue 7] ph := by
  obtain ⟨ph, h, r, on, ui⟩ := on_and_ui
  obtain ⟨v1, h1, e1, i1⟩ := r.inv.call (.setRegisterPc 4) ⟨on, ui, by decide⟩
  obtain ⟨v2, h2, e2, i2⟩ := i1.call (.setMemoryValue 7 9) ⟨on, ui, by decide, by decide⟩
  obtain ⟨v3, h3, e3, i3⟩ := i2.call (.getMemoryValue 7) on
  have done : ∀ {c : Call} {v : CInt} {h h' : H}, exec c h = some (v, h') → h'.ui = true →
      c.work h = some (v, h') := by
    intro c v h h' e u
    rw [work_exec] at e
    cases w : c.work h with
    | none => rw [w] at e; cases e
    | some q =>
      rw [w, Option.bind_some] at e
      split at e
      · split at e <;> cases e
        rfl
      · cases e; rfl
  have u1 : h1.ui = true := i1.ui.trans ui
  have u2 : h2.ui = true := i2.ui.trans ui
  have u3 : h3.ui = true := i3.ui.trans ui
  have z1 : v1 = 0 := by
    have w := done e1 u1
    simp only [Call.work] at w
    split at w
    · cases w
    · obtain ⟨x, _, e⟩ := Option.map_eq_some_iff.1 w
      cases e; rfl
  have z2 : v2 = 0 := by
    have w := done e2 u2
    simp only [Call.work] at w
    split at w
    · cases w
    · obtain ⟨x, _, e⟩ := Option.map_eq_some_iff.1 w
      cases e; rfl
  subst z1 z2
  refine ⟨ph, h, v3, h3, r, ?_, ⟨on, ui, by decide⟩, ⟨on, ui, by decide, by decide⟩, on, rfl⟩
  simp only [runScript, execRe, done e1 u1, done e2 u2, done e3 u3, Call.notifies, u1, u2, if_true,
    exampleCallback, Bool.false_eq_true, if_false, List.append_nil, List.nil_append, List.cons_append]

/-- The functions that the callback of the page calls only read. -/
example : (Script.call .getState fun _ => .call (.getMemoryValue 0x1234) fun v =>
    if v = 0 then .done else .call .getDataBus fun _ => .done).All Call.reads := by
  refine ⟨rfl, fun _ => ⟨rfl, fun v => ?_⟩⟩
  simp only []
  split
  · trivial
  · exact ⟨rfl, fun _ => trivial⟩

/-- A page that stores a byte only if it finds another one. -/
example (ph : Phase) (on : ph.on = true) (ui : ph.ui = true) :
    (Script.call (.getMemoryValue 7) fun v =>
      if v = 9 then .done else .call (.setMemoryValue 7 9) fun _ => .done).Legal ph := by
  refine ⟨on, fun v => ?_⟩
  simp only []
  split
  · trivial
  · exact ⟨⟨on, ui, by decide, by decide⟩, fun _ => trivial⟩

/-- A callback may let the machine run silently and even turn it off without being called again. -/
example : (Script.call (.runClockCycle false) fun _ => .call .shutdown fun _ => .done).All
    fun c => !c.notifies :=
  ⟨rfl, fun _ => ⟨rfl, fun _ => trivial⟩⟩

/-- To store a byte whenever a byte was stored fills the stack. -/
example : ∃ h, ∀ fuel, ∃ tr, execRe (fun _ => .call (.setMemoryValue 0 1) fun _ => .done) fuel
    (.setMemoryValue 0 1) 0 h = (tr, .deep) ∧ tr.length = fuel := by
  obtain ⟨ph, h, r, on, ui⟩ := on_and_ui
  refine ⟨h, fun fuel => ?_⟩
  obtain ⟨tr, e, l⟩ := C95_storm (.setMemoryValue 0 1) rfl (fun _ => .done) r
    ⟨on, ui, by decide, by decide⟩ fuel 0
  exact ⟨tr, e, by simpa using congrArg List.length l⟩

end Mpp
