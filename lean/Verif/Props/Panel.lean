import Verif.Told
import Verif.Props.Diagram
/-!
# Property C53: what the panel of microstates says
-/
namespace Mpp

/-! ## The texts -/

/-- **C53.** In every clock cycle of a machine in use, the text that the panel shows for the executed
microstate says what happened: the registers and memory cells it names on the left get the values it
names on the right, and nothing else changes. RF and RD are the registers named by the instruction in
RI. (Undocumented instructions name no registers, so the texts with RF or RD say nothing for them.
The texts do not speak of the flags that ALU operations set.) -/
theorem C53_text (ph : Phase) (h h' : H) (u : Bool) (r : CInt) (hr : Reach ph h)
    (on : ph.on = true) (hu : u = true → ph.ui = true)
    (run : exec (.runClockCycle u) h = some (r, h')) :
    ∃ k v v' row, exec .getState h' = some (k, h') ∧ detailsOf k = some row ∧ Sees h v ∧ Sees h' v' ∧
      ((decode v.ri ≠ none ∨ k.toNat ∉ [2, 3, 8, 39, 44]) → Told (decode v.ri) row.op v v') := by
  obtain ⟨v, k, d, s⟩ := hr.seen on hu run
  have ok : k ∉ badStates := s.before.ok.1
  have ip := hr.inPath on s.before
  have hb : k.toNat ∉ [25, 27, 30, 42] := by clear s ip; revert k; decide +kernel
  have hw : (k.setWidth 32).toNat = k.toNat := by
    rw [BitVec.toNat_setWidth]; have := k.isLt; omega
  have hrow : detailsOf (k.setWidth 32) = stateDetails[k.toNat]? := by unfold detailsOf; rw [hw]
  have field : ∀ n : Nat, n < 64 → n ≠ 0 → k.toNat = n → fieldOk v.ri (BitVec.ofNat 6 n) = true := by
    intro n hn h0 e
    have e' := nat_state hn e
    obtain ⟨fc, fz, hm⟩ := ip.get e' (by intro h; apply h0; rw [← e, e', h]; rfl)
    exact field_ok _ _ _ _ hm
  have row : ∃ row, stateDetails[k.toNat]? = some row :=
    ⟨_, List.getElem?_eq_getElem (show k.toNat < stateDetails.length from s.lt)⟩
  obtain ⟨row, hrow'⟩ := row
  refine ⟨k.setWidth 32, v, v.rtl k.toNat, row, s.state, hrow.trans hrow', s.before.sees, s.after.sees, ?_⟩
  intro hd
  rw [hw] at hd
  have regs : k.toNat ∈ [2, 3, 8, 39, 44] → ∃ i, decode v.ri = some i := by
    intro hk
    rcases hd with hd | hd
    · cases e : decode v.ri with
      | none => exact absurd e hd
      | some i => exact ⟨i, rfl⟩
    · exact absurd hk hd
  have two : k.toNat = 2 → (decode v.ri).bind Instr.rf = some (bankG v.lowSel) := by
    intro e
    obtain ⟨i, hi⟩ := regs (by rw [e]; decide)
    have f := field 2 (by decide) (by decide) e
    unfold fieldOk at f
    rw [hi] at f ⊢
    simpa [V.lowSel, V.highSel] using f
  have three : k.toNat = 3 → (decode v.ri).bind Instr.rd = some (bankG v.highSel) := by
    intro e
    obtain ⟨i, hi⟩ := regs (by rw [e]; decide)
    have f := field 3 (by decide) (by decide) e
    unfold fieldOk at f
    rw [hi] at f ⊢
    simpa [V.lowSel, V.highSel] using f
  have eight : k.toNat = 8 ∨ k.toNat = 39 ∨ k.toNat = 44 →
      (decode v.ri).bind Instr.rd = some (bankG v.lowSel) := by
    intro e
    obtain ⟨i, hi⟩ := regs (by rcases e with e | e | e <;> rw [e] <;> decide)
    rcases e with e | e | e
    · have f := field 8 (by decide) (by decide) e
      unfold fieldOk at f
      rw [hi] at f ⊢
      simpa [V.lowSel, V.highSel] using f
    · have f := field 39 (by decide) (by decide) e
      unfold fieldOk at f
      rw [hi] at f ⊢
      simpa [V.lowSel, V.highSel] using f
    · have f := field 44 (by decide) (by decide) e
      unfold fieldOk at f
      rw [hi] at f ⊢
      simpa [V.lowSel, V.highSel] using f
  obtain ⟨row2, e2, t⟩ := told_rtl v k.toNat s.lt hb (decode v.ri) two three eight
  rw [hrow'] at e2; cases e2; exact t

/-! ## The rows -/

theorem details_some {n : CInt} (h : n.toNat < 45) : ∃ r, detailsOf n = some r :=
  ⟨_, List.getElem?_eq_getElem (show n.toNat < stateDetails.length from h)⟩

theorem On.rows {h : H} {a : A} (o : On h a) (rows : Rows) :
    rows.read h = some (h, rows.update (a.q.setWidth 32) (a.dd.setWidth 32)) := by
  unfold Rows.read
  rw [o.getNextState]
  simp only [Option.bind_some, o.getState, Option.map_some]

/-- At most three rows, all of which can be drawn. -/
def Rows.Fine (rows : Rows) : Prop := rows.length ≤ 3 ∧ ∀ x ∈ rows, ∃ r, x = some r

theorem Rows.Fine.update {rows : Rows} (f : rows.Fine) {c n : CInt} (hc : c.toNat < 45)
    (hn : n.toNat < 45) : (rows.update c n).Fine ∧ 2 ≤ (rows.update c n).length ∧
      (rows.update c n).getLast? = some (detailsOf n) := by
  obtain ⟨c', hc⟩ := details_some hc
  obtain ⟨n', hn⟩ := details_some hn
  unfold Rows.update maxItems
  rw [hc, hn]
  obtain ⟨f1, f2⟩ := f
  match rows, f1, f2 with
  | [], _, _ => exact ⟨⟨by simp, by simp⟩, by simp, rfl⟩
  | [x], _, f2 => exact ⟨⟨by simp, by simpa using f2⟩, by simp, rfl⟩
  | [x, y], _, f2 => exact ⟨⟨by simp, by simpa using f2⟩, by simp, rfl⟩
  | [x, y, z], _, f2 =>
    refine ⟨⟨by simp, ?_⟩, by simp, rfl⟩
    intro w hw
    simp at hw
    rcases hw with rfl | rfl | rfl
    · exact f2 _ (by simp)
    · exact f2 _ (by simp)
    · exact ⟨_, rfl⟩
  | _ :: _ :: _ :: _ :: _, f1, _ => simp at f1

theorem state_lt (s : BitVec 6) (h : s ∉ badStates) : (s.setWidth 32).toNat < 45 := by
  have := badStates_ge s h
  rw [BitVec.toNat_setWidth]; omega

theorem Event.step_fine {p : Phase} {h : H} {rows : Rows} (hr : Reach p h) (f : rows.Fine) {e : Event}
    (he : e.Allowed p) : ∃ h' rows', e.step (h, rows) = some (h', rows') ∧ Reach (e.after p) h' ∧
      rows'.Fine ∧ (e.draws = true → 2 ≤ rows'.length ∧
        ∃ n, NextState h' n ∧ rows'.getLast? = some (detailsOf n)) := by
  have draw : ∀ {p : Phase} {h : H}, Reach p h → p.on = true →
      ∃ rows', rows.read h = some (h, rows') ∧ rows'.Fine ∧ 2 ≤ rows'.length ∧
        ∃ n, NextState h n ∧ rows'.getLast? = some (detailsOf n) := by
    intro p h hr on
    obtain ⟨a, o⟩ := hr.on on
    obtain ⟨f1, f2, f3⟩ := f.update (state_lt a.q o.okq) (state_lt a.dd o.ok.1)
    exact ⟨_, o.rows rows, f1, f2, _, o.getNextState, f3⟩
  cases e with
  | clear => exact ⟨h, [], rfl, hr, ⟨by simp, by simp⟩, by intro h; cases h⟩
  | notify =>
    obtain ⟨rows', e, f', g⟩ := draw hr he
    exact ⟨h, rows', e, hr, f', fun _ => g⟩
  | call c =>
    obtain ⟨v, h1, e1, _⟩ := hr.inv.call c he
    have r1 := hr.step he e1
    unfold Event.step
    simp only [e1, Option.bind_some]
    by_cases hn : c.notifies = true
    · have on : (c.after p).on = true := by
        cases c <;> first | exact he.1 | (simp [Call.notifies] at hn)
      obtain ⟨rows', e, f', g⟩ := draw r1 on
      exact ⟨h1, rows', by rw [if_pos hn]; exact e, r1, f', fun _ => g⟩
    · exact ⟨h1, rows, by rw [if_neg hn], r1, f, fun h => absurd h hn⟩

theorem steps_append (es ds : List Event) (x : H × Rows) :
    steps (es ++ ds) x = (steps es x).bind (steps ds) := by
  induction es generalizing x with
  | nil => rfl
  | cons e es ih =>
    simp only [List.cons_append, steps]
    cases e.step x with
    | none => rfl
    | some y => simp only [Option.bind_some]; exact ih y

theorem steps_fine {p p' : Phase} {h : H} {rows : Rows} (hr : Reach p h) (f : rows.Fine)
    (es : List Event) (hl : LegalEvents p es p') :
    ∃ h' rows', steps es (h, rows) = some (h', rows') ∧ Reach p' h' ∧ rows'.Fine := by
  induction es generalizing p h rows with
  | nil => cases hl; exact ⟨h, rows, rfl, hr, f⟩
  | cons e es ih =>
    obtain ⟨h1, rows1, e1, r1, f1, _⟩ := Event.step_fine hr f hl.1
    obtain ⟨h2, rows2, e2, r2, f2⟩ := ih r1 f1 hl.2
    exact ⟨h2, rows2, by simp only [steps, e1, Option.bind_some, e2], r2, f2⟩

/-- **C53.** Whatever is done with the core within its lifecycle, the panel never has more than three
rows and never a row that cannot be drawn. -/
theorem C53_drawable (ph ph' : Phase) (h : H) (es : List Event) (hr : Reach ph h)
    (hl : LegalEvents ph es ph') :
    ∃ h' rows, steps es (h, []) = some (h', rows) ∧ rows.length ≤ 3 ∧ ∀ x ∈ rows, ∃ r, x = some r := by
  obtain ⟨h', rows, e, _, f⟩ := steps_fine (rows := []) hr ⟨by simp, by simp⟩ es hl
  exact ⟨h', rows, e, f⟩

theorem LegalEvents.split {p p' : Phase} {es : List Event} {e : Event}
    (hl : LegalEvents p (es ++ [e]) p') : ∃ q, LegalEvents p es q ∧ e.Allowed q ∧ p' = e.after q := by
  induction es generalizing p with
  | nil => exact ⟨p, rfl, hl.1, hl.2⟩
  | cons d es ih =>
    obtain ⟨q, h1, h2⟩ := ih hl.2
    exact ⟨q, ⟨hl.1, h1⟩, h2⟩

/-- **C53.** After every UI update the last row, "next state", is the row of the microstate that the
next clock cycle will execute. -/
theorem C53_next (ph ph' : Phase) (h : H) (es : List Event) (e : Event) (hr : Reach ph h)
    (hl : LegalEvents ph (es ++ [e]) ph') (hd : e = .notify ∨ ∃ c, e = .call c ∧
      ((∃ i v, c = .setMemoryValue i v) ∨ (∃ v, c = .setRegisterPc v) ∨ c = .runClockCycle true)) :
    ∃ h' rows n, steps (es ++ [e]) (h, []) = some (h', rows) ∧ 2 ≤ rows.length ∧
      rows.getLast? = some (detailsOf n) ∧
      ∃ r h'', exec (.runClockCycle false) h' = some (r, h'') ∧ exec .getState h'' = some (n, h'') := by
  have hd : e.draws = true := by
    rcases hd with rfl | ⟨_, rfl, ⟨_, _, rfl⟩ | ⟨_, rfl⟩ | rfl⟩ <;> rfl
  obtain ⟨q, l1, l2, l3⟩ := hl.split
  obtain ⟨h1, rows1, e1, r1, f1⟩ := steps_fine (rows := []) hr ⟨by simp, by simp⟩ es l1
  obtain ⟨h2, rows2, e2, r2, f2, g⟩ := Event.step_fine r1 f1 l2
  obtain ⟨g1, n, g2, g3⟩ := g hd
  refine ⟨h2, rows2, n, ?_, g1, g3, ?_⟩
  · rw [steps_append, e1]; simp only [Option.bind_some, steps, e2]
  · have on : (e.after q).on = true := by
      cases e with
      | clear => cases hd
      | notify => exact l2
      | call c => cases c <;> first | exact l2.1 | cases hd
    obtain ⟨a, o⟩ := r2.on on
    obtain ⟨h5, e5, o5, _⟩ := o.cycle false (fun h => by cases h)
    obtain ⟨_, _, c3, _⟩ := A.cycle_spec a o.settled o.ok.lt
    refine ⟨_, h5, e5, ?_⟩
    rw [o5.getState, c3, ← some_inj (g2.symm.trans o.getNextState)]

theorem lastThree_update {rows : Rows} (h : 2 ≤ rows.length) (c n : CInt) :
    Rows.update c n (lastThree rows) = lastThree (rows ++ [detailsOf n]) := by
  unfold Rows.update lastThree maxItems
  have h1 : (rows.drop (rows.length - 3)).length = min 3 rows.length := by
    rw [List.length_drop]; omega
  rw [h1]
  have h2 : ¬ min 3 rows.length = 0 := by omega
  have h3 : min 3 rows.length ≥ 2 := by omega
  rw [if_neg h2, if_pos h3, List.drop_drop, List.length_append, List.length_singleton,
    List.drop_append_of_le_length (by omega)]
  congr 2
  omega

theorem shown_more {p : Phase} {h h' : H} {ks : List CInt} (hr : Reach p h) (on : p.on = true)
    (ui : p.ui = true) (c : ShownCycles h ks h') (hk : ks ≠ []) :
    ∀ rows : Rows, 2 ≤ rows.length → ∃ n, NextState h' n ∧
      steps (List.replicate ks.length (.call (.runClockCycle true))) (h, lastThree rows) =
        some (h', lastThree (rows ++ (ks.tail ++ [n]).map detailsOf)) := by
  induction c with
  | none => exact absurd rfl hk
  | @more h h1 h' r k ks run state rest ih =>
    intro rows hrows
    have r1 : Reach p h1 := hr.cycle on ui run
    obtain ⟨a, o⟩ := r1.on on
    have e1 : Event.step (.call (.runClockCycle true)) (h, lastThree rows) =
        some (h1, lastThree (rows ++ [detailsOf (a.dd.setWidth 32)])) := by
      simp only [Event.step, run, Option.bind_some, Call.notifies, if_true]
      rw [o.rows, lastThree_update hrows]
    cases ks with
    | nil =>
      cases rest
      refine ⟨_, o.getNextState, ?_⟩
      simp only [List.length_cons, List.length_nil, List.replicate, steps, e1, Option.bind_some]
      rfl
    | cons k2 ks =>
      obtain ⟨n, hn, e2⟩ := ih r1 (by simp) (rows ++ [detailsOf (a.dd.setWidth 32)])
        (by rw [List.length_append]; omega)
      refine ⟨n, hn, ?_⟩
      have ek : k2 = a.dd.setWidth 32 := by
        cases rest with
        | more run2 state2 _ =>
          obtain ⟨h5, e5, o5, _⟩ := o.cycle true (fun _ => r1.inv.ui.trans ui)
          rw [run2] at e5; cases e5
          obtain ⟨_, _, c3, _⟩ := A.cycle_spec a o.settled o.ok.lt
          rw [o5.getState, c3] at state2
          exact (some_inj state2).symm
      rw [List.length_cons, List.replicate_succ]
      simp only [steps, e1, Option.bind_some]
      rw [e2, ek]
      simp

/-- **C53.** While clock cycles run with UI updates, from a cleared panel, the rows marked "executed"
are the microstates executed last, in their order, and the row after them is the next one: the panel
shows the last three of all microstates executed, followed by the next one. -/
theorem C53_executed (ph : Phase) (h h' : H) (ks : List CInt) (hr : Reach ph h) (on : ph.on = true)
    (ui : ph.ui = true) (c : ShownCycles h ks h') (hk : ks ≠ []) :
    ∃ n, NextState h' n ∧
      steps (List.replicate ks.length (.call (.runClockCycle true))) (h, []) =
        some (h', lastThree ((ks ++ [n]).map detailsOf)) := by
  cases c with
  | none => exact absurd rfl hk
  | @more _ h1 _ r k ks run state rest =>
    have r1 : Reach ph h1 := hr.cycle on ui run
    obtain ⟨a, o⟩ := r1.on on
    have ek : k = a.q.setWidth 32 := (some_inj (o.getState.symm.trans state)).symm
    have e1 : Event.step (.call (.runClockCycle true)) (h, []) =
        some (h1, [detailsOf k, detailsOf (a.dd.setWidth 32)]) := by
      simp only [Event.step, run, Option.bind_some, Call.notifies, if_true]
      rw [o.rows, ek]; rfl
    cases ks with
    | nil =>
      cases rest
      refine ⟨_, o.getNextState, ?_⟩
      simp only [List.length_cons, List.length_nil, List.replicate, steps, e1, Option.bind_some]
      rfl
    | cons k2 ks =>
      obtain ⟨n, hn, e2⟩ := shown_more r1 on ui rest (by simp)
        [detailsOf k, detailsOf (a.dd.setWidth 32)] (by simp)
      refine ⟨n, hn, ?_⟩
      have ek2 : k2 = a.dd.setWidth 32 := by
        cases rest with
        | more run2 state2 _ =>
          obtain ⟨h5, e5, o5, _⟩ := o.cycle true (fun _ => r1.inv.ui.trans ui)
          rw [run2] at e5; cases e5
          obtain ⟨_, _, c3, _⟩ := A.cycle_spec a o.settled o.ok.lt
          rw [o5.getState, c3] at state2
          exact (some_inj state2).symm
      rw [List.length_cons, List.replicate_succ]
      simp only [steps, e1, Option.bind_some]
      have e3 := e2
      rw [show lastThree [detailsOf k, detailsOf (a.dd.setWidth 32)] =
        [detailsOf k, detailsOf (a.dd.setWidth 32)] from rfl] at e3
      rw [e3, ek2]
      rfl

theorem save_step {p : Phase} {h : H} (hr : Reach p h) (on : p.on = true) (ui : p.ui = true)
    (hn : NextState h 0) (b : CInt × CInt) (hb : IsAddr b.1 ∧ IsByte b.2) :
    ∃ h1 q, Reach p h1 ∧ NextState h1 0 ∧ ∀ rows : Rows,
      Event.step (.call (.setMemoryValue b.1 b.2)) (h, rows) = some (h1, rows.update q 0) := by
  obtain ⟨a, o⟩ := hr.on on
  obtain ⟨h1, e1, o1⟩ := o.call hr.inv (.setMemoryValue b.1 b.2) ⟨on, ui, hb.1, hb.2⟩ rfl
  have hd : a.dd.setWidth 32 = (0 : CInt) := some_inj (o.getNextState.symm.trans hn)
  refine ⟨h1, (A.call (.setMemoryValue b.1 b.2) a).q.setWidth 32, hr.step (c := .setMemoryValue b.1 b.2) ⟨on, ui, hb.1, hb.2⟩ e1, ?_, fun rows => ?_⟩
  · show exec .getNextState h1 = _
    rw [o1.getNextState]; exact congrArg (fun x => some (x, h1)) hd
  · simp only [Event.step, e1, Option.bind_some, Call.notifies, if_true]
    rw [o1.rows]
    exact congrArg (fun x => some (h1, rows.update _ x)) hd

theorem update_first (rows : Rows) (c n : CInt) :
    (∃ x, rows.update c n = [x, detailsOf n]) ∨ ∃ x y, rows.update c n = [x, y, detailsOf n] := by
  unfold Rows.update maxItems
  match rows with
  | [] => exact .inl ⟨_, rfl⟩
  | [x] => exact .inl ⟨x, rfl⟩
  | x :: y :: zs =>
    have hl : ((x :: y :: zs).drop ((x :: y :: zs).length - 2)).length = 2 := by
      rw [List.length_drop]; simp only [List.length_cons]; omega
    rw [if_neg (by simp), if_pos (by simp)]
    match (x :: y :: zs).drop ((x :: y :: zs).length - 2), hl with
    | [u, w], _ => exact .inr ⟨u, w, rfl⟩

/-- **C53, false in general.** The button that saves a program puts "S0 executed" into the panel
although no clock cycle runs: after saving three or more bytes, from any panel, two of the three rows
say "executed: S0". -/
theorem C53_saved_wrong (ph : Phase) (h : H) (rows : Rows) (hr : Reach ph h) (on : ph.on = true)
    (ui : ph.ui = true) (bytes : List (CInt × CInt)) (h3 : 3 ≤ bytes.length)
    (hb : ∀ b ∈ bytes, IsAddr b.1 ∧ IsByte b.2) :
    ∃ h' r, detailsOf 0 = some r ∧ r.state = 0 ∧
      steps (.call .resetControl :: bytes.map fun b => .call (.setMemoryValue b.1 b.2)) (h, rows) =
        some (h', [some r, some r, some r]) := by
  obtain ⟨a, o⟩ := hr.on on
  obtain ⟨h0, e0, o0⟩ := o.call hr.inv .resetControl on rfl
  have r0 : Reach ph h0 := hr.step (c := .resetControl) on e0
  have n0 : NextState h0 0 := o0.getNextState
  have rest : ∀ (bytes : List (CInt × CInt)), (∀ b ∈ bytes, IsAddr b.1 ∧ IsByte b.2) → ∀ h : H,
      Reach ph h → NextState h 0 →
      ∃ h', steps (bytes.map fun b => .call (.setMemoryValue b.1 b.2))
        (h, [detailsOf 0, detailsOf 0, detailsOf 0]) =
          some (h', [detailsOf 0, detailsOf 0, detailsOf 0]) := by
    intro bytes
    induction bytes with
    | nil => intro _ h _ _; exact ⟨h, rfl⟩
    | cons b bs ih =>
      intro hb h hr hn
      obtain ⟨h1, q, r1, n1, e1⟩ := save_step hr on ui hn b (hb b (by simp))
      obtain ⟨h2, e2⟩ := ih (fun b hb' => hb b (by simp [hb'])) h1 r1 n1
      refine ⟨h2, ?_⟩
      simp only [List.map_cons, steps, e1, Option.bind_some]
      exact e2
  match bytes, h3, hb with
  | b1 :: b2 :: b3 :: bs, _, hb =>
    obtain ⟨h1, q1, r1, n1, e1⟩ := save_step r0 on ui n0 b1 (hb b1 (by simp))
    obtain ⟨h2, q2, r2, n2, e2⟩ := save_step r1 on ui n1 b2 (hb b2 (by simp))
    obtain ⟨h3, q3, r3, n3, e3⟩ := save_step r2 on ui n2 b3 (hb b3 (by simp))
    obtain ⟨h4, e4⟩ := rest bs (fun b hb' => hb b (by simp [hb'])) h3 r3 n3
    refine ⟨h4, ⟨0, "RI ← (PC), PC + 1"⟩, rfl, rfl, ?_⟩
    have ereset : Event.step (.call .resetControl) (h, rows) = some (h0, rows) := by
      simp only [Event.step, e0, Option.bind_some, Call.notifies]; rfl
    simp only [List.map_cons, steps, ereset, e1, e2, e3, Option.bind_some]
    have e5 : (((rows.update q1 0).update q2 0).update q3 0) =
        [detailsOf 0, detailsOf 0, detailsOf 0] := by
      rcases update_first rows q1 0 with ⟨x, e⟩ | ⟨x, y, e⟩ <;> rw [e] <;> rfl
    rw [e5]
    exact e4

/-! ## The numbers -/

/-- **C53.** Every row but one carries the number of its microstate. -/
theorem C53_number_partial (n : CInt) (hn : n.toNat < 44) :
    ∃ r, detailsOf n = some r ∧ r.state = n.toNat := by
  have : ∀ k < 44, (stateDetails[k]?).map StateRow.state = some k := by decide
  have h := this _ hn
  unfold detailsOf
  cases e : stateDetails[n.toNat]? with
  | none => rw [e] at h; cases h
  | some r => rw [e] at h; exact ⟨r, rfl, Option.some.inj h⟩

/-- **C53, false for S44.** There is a machine in use whose next microstate is S44, and the panel
calls it S43. -/
theorem C53_number_wrong : ∃ ph h h' rows r, Reach ph h ∧ ph.on = true ∧ NextState h 44 ∧
    steps [.notify] (h, []) = some (h', rows) ∧ rows.getLast? = some (some r) ∧ r.state = 43 := by
  obtain ⟨ph, h, h', r, hr, on, ui, run, st⟩ := C52_visited 44 (by decide) (by decide)
  obtain ⟨a, o⟩ := hr.on on
  obtain ⟨h5, e5, o5, _⟩ := o.cycle true (fun _ => hr.inv.ui.trans ui)
  rw [run] at e5; cases e5
  obtain ⟨_, _, c3, _⟩ := A.cycle_spec a o.settled o.ok.lt
  have e := st.exec rfl
  rw [o5.getState, c3] at e
  have e := some_inj e
  refine ⟨ph, h, h, Rows.update (a.q.setWidth 32) (a.dd.setWidth 32) [], ⟨43, "RD ← 2OP"⟩, hr, on, ?_, ?_, ?_, rfl⟩
  · show exec .getNextState h = _
    rw [o.getNextState, e]; rfl
  · show Rows.read h [] >>= (fun x => some x) = _
    rw [o.rows]; rfl
  · rw [e]; rfl

/-! ## Concrete cases -/

theorem Microstates.shown {h h' : H} {l : List CInt} (m : Microstates true h l h') :
    ShownCycles h l h' := by
  induction m with
  | last run state _ => exact .more run state .none
  | more run state _ _ _ ih => exact .more run state ih

/-- `MOV C, B`: after its four microstates the panel has S2 and S3 as executed and S0 as next. -/
example : ∃ ph h h', Reach ph h ∧ ph.on = true ∧ ph.ui = true ∧ ShownCycles h [0, 1, 2, 3] h' ∧
    steps (List.replicate 4 (.call (.runClockCycle true))) (h, []) =
      some (h', [some ⟨2, "2OP ← RF"⟩, some ⟨3, "RD ← 2OP"⟩, some ⟨0, "RI ← (PC), PC + 1"⟩]) := by
  obtain ⟨h, hr⟩ := ready_all ⟨0, 0, 7, 0, 0, 0, 0, false, false, fun _ => 0x01, []⟩ rfl
  obtain ⟨h', ms⟩ := hr.microstates true
  obtain ⟨ph, r, on, ui, _⟩ := hr
  have ms' : Microstates true h [0, 1, 2, 3] h' := ms
  have hn : ∀ {l : List CInt} {h h' : H}, Microstates true h l h' → NextState h' 0 := by
    intro l h h' m
    induction m with
    | last _ _ done => exact done
    | more _ _ _ _ _ ih => exact ih
  obtain ⟨n, n1, e⟩ := C53_executed ph h h' _ r on ui ms'.shown (by simp)
  have : n = 0 := some_inj (n1.symm.trans (hn ms'))
  subst this
  exact ⟨ph, h, h', r, on, ui, ms'.shown, e⟩

/-- The text of S3 in `MOV C, B` with C = 7 is about B: 2OP holds 7, RD is B. -/
example : ∃ v v' : V, v.op2 = 7 ∧ v'.b = 7 ∧ v.b = 0 ∧ decode v.ri = some (.mov (.reg .c) (.reg .b)) ∧
    Told (decode v.ri) "RD ← 2OP" v v' := by
  refine ⟨⟨0, 0, 7, 0, 0, 0, 0, 7, 0, 0, 1, 1, 0, false, false, fun _ => 1, []⟩,
    ⟨0, 7, 7, 0, 0, 0, 0, 7, 0, 0, 1, 1, 0, false, false, fun _ => 1, []⟩, rfl, rfl, rfl, by decide, ?_⟩
  exact ⟨[(.rd, .op2)], _, by decide +kernel, rfl, rfl⟩

/-- A text is wrong about a machine that did something else. -/
example : ∃ v v' : V, ¬ Told (some (.inc (.reg .c))) "RD ← 2OP+1" v v' := by
  refine ⟨⟨0, 0, 7, 0, 0, 0, 0, 7, 0, 0, 0x2D, 1, 0, false, false, fun _ => 1, []⟩,
    ⟨0, 8, 7, 0, 0, 0, 0, 7, 0, 0, 0x2D, 1, 0, false, false, fun _ => 1, []⟩, ?_⟩
  rintro ⟨ts, w, e1, e2, e3⟩
  have : transfersOf "RD ← 2OP+1" = some [(.rd, .op2Inc)] := by decide +kernel
  rw [this] at e1; cases e1
  cases e2
  have := congrArg V.b e3
  exact absurd this (by decide)

/-- A session with saving, running, notifying and clearing respects the lifecycle. -/
example (ph : Phase) (on : ph.on = true) (ui : ph.ui = true) :
    LegalEvents ph [.call .resetControl, .call (.setMemoryValue 0 0x2D), .call (.runClockCycle true),
      .clear, .call (.runClockCycle false), .notify] ph :=
  ⟨on, ⟨on, ui, by decide, by decide⟩, ⟨on, fun _ => ui⟩, trivial, ⟨on, fun h => by cases h⟩, on, rfl⟩
end Mpp
