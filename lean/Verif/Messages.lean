import Verif.History
/-!
# The messages published by a history

`published` lists the messages that a call publishes; `record` keeps the last one of each topic.
Used to state the coherence of the buses (C23).
-/
namespace Mpp

/-- A published message. -/
abbrev Message := Topic × W

/-- The message published by one primitive. -/
def Op.message : Op → List Message
  | .pub t w => [(t, w)]
  | _ => []

/-- The messages published by component code run from `h`, in order. -/
def Prog.published {α} : Prog α → H → List Message
  | .pure _, _ => []
  | .op o k, h => o.message ++
    match H.handle o h with
    | none => []
    | some r => (k r.1).published r.2

/-- Messages of the clock loop (see `clockLoop`). -/
def clockPublished : Nat → H → List Message
  | 0, _ => []
  | n + 1, h =>
    let tick := !h.clk
    (runCu tick).published { h with clk := tick } ++
    match H.run (runCu tick) { h with clk := tick } with
    | none => []
    | some (_, h) => if tick then [] else clockPublished n h

/-- Messages published by one API call. -/
def Call.published : Call → H → List Message
  | .runClockCycle _, h => clockPublished 2 h
  | .resetControl, h => Mpp.resetControl.published h
  | .setRegisterPc v, h =>
    match h.getRegister .pc with
    | none => []
    | some r => (do setReg r v; publish .pcOut (← Mpp.getReg r) : Prog Unit).published h
  | _, _ => []

/-- The last message of each topic. -/
def record (g : Topic → W) (ms : List Message) : Topic → W :=
  ms.foldl (fun g m => upd g m.1 m.2) g

/-- The last message of each topic since the last `init`; zero if there was none. -/
def lastMessages : List Call → H → (Topic → W) → (Topic → W)
  | [], _, g => g
  | c :: cs, h, g =>
    let g' := match c with
      | .init _ => fun _ => 0
      | _ => record g (c.published h)
    match exec c h with
    | none => g'
    | some r => lastMessages cs r.2 g'

theorem record_append (g : Topic → W) (ms ns : List Message) :
    record g (ms ++ ns) = record (record g ms) ns := List.foldl_append

theorem message_topic {o : Op} {h h' : H} {t : T} {x : o.ret} (r : Rep h t)
    (e : H.handle o h = some (x, h')) : ∃ t', Rep h' t' ∧ t'.topic = record t.topic o.message := by
  have s := sim_op o r
  rw [e] at s
  cases o with
  | ub => cases e
  | pub tp w => exact ⟨_, s.2.1, rfl⟩
  | upd sl => exact ⟨_, s.2.1, rfl⟩
  | cur sl => exact ⟨_, s.2.1, rfl⟩
  | nxt sl => exact ⟨_, s.2.1, rfl⟩
  | getReg rr => exact ⟨_, s.2.1, rfl⟩
  | setReg rr w => exact ⟨_, s.2.1, rfl⟩
  | memGet i => exact ⟨_, s.2.1, rfl⟩
  | memSet i v => exact ⟨_, s.2.1, rfl⟩
  | err er => exact ⟨_, s.2.1, rfl⟩

theorem published_topic {α} (p : Prog α) {h h' : H} {t : T} {v : α} (r : Rep h t)
    (e : H.run p h = some (v, h')) :
    ∃ t', Rep h' t' ∧ t'.topic = record t.topic (p.published h) := by
  induction p generalizing h t with
  | pure a => cases e; exact ⟨t, r, rfl⟩
  | op o k ih =>
    have e : (H.handle o h).bind (fun x => H.run (k x.1) x.2) = some (v, h') := e
    cases ho : H.handle o h with
    | none => rw [ho] at e; cases e
    | some x =>
      rw [ho] at e
      obtain ⟨t1, r1, e1⟩ := message_topic r ho
      obtain ⟨t2, r2, e2⟩ := ih x.1 r1 e
      refine ⟨t2, r2, ?_⟩
      simp only [Prog.published, ho]
      rw [record_append, e2, e1]

theorem clock_topic (n : Nat) {h h' : H} {t : T} (r : Rep h t) (e : clockLoop n h = some h') :
    ∃ t', Rep h' t' ∧ t'.topic = record t.topic (clockPublished n h) := by
  induction n generalizing h t with
  | zero => cases e
  | succ n ih =>
    simp only [clockLoop] at e
    have r0 : Rep { h with clk := !h.clk } t := r.congr rfl rfl rfl rfl rfl rfl
    cases hx : H.run (runCu !h.clk) { h with clk := !h.clk } with
    | none => rw [hx] at e; cases e
    | some x =>
      rw [hx] at e
      obtain ⟨t1, r1, e1⟩ := published_topic _ r0 hx
      simp only [clockPublished, hx]
      simp only at e
      split at e
      · rename_i hc
        cases e
        refine ⟨t1, r1, ?_⟩
        rw [if_pos hc, List.append_nil, e1]
      · rename_i hc
        obtain ⟨t2, r2, e2⟩ := ih r1 e
        refine ⟨t2, r2, ?_⟩
        rw [if_neg hc, record_append, e2, e1]

/-- One call on a running machine keeps the copies and the recorded messages in step. -/
theorem call_topic {p : Phase} (c : Call) (hc : c.Allowed p) (hp : p.on = true)
    (hs : (c.after p).on = true) (hn : ∀ rand, c ≠ .init rand) {h h' : H} {t : T} {v : CInt} (i : Inv p h) (r : Rep h t)
    (e : exec c h = some (v, h')) :
    ∃ t', Rep h' t' ∧ t'.topic = record t.topic (c.published h) := by
  have same : h' = h → ∃ t', Rep h' t' ∧ t'.topic = t.topic := fun e => ⟨t, e ▸ r, rfl⟩
  obtain ⟨a, o⟩ := i.on hp
  cases c with
  | init rand => exact absurd rfl (hn rand)
  | shutdown => cases hs
  | setUpdateUi b => cases e; exact ⟨t, r.congr rfl rfl rfl rfl rfl rfl, rfl⟩
  | runClockCycle u =>
    simp only [exec] at e
    cases hx : clockLoop 2 h with
    | none => rw [hx] at e; cases e
    | some x =>
      rw [hx] at e
      have : h' = x := by
        simp only [Option.bind_some, H.callUi] at e
        split at e
        · split at e
          · cases e; rfl
          · cases e
        · cases e; rfl
      subst this
      exact clock_topic 2 r hx
  | resetControl =>
    simp only [exec] at e
    cases hx : H.run Mpp.resetControl h with
    | none => rw [hx] at e; cases e
    | some x =>
      rw [hx] at e
      cases e
      exact published_topic _ r hx
  | setMemoryValue offset value =>
    simp only [exec] at e
    cases hg : getValueByOffset offset with
    | none => rw [hg] at e; cases e
    | some j =>
      rw [hg] at e
      simp only [H.handle, r.mem, Option.bind_some, H.callUi] at e
      split at e
      · cases e
        exact message_topic (o := .memSet j value) (x := ()) r (by simp only [H.handle, r.mem])
      · cases e
  | setRegisterPc value =>
    simp only [exec, Call.published, getRegister_all h o.watch .pc] at e ⊢
    cases hx : H.run (do setReg WType.pc.theReg value; publish .pcOut (← Mpp.getReg WType.pc.theReg)) h with
    | none => rw [hx] at e; cases e
    | some x =>
      rw [hx] at e
      have : h' = x.2 := by
        simp only [Option.bind_some, H.callUi] at e
        split at e
        · cases e; rfl
        · cases e
      subst this
      exact published_topic _ r hx
  | getRegisterValue ty => exact same (by rw [o.getReg ty] at e; cases e; rfl)
  | getMemoryValue offset =>
    refine same ?_
    by_cases ha : IsAddr offset
    · have := o.getMemory (offset.setWidth 16)
      rw [ha.eq, e] at this; cases this; rfl
    · rw [On.getMemory_out ha] at e; cases e; rfl
  | getMemorySize => cases e; exact same rfl
  | getMemoryValueSizeBits => cases e; exact same rfl
  | getState => exact same (by rw [o.getState] at e; cases e; rfl)
  | getNextState => exact same (by rw [o.getNextState] at e; cases e; rfl)
  | getDataBus => exact same (by rw [o.getDataBus] at e; cases e; rfl)
  | getMemoryDirBus => exact same (by rw [o.getMemoryDirBus] at e; cases e; rfl)
  | getControlBit k => exact same (by rw [o.getControlBit k] at e; cases e; rfl)
  | getControlSelalu => exact same (by rw [o.getControlSelalu] at e; cases e; rfl)

/-- The copies held by the bus variables against the recorded messages, over whole histories. -/
theorem history_topic (cs : List Call) : ∀ {p q : Phase} {h h' : H} {g : Topic → W} {vs : List CInt},
    Inv p h → (p.on = true → ∃ t, Rep h t ∧ t.topic = g) → Legal p cs q →
    execAll cs h = some (vs, h') → q.on = true → ∃ t, Rep h' t ∧ t.topic = lastMessages cs h g := by
  induction cs with
  | nil =>
    intro p q h h' g vs i hg hl e hq
    cases hl; cases e
    exact hg hq
  | cons c cs ih =>
    intro p q h h' g vs i hg hl e hq
    obtain ⟨v, h1, e1, i1⟩ := i.call c hl.1
    simp only [execAll, e1, Option.bind_some] at e
    cases e2 : execAll cs h1 with
    | none => rw [e2] at e; cases e
    | some x =>
      rw [e2] at e
      have hx : x.2 = h' := by simp only [Option.map_some, Option.some.injEq, Prod.mk.injEq] at e; exact e.2
      subst hx
      simp only [lastMessages, e1]
      refine ih i1 (fun hs => ?_) hl.2 e2 hq
      by_cases hn : ∃ rand, c = .init rand
      · obtain ⟨rand, rfl⟩ := hn
        have lt : p.inits < 27183337 := hl.1
        obtain ⟨h2, e3, o, _⟩ := i.any.init rand (by rw [i.count]; omega)
        rw [e1] at e3
        cases e3
        obtain ⟨h3, e4, r4, _⟩ := Rep.init rand i.any.good (by rw [i.count]; omega)
        have : h3 = h1 := by
          simp only [exec, e4, Option.map_some] at e1
          cases e1; rfl
        subst this
        exact ⟨_, r4, rfl⟩
      · have hn : ∀ rand, c ≠ .init rand := fun rand e => hn ⟨rand, e⟩
        have hp : p.on = true := by
          cases c with
          | init rand => exact absurd rfl (hn rand)
          | shutdown => cases hs
          | _ => exact hs
        obtain ⟨t, r, rfl⟩ := hg hp
        have := call_topic c hl.1 hp hs hn i r e1
        cases c with
        | init rand => exact absurd rfl (hn rand)
        | _ => exact this

end Mpp
