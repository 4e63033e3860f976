import Verif.History
/-!
# Properties of the library layer: words, lists, publish/subscribe, ALU and multiplexers
-/
namespace Mpp

/-! ## C24 -/

/-- **C24.** Converting a non-negative `int` to a word and back gives the same `int`, without
undefined behaviour. -/
theorem C24_roundtrip (n : CInt) (h : 0 ≤ n.toInt) : cWordToInt (cIntToWord n) = some n := by
  rw [cIntToWord_eq, cWordToInt_unpack]
  have : n.msb = false := by
    rw [BitVec.msb_eq_decide]
    rw [BitVec.toInt_eq_msb_cond] at h
    simp only [decide_eq_false_iff_not]
    intro hc
    rw [if_pos (by rw [BitVec.msb_eq_decide]; simpa using hc)] at h
    have := n.isLt
    omega
  simp [wordToInt, this]

example : ∃ n : CInt, 0 ≤ n.toInt ∧ n = 0x7FFFFFFF := ⟨_, by decide, rfl⟩

/-- **C24.** The bits of the word are the binary digits of the `int`, 0 or 1. -/
theorem C24_bits (n : CInt) (i : Fin 32) :
    ((cIntToWord n).bits i = 0 ∨ (cIntToWord n).bits i = 1) ∧
      ((cIntToWord n).bits i = 1 ↔ n.toNat.testBit i = true) := by
  rw [cIntToWord_eq]
  show ((if n.getLsbD i then (1 : CInt) else 0) = 0 ∨ _) ∧ _
  have : n.getLsbD i = n.toNat.testBit i := rfl
  unfold unpack
  simp only [this]
  cases n.toNat.testBit i <;> simp

/-- **C24.** `get_used_bits` is the number of significant bits. -/
theorem C24_used (n : CInt) (k : Nat) : cUsedBits (cIntToWord n) ≤ k ↔ n.toNat < 2 ^ k := by
  rw [cIntToWord_eq, cUsedBits_unpack, usedBits_le]

theorem pack_exists {n : Nat} (f : Nat → Bool) : ∃ v : BitVec n, ∀ i < n, v.getLsbD i = f i := by
  induction n with
  | zero => exact ⟨0#0, fun i h => absurd h (Nat.not_lt_zero _)⟩
  | succ n ih =>
    obtain ⟨v, hv⟩ := ih
    refine ⟨BitVec.cons (f n) v, fun i h => ?_⟩
    rw [BitVec.getLsbD_cons]
    split
    · rename_i e; rw [e]
    · exact hv i (by omega)

/-- **C24.** `word_to_int` of a word of 0/1 bits is undefined exactly if bit 31 is set; otherwise it
is the number with these binary digits. -/
theorem C24_back (w : CWord) (hw : ∀ i, w.bits i = 0 ∨ w.bits i = 1) :
    (w.bits 31 = 1 → cWordToInt w = none) ∧
    (w.bits 31 = 0 → ∃ n : CInt, cWordToInt w = some n ∧
      ∀ i : Fin 32, w.bits i = 1 ↔ n.toNat.testBit i = true) := by
  obtain ⟨v, hv⟩ := pack_exists (n := 32) fun i => if h : i < 32 then decide (w.bits ⟨i, h⟩ = 1) else false
  replace hv : ∀ i : Fin 32, v.getLsbD i = decide (w.bits i = 1) := by
    intro i
    rw [hv i i.isLt, dif_pos i.isLt]
  have e : w = unpack v := by
    apply CWord.ext
    intro i
    show _ = if v.getLsbD i then (1 : CInt) else 0
    rw [hv]
    rcases hw i with h | h <;> rw [h] <;> rfl
  have hm : v.msb = v.getLsbD (31 : Fin 32) := rfl
  constructor
  · intro h
    rw [e, cWordToInt_unpack, wordToInt, hm, hv, h]; rfl
  · intro h
    refine ⟨v, ?_, fun i => ?_⟩
    · rw [e, cWordToInt_unpack, wordToInt, hm, hv, h]; rfl
    · have : v.toNat.testBit i = v.getLsbD i := rfl
      rw [this, hv]; simp

/-! ## C25 -/

/-- **C25.** Appending (`push_ll_node` on a non-empty list, a fresh head node otherwise) adds the
value at the end of the list. -/
theorem C25_append {α} [DecidableEq α] {h : LL.Heap α} {head : Option Nat} {vs : List α}
    (hr : LL.Repr h head vs) (v : α) :
    ∃ head' h', LL.append h head v = some (head', h') ∧ LL.Repr h' head' (vs ++ [v]) :=
  LL.append_repr hr v

/-- **C25.** `delete_node_from_value` removes the first node with the value and reports success;
without such a node it reports 0 and changes nothing. -/
theorem C25_delete {α} [DecidableEq α] {h : LL.Heap α} {head : Option Nat} (pre post : List α)
    (v : α) (hp : v ∉ pre) (hr : LL.Repr h head (pre ++ v :: post)) :
    ∃ head' h', LL.delete h head v = some (true, head', h') ∧ LL.Repr h' head' (pre ++ post) := by
  obtain ⟨head', h', e, r, _⟩ := LL.delete_repr hr v
  rw [LL.erase_first hp] at r
  exact ⟨head', h', by simpa using e, r⟩

theorem C25_delete_absent {α} [DecidableEq α] {h : LL.Heap α} {head : Option Nat} {vs : List α}
    (v : α) (hv : v ∉ vs) (hr : LL.Repr h head vs) :
    LL.delete h head v = some (false, head, h) := by
  obtain ⟨head', h', e, _, hk⟩ := LL.delete_repr hr v
  obtain ⟨rfl, rfl⟩ := hk hv
  simpa [hv] using e

/-- Lists of every content exist. -/
theorem LL.repr_exists {α} [DecidableEq α] (vs : List α) :
    ∃ (h : LL.Heap α) (head : Option Nat), LL.Repr h head vs := by
  have key : ∀ ws us : List α, (∃ (h : LL.Heap α) (head : Option Nat), LL.Repr h head us) →
      ∃ (h : LL.Heap α) (head : Option Nat), LL.Repr h head (us ++ ws) := by
    intro ws
    induction ws with
    | nil => intro us h; rw [List.append_nil]; exact h
    | cons w ws ih =>
      rintro us ⟨h, head, r⟩
      obtain ⟨head', h', _, r'⟩ := LL.append_repr r w
      have := ih (us ++ [w]) ⟨h', head', r'⟩
      rwa [List.append_assoc] at this
  exact key vs [] ⟨⟨fun _ => none, 0⟩, none, [], rfl, by simp, by simp, rfl⟩

example : ∃ (h : LL.Heap Nat) (head : Option Nat), LL.Repr h head ([1, 2] ++ 3 :: [2, 3]) :=
  LL.repr_exists _

/-! ## C21 -/

/-- The subscriptions in the list that are active and for topic `t`, in list order. -/
def Receivers (p : PS) (t : Topic) : List Nat :=
  p.order.filter fun id => (p.subs id).any fun s => s.active && decide (s.topic = t)

theorem receives_eq (p : PS) (t : Topic) :
    p.order.filter (PS.receives p.subs t) = Receivers p t := by
  unfold Receivers
  congr 1
  funext id
  unfold PS.receives
  cases p.subs id with
  | none => rfl
  | some s => rfl

/-- **C21.** A message that a middleware of its topic rejects is not delivered: the result is -1
and nothing changes. -/
theorem C21_rejected (p : PS) (t : Topic) (w : W) (h : ∃ f, (t, f) ∈ p.mws ∧ f w = false) :
    p.publish t w = some (none, p) := by
  obtain ⟨f, hm, hf⟩ := h
  have : PS.middlewaresPass t w p.mws = false := by
    rw [Bool.eq_false_iff, ne_eq, PS.middlewaresPass_iff]
    intro hc
    have := hc _ hm rfl
    simp only [hf] at this
    cases this
  simp [PS.publish, this]

/-- **C21.** Otherwise exactly the buses of active subscriptions to the topic receive the message,
the result is the number of these subscriptions, and nothing else changes. -/
theorem C21_delivers (p : PS) (t : Topic) (w : W) (hm : ∀ f, (t, f) ∈ p.mws → f w = true)
    (ho : ∀ id ∈ p.order, ∃ s, p.subs id = some s ∧
      (s.active = true → ∃ a b, s.bus = some a ∧ p.heap a = some b)) :
    ∃ heap', p.publish t w = some (some (Receivers p t).length, { p with heap := heap' }) ∧
      ∀ a, ((∃ id ∈ Receivers p t, ∃ s, p.subs id = some s ∧ s.bus = some a) →
          ∃ b, p.heap a = some b ∧ heap' a = some { b with next := w }) ∧
        ((∀ id ∈ Receivers p t, ∀ s, p.subs id = some s → s.bus ≠ some a) → heap' a = p.heap a) := by
  obtain ⟨heap', h1, h2⟩ := PS.deliver_spec p.subs t w p.order p.heap 0 ho
  have hp : PS.middlewaresPass t w p.mws = true := by
    rw [PS.middlewaresPass_iff]; rintro ⟨t', f⟩ h rfl; exact hm f h
  have key : ∀ a, (∃ id ∈ p.order, PS.Delivers p.subs t id a) ↔
      ∃ id ∈ Receivers p t, ∃ s, p.subs id = some s ∧ s.bus = some a := by
    intro a
    constructor
    · rintro ⟨id, hid, s, e1, e2, e3, e4⟩
      exact ⟨id, List.mem_filter.2 ⟨hid, by simp [e1, e2, e3]⟩, s, e1, e4⟩
    · rintro ⟨id, hid, s, e1, e4⟩
      obtain ⟨g1, g2⟩ := List.mem_filter.1 hid
      simp only [e1, Option.any_some, Bool.and_eq_true, decide_eq_true_eq] at g2
      exact ⟨id, g1, s, e1, g2.1, g2.2, e4⟩
  refine ⟨heap', ?_, fun a => ⟨fun h => ?_, fun h => ?_⟩⟩
  · simp only [PS.publish, hp, if_true, h1, receives_eq, Nat.zero_add]
  · have h' := (key a).2 h
    obtain ⟨id, hid, s, e1, e2, e3, e4⟩ := h'
    obtain ⟨s', e1', hl⟩ := ho id hid
    rw [e1] at e1'; cases e1'
    obtain ⟨a', b, e5, e6⟩ := hl e2
    rw [e4] at e5; cases e5
    exact ⟨b, e6, by rw [(h2 a).1 ((key a).2 h), e6]; rfl⟩
  · apply (h2 a).2
    intro hc
    obtain ⟨id, hid, s, e1, e4⟩ := (key a).1 hc
    exact h id hid s e1 e4

/-! ## C22: histories of the publish/subscribe library -/

/-- Operations of `pubsub.c` and `bus.c`. -/
inductive PSOp
  | create
  | subscribe (t : Topic) (bus : Option Nat)
  | unsubscribe (sub : Option Nat)
  | publish (t : Topic) (w : W)
  | destroy (bus : Option Nat)
  | middleware (t : Topic) (f : W → Bool)

/-- One operation: the id returned by `subscribe_to`, and the new state. -/
def PSOp.exec (p : PS) : PSOp → Option (List Nat × PS)
  | .create => some ([], p.createBus.2)
  | .subscribe t bus => (p.subscribe t bus).map fun r => ([r.1], r.2)
  | .unsubscribe sub => (p.unsubscribe sub).map fun r => ([], r.2)
  | .publish t w => (p.publish t w).map fun r => ([], r.2)
  | .destroy bus => (p.destroyBus bus).map fun r => ([], r)
  | .middleware t f => some ([], p.addMiddleware t f)

/-- A history of operations: all ids returned by `subscribe_to`, in order, and the final state. -/
def psRun : List PSOp → PS → Option (List Nat × PS)
  | [], p => some ([], p)
  | o :: os, p => (o.exec p).bind fun r => (psRun os r.2).map fun q => (r.1 ++ q.1, q.2)

/-- What every history keeps. -/
structure PSInv (p : PS) : Prop where
  nodup : p.order.Nodup
  lt : ∀ id, p.subs id ≠ none → id < p.count
  mem : ∀ id ∈ p.order, p.subs id ≠ none

theorem PSInv.empty : PSInv PS.empty :=
  ⟨List.nodup_nil, fun _ h => absurd rfl h, fun _ h => by cases h⟩

/-- Subscription `id` is gone for good. -/
structure Gone (id : Nat) (p : PS) : Prop where
  notin : id ∉ p.order
  inact : ∃ s, p.subs id = some s ∧ s.active = false

theorem psop_step {p q : PS} {o : PSOp} {ids : List Nat} (i : PSInv p)
    (e : o.exec p = some (ids, q)) :
    PSInv q ∧ p.count ≤ q.count ∧ (∀ k ∈ ids, p.count ≤ k ∧ k < q.count) ∧ ids.Pairwise (· < ·) ∧
      (∀ id, Gone id p → Gone id q) := by
  cases o with
  | create =>
    cases e
    exact ⟨⟨i.nodup, i.lt, i.mem⟩, Nat.le_refl _, by simp, by simp, fun id g => ⟨g.notin, g.inact⟩⟩
  | middleware t f =>
    cases e
    exact ⟨⟨i.nodup, i.lt, i.mem⟩, Nat.le_refl _, by simp, by simp, fun id g => ⟨g.notin, g.inact⟩⟩
  | destroy bus =>
    simp only [PSOp.exec, PS.destroyBus] at e
    cases bus with
    | none => cases e; exact ⟨i, Nat.le_refl _, by simp, by simp, fun _ g => g⟩
    | some a =>
      simp only at e
      split at e
      · cases e
      · cases e
        exact ⟨⟨i.nodup, i.lt, i.mem⟩, Nat.le_refl _, by simp, by simp,
          fun id g => ⟨g.notin, g.inact⟩⟩
  | publish t w =>
    simp only [PSOp.exec, PS.publish] at e
    split at e
    · split at e
      · cases e
      · cases e
        exact ⟨⟨i.nodup, i.lt, i.mem⟩, Nat.le_refl _, by simp, by simp,
          fun id g => ⟨g.notin, g.inact⟩⟩
    · cases e; exact ⟨i, Nat.le_refl _, by simp, by simp, fun _ g => g⟩
  | subscribe t bus =>
    simp only [PSOp.exec, PS.subscribe] at e
    split at e
    · cases e
      have hn : p.subs p.count = none := by
        cases h : p.subs p.count with
        | none => rfl
        | some s => exact absurd (i.lt _ (by rw [h]; simp)) (Nat.lt_irrefl _)
      have hno : p.count ∉ p.order := fun h => i.mem _ h hn
      refine ⟨⟨?_, ?_, ?_⟩, Nat.le_succ _, by simp, by simp, fun id g => ?_⟩
      · rw [List.nodup_append]
        refine ⟨i.nodup, by simp, ?_⟩
        intro a ha b hb
        simp only [List.mem_singleton] at hb
        subst hb
        exact fun e => hno (e ▸ ha)
      · intro id h
        simp only [upd_apply] at h
        split at h
        · rename_i e; subst e; exact Nat.lt_succ_self _
        · exact Nat.lt_succ_of_lt (i.lt id h)
      · intro id h
        simp only [List.mem_append, List.mem_singleton] at h
        simp only [upd_apply]
        split
        · simp
        · rcases h with h | h
          · exact i.mem id h
          · contradiction
      · have hne : id ≠ p.count := by
          obtain ⟨s, hs, _⟩ := g.inact
          exact fun e => by rw [e, hn] at hs; cases hs
        refine ⟨?_, ?_⟩
        · simp only [List.mem_append, List.mem_singleton, not_or]
          exact ⟨g.notin, hne⟩
        · simp only [upd_apply, hne, if_false]; exact g.inact
    · cases e
  | unsubscribe sub =>
    simp only [PSOp.exec, PS.unsubscribe] at e
    cases sub with
    | none => cases e; exact ⟨i, Nat.le_refl _, by simp, by simp, fun _ g => g⟩
    | some k =>
      simp only at e
      split at e
      · cases e; exact ⟨i, Nat.le_refl _, by simp, by simp, fun _ g => g⟩
      · split at e
        · cases e
        · rename_i s hs
          split at e
          · cases e; exact ⟨i, Nat.le_refl _, by simp, by simp, fun _ g => g⟩
          · split at e
            · cases e
              refine ⟨⟨i.nodup.erase _, ?_, ?_⟩, Nat.le_refl _, by simp, by simp, fun id g => ?_⟩
              · intro id h
                simp only [upd_apply] at h
                split at h
                · rename_i e; subst e; exact i.lt _ (by rw [hs]; simp)
                · exact i.lt id h
              · intro id h
                simp only [upd_apply]
                split
                · simp
                · exact i.mem id (List.mem_of_mem_erase h)
              · refine ⟨fun h => g.notin (List.mem_of_mem_erase h), ?_⟩
                simp only [upd_apply]
                split
                · exact ⟨_, rfl, rfl⟩
                · exact g.inact
            · cases e
              have : upd p.subs k (some { s with active := s.active }) = p.subs := by
                funext j
                simp only [upd_apply]
                split
                · rename_i e; rw [e, hs]
                · rfl
              rw [this]
              exact ⟨i, Nat.le_refl _, by simp, by simp, fun _ g => g⟩

theorem ps_history {p q : PS} {ids : List Nat} (os : List PSOp) (i : PSInv p)
    (e : psRun os p = some (ids, q)) :
    PSInv q ∧ p.count ≤ q.count ∧ (∀ k ∈ ids, p.count ≤ k ∧ k < q.count) ∧ ids.Pairwise (· < ·) ∧
      (∀ id, Gone id p → Gone id q) := by
  induction os generalizing p ids with
  | nil => cases e; exact ⟨i, Nat.le_refl _, by simp, by simp, fun _ g => g⟩
  | cons o os ih =>
    simp only [psRun] at e
    cases h1 : o.exec p with
    | none => rw [h1] at e; cases e
    | some r =>
      rw [h1] at e
      obtain ⟨ids1, p1⟩ := r
      simp only [Option.bind_some] at e
      cases h2 : psRun os p1 with
      | none => rw [h2] at e; cases e
      | some r2 =>
        rw [h2] at e
        obtain ⟨ids2, p2⟩ := r2
        cases e
        obtain ⟨i1, c1, k1, w1, g1⟩ := psop_step i h1
        obtain ⟨i2, c2, k2, w2, g2⟩ := ih i1 h2
        refine ⟨i2, Nat.le_trans c1 c2, ?_, ?_, fun id g => g2 id (g1 id g)⟩
        · intro k hk
          rcases List.mem_append.1 hk with h | h
          · exact ⟨(k1 k h).1, Nat.lt_of_lt_of_le (k1 k h).2 c2⟩
          · exact ⟨Nat.le_trans c1 (k2 k h).1, (k2 k h).2⟩
        · rw [List.pairwise_append]
          exact ⟨w1, w2, fun a ha b hb => Nat.lt_of_lt_of_le (k1 a ha).2 (k2 b hb).1⟩

/-- **C22.** Ids returned by `subscribe_to` in one history are strictly increasing, so no id is
ever returned twice. -/
theorem C22_fresh_ids {q : PS} {ids : List Nat} (os : List PSOp)
    (e : psRun os PS.empty = some (ids, q)) : ids.Pairwise (· < ·) :=
  (ps_history os PSInv.empty e).2.2.2.1

theorem unsub_true {p q : PS} {id : Nat} (e : p.unsubscribe (some id) = some (true, q)) :
    ∃ s, p.subs id = some s ∧ id ∈ p.order ∧
      q = { p with subs := upd p.subs id (some { s with active := false }),
                   order := p.order.erase id } := by
  simp only [PS.unsubscribe] at e
  split at e
  · cases e
  · split at e
    · cases e
    · rename_i s hs
      split at e
      · cases e
      · split at e
        · cases e; exact ⟨s, hs, by assumption, rfl⟩
        · cases e

/-- **C22.** Unsubscribing takes exactly this subscription out of the receivers of every topic; the
others stay, in the same order. Buses are untouched. -/
theorem C22_others {p q : PS} {ids : List Nat} (os : List PSOp)
    (e : psRun os PS.empty = some (ids, p)) {id : Nat}
    (u : p.unsubscribe (some id) = some (true, q)) (t : Topic) :
    Receivers q t = (Receivers p t).filter (fun k => decide (k ≠ id)) ∧ q.heap = p.heap ∧
      ∀ k, k ≠ id → q.subs k = p.subs k := by
  have i := (ps_history os PSInv.empty e).1
  obtain ⟨s, hs, hin, rfl⟩ := unsub_true u
  refine ⟨?_, rfl, fun k hk => upd_ne _ _ hk⟩
  unfold Receivers
  simp only
  rw [i.nodup.erase_eq_filter, List.filter_filter, List.filter_filter]
  apply List.filter_congr
  intro k _
  by_cases h : k = id
  · subst h; simp
  · simp [h]

/-- **C22.** After a successful `unsubscribe_for`, whatever happens next, the subscription is never
among the receivers of any topic again (see `C21_delivers` for what this means), and unsubscribing
it again returns false and changes nothing. -/
theorem C22_stops {p p1 q : PS} {ids ids' : List Nat} (os os' : List PSOp)
    (e : psRun os PS.empty = some (ids, p)) {id : Nat}
    (u : p.unsubscribe (some id) = some (true, p1)) (e' : psRun os' p1 = some (ids', q)) :
    (∀ t, id ∉ Receivers q t) ∧ q.unsubscribe (some id) = some (false, q) := by
  have i := (ps_history os PSInv.empty e).1
  obtain ⟨i1, _, _, _, _⟩ := psop_step (o := .unsubscribe (some id)) (ids := []) (q := p1) i
    (by simp only [PSOp.exec, u, Option.map_some])
  have hg : Gone id p1 := by
    obtain ⟨s, hs, hin, rfl⟩ := unsub_true u
    exact ⟨fun h => (List.Nodup.not_mem_erase i.nodup) h, ⟨_, upd_same _ _ _, rfl⟩⟩
  obtain ⟨i2, _, _, _, g⟩ := ps_history os' i1 e'
  have g := g id hg
  refine ⟨fun t h => g.notin (List.mem_filter.1 h).1, ?_⟩
  obtain ⟨s, hs, _⟩ := g.inact
  simp only [PS.unsubscribe]
  split
  · rfl
  · simp only [hs]
    rw [if_neg (by have := i2.lt id (by rw [hs]; simp); omega), if_neg g.notin]
    congr 2
    have : upd q.subs id (some s) = q.subs := by
      funext j
      simp only [upd_apply]
      split
      · rename_i e; rw [e, hs]
      · rfl
    rw [this]

/-- Two subscriptions to the data bus; the first is removed. -/
example : ∃ p q ids, psRun [.create, .create, .subscribe .data (some 0), .subscribe .data (some 1)]
    PS.empty = some (ids, p) ∧ p.unsubscribe (some 0) = some (true, q) ∧
    Receivers p .data = [0, 1] ∧ Receivers q .data = [1] := by
  refine ⟨_, _, _, rfl, rfl, ?_, ?_⟩ <;> rfl

/-- A publisher with two subscribers of the topic, one of another topic, and a middleware that
rejects zero. -/
example : ∃ p ids, psRun [.create, .create, .create, .subscribe .data (some 0),
    .subscribe .control (some 1), .subscribe .data (some 2), .middleware .data (fun w => w ≠ 0)]
    PS.empty = some (ids, p) ∧ Receivers p .data = [0, 2] ∧
    (∀ f, (Topic.data, f) ∈ p.mws → f 7 = true) ∧ (∃ f, (Topic.data, f) ∈ p.mws ∧ f 0 = false) ∧
    (p.publish .data 7).map Prod.fst = some (some 2) ∧ (p.publish .data 0).map Prod.fst = some none := by
  refine ⟨_, _, rfl, rfl, ?_, ⟨fun w => w ≠ 0, List.mem_singleton.2 rfl, rfl⟩, rfl, rfl⟩
  intro f hf
  have e := List.mem_singleton.1 (hf : (Topic.data, f) ∈ [(Topic.data, fun w : W => decide (w ≠ 0))])
  rw [(Prod.mk.inj e).2]
  rfl

/-! ## C35 -/

/-- The eight operations of the ALU on numbers below 256. -/
def aluSpec (sel x y : Nat) : Nat :=
  match sel with
  | 0 => (x + y) % 256
  | 1 => (x + 256 - y) % 256
  | 2 => x &&& y
  | 3 => x ||| y
  | 4 => x ^^^ y
  | 5 => 255 - x
  | 6 => y
  | _ => (y + 1) % 256

/-- Carry of the addition, borrow of the subtraction. -/
def aluCarrySpec (sel x y : Nat) : Bool :=
  match sel with
  | 0 => decide (x + y > 255)
  | 1 => decide (x < y)
  | _ => false

/-- The selection on the control bus. -/
def aluSel (c : W) : Nat :=
  (c.getLsbD 28).toNat + 2 * (c.getLsbD 29).toNat + 4 * (c.getLsbD 30).toNat

theorem aluRes_spec (s2 s1 s0 : Bool) (x y : BitVec 8) : (A.aluRes s2 s1 s0 x y).toNat =
    aluSpec (s0.toNat + 2 * s1.toNat + 4 * s2.toNat) x.toNat y.toNat := by
  have hx := x.isLt
  have hy := y.isLt
  cases s2 <;> cases s1 <;> cases s0 <;>
    simp [A.aluRes, aluSpec, BitVec.toNat_add, BitVec.toNat_sub, BitVec.toNat_not] <;> omega

theorem aluCarry_spec (s2 s1 s0 : Bool) (x y : BitVec 8) : A.aluCarry s2 s1 s0 x y =
    aluCarrySpec (s0.toNat + 2 * s1.toNat + 4 * s2.toNat) x.toNat y.toNat := by
  cases s2 <;> cases s1 <;> cases s0 <;> simp [A.aluCarry, aluCarrySpec]

/-- The concrete state `h` shows the value `w` on topic `t`: every component's bus for this topic
holds it. -/
def OnBus (h : H) (t : Topic) (w : W) : Prop :=
  ∀ s : Slot, s.topic = t → ∃ b, h.ps.deref (h.busPtr s) = some b ∧ b.next = w

theorem Rep.onBus {h : H} {t : T} (r : Rep h t) (tp : Topic) : OnBus h tp (t.topic tp) := by
  rintro s rfl
  obtain ⟨a, b, id, h1, h2, _⟩ := r.live.slot s
  exact ⟨_, by simp only [PS.deref, h1]; exact r.bus s a h1, rfl⟩

theorem alu_run (t : T) (x y : BitVec 8) (hx : t.topic .acummOut = x.setWidth 32)
    (hy : t.topic .op2Out = y.setWidth 32) :
    ∃ t', T.run runAlu t = some ((), t') ∧
      t'.topic .aluFc = boolWord (aluCarrySpec (aluSel (t.topic .control)) x.toNat y.toNat) ∧
      t'.topic .aluFz = boolWord (aluSpec (aluSel (t.topic .control)) x.toNat y.toNat = 0) ∧
      t'.topic .data = (if (t.topic .control).getLsbD 16 then
        BitVec.ofNat 32 (aluSpec (aluSel (t.topic .control)) x.toNat y.toNat)
        else t.topic .data) ∧
      (∀ tp, tp ≠ .aluFc → tp ≠ .aluFz → tp ≠ .data → t'.topic tp = t.topic tp) ∧
      t'.regs = t.regs ∧ t'.mem = t.mem ∧ t'.log = t.log := by
  obtain ⟨r, k, e1, e2, e3⟩ := aluSwitch_typed ((t.topic .control).getLsbD CB.selalu2)
    ((t.topic .control).getLsbD CB.selalu1) ((t.topic .control).getLsbD CB.selalu0) x y
  have c := clear_8 r
  have v1 : ((r.setWidth 8).setWidth 32 : W) =
      BitVec.ofNat 32 (aluSpec (aluSel (t.topic .control)) x.toNat y.toNat) := by
    apply BitVec.eq_of_toNat_eq
    rw [e2, BitVec.toNat_setWidth, aluRes_spec, BitVec.toNat_ofNat]
    rfl
  have v2 : decide (((r.setWidth 8).setWidth 32 : W) = 0) =
      decide (aluSpec (aluSel (t.topic .control)) x.toNat y.toNat = 0) := by
    rw [zero_8, e2]
    congr 1
    apply propext
    rw [← BitVec.toNat_inj, aluRes_spec]
    exact Iff.rfl
  have v3 : (decide (usedBits r > 8) && k) =
      aluCarrySpec (aluSel (t.topic .control)) x.toNat y.toNat := by
    rw [e3, aluCarry_spec]; rfl
  have b16 : (t.topic .control).getLsbD CB.alubus = (t.topic .control).getLsbD 16 := rfl
  unfold runAlu
  simp only [run_bind', run_upd, run_cur, run_nxt, run_pub, Option.bind_some, T.setCur, upd_apply,
    Slot.topic, reduceIte, toInt_sel3, run_ppure, hx, hy, toInt_8, e1, v3, b16]
  generalize hv : ((r.setWidth 8).setWidth 32 : W) = v at c v1 v2
  generalize t.topic .control = ctl at *
  generalize hco : aluCarrySpec (aluSel ctl) x.toNat y.toNat = carry
  have key : ∃ t', T.run (do
      publish .aluFz (boolWord (decide (v = 0)))
      if ctl.getLsbD 16 then publish .data v : Prog Unit)
      ({ topic := t.topic, cur := upd (upd (upd t.cur .aluAcumm (x.setWidth 32)) .aluOp2
          (y.setWidth 32)) .aluControl ctl, regs := t.regs, mem := t.mem,
          log := t.log : T}.setTopic .aluFc (boolWord carry)) = some ((), t') ∧
      t'.topic .aluFc = boolWord carry ∧
      t'.topic .aluFz = boolWord (aluSpec (aluSel ctl) x.toNat y.toNat = 0) ∧
      t'.topic .data = (if ctl.getLsbD 16 then
        BitVec.ofNat 32 (aluSpec (aluSel ctl) x.toNat y.toNat) else t.topic .data) ∧
      (∀ tp, tp ≠ .aluFc → tp ≠ .aluFz → tp ≠ .data → t'.topic tp = t.topic tp) ∧
      t'.regs = t.regs ∧ t'.mem = t.mem ∧ t'.log = t.log := by
    cases ctl.getLsbD 16 with
    | true =>
      refine ⟨_, rfl, ?_, ?_, ?_, ?_, rfl, rfl, rfl⟩ <;>
        simp only [T.setTopic, upd_apply, reduceCtorEq, if_false, if_true]
      · rw [← v2]
      · exact v1
      · intro tp h1 h2 h3; simp only [h1, h2, h3, if_false]
    | false =>
      refine ⟨_, rfl, ?_, ?_, ?_, ?_, rfl, rfl, rfl⟩ <;>
        simp only [T.setTopic, upd_apply, reduceCtorEq, if_false, if_true]
      · rw [← v2]
      · intro tp h1 h2 h3; simp only [h1, h2, if_false]
  by_cases ho : usedBits r > 8
  · simp only [ho, decide_true, if_true] at c ⊢
    rw [c]
    exact key
  · simp only [ho, decide_false, Bool.false_eq_true, if_false] at c ⊢
    injection c with c
    rw [c]
    exact key

/-- **C35.** For all bytes on the accumulator and second operand buses and every control word,
`run_alu` publishes the mathematical result (if the control word puts the ALU on the data bus),
the carry or borrow, and the zero test; it changes no register, cell or other bus. `Rep h t` says
that the machine is initialised and that `t` gives the value of each bus; it holds at any moment
between `init` and `shutdown` (`On.rep`). -/
theorem C35_alu {h : H} {t : T} (r : Rep h t) (x y : BitVec 8)
    (hx : t.topic .acummOut = x.setWidth 32) (hy : t.topic .op2Out = y.setWidth 32) :
    ∃ h' t', H.run runAlu h = some ((), h') ∧ Rep h' t' ∧
      OnBus h' .aluFc (if aluCarrySpec (aluSel (t.topic .control)) x.toNat y.toNat then 1 else 0) ∧
      OnBus h' .aluFz
        (if aluSpec (aluSel (t.topic .control)) x.toNat y.toNat = 0 then 1 else 0) ∧
      OnBus h' .data (if (t.topic .control).getLsbD 16 then
        BitVec.ofNat 32 (aluSpec (aluSel (t.topic .control)) x.toNat y.toNat)
        else t.topic .data) ∧
      (∀ tp, tp ≠ .aluFc → tp ≠ .aluFz → tp ≠ .data → OnBus h' tp (t.topic tp)) ∧
      h'.regs = h.regs ∧ h'.mem = h.mem ∧ h'.log = h.log := by
  obtain ⟨t', e, a1, a2, a3, a4, a5, a6, a7⟩ := alu_run t x y hx hy
  obtain ⟨h', e', r', _⟩ := sim_some r e
  refine ⟨h', t', e', r', ?_, ?_, ?_, ?_, ?_, ?_, ?_⟩
  · have := r'.onBus .aluFc; rw [a1] at this; exact this
  · have := r'.onBus .aluFz; rw [a2] at this
    simp only [boolWord, decide_eq_true_eq] at this
    exact this
  · have := r'.onBus .data; rw [a3] at this; exact this
  · intro tp h1 h2 h3; have := r'.onBus tp; rw [a4 tp h1 h2 h3] at this; exact this
  · rw [r'.regs, a5, r.regs]
  · rw [r'.mem, a6, r.mem]
  · rw [r'.log, a7, r.log]

/-- **C35.** In every reachable machine the two operand buses hold bytes, and `run_alu` does with them
what `C35_alu` says. -/
theorem C35_machine {p : Phase} {h : H} (hr : Reach p h) (hp : p.on = true) :
    ∃ (x y : BitVec 8) (c d : W) (h' : H), OnBus h .acummOut (x.setWidth 32) ∧
      OnBus h .op2Out (y.setWidth 32) ∧ OnBus h .control c ∧ OnBus h .data d ∧
      H.run runAlu h = some ((), h') ∧
      OnBus h' .aluFc (if aluCarrySpec (aluSel c) x.toNat y.toNat then 1 else 0) ∧
      OnBus h' .aluFz (if aluSpec (aluSel c) x.toNat y.toNat = 0 then 1 else 0) ∧
      OnBus h' .data (if c.getLsbD 16 then BitVec.ofNat 32 (aluSpec (aluSel c) x.toNat y.toNat) else d) ∧
      (∀ tp v, tp ≠ .aluFc → tp ≠ .aluFz → tp ≠ .data → OnBus h tp v → OnBus h' tp v) ∧
      h'.regs = h.regs ∧ h'.mem = h.mem ∧ h'.log = h.log := by
  obtain ⟨a, o⟩ := hr.on hp
  obtain ⟨cur, r⟩ := o.rep
  obtain ⟨h', t', e, r', b1, b2, b3, b4, b5⟩ := C35_alu r a.acOut a.op2Out rfl rfl
  refine ⟨a.acOut, a.op2Out, (lift a cur).topic .control, (lift a cur).topic .data, h', r.onBus _, r.onBus _,
    r.onBus _, r.onBus _, e, b1, b2, b3, ?_, b5⟩
  intro tp v h1 h2 h3 hv s hs
  obtain ⟨b, e1, e2⟩ := hv s hs
  obtain ⟨b', e1', e2'⟩ := r.onBus tp s hs
  rw [e1] at e1'
  obtain rfl : b = b' := Option.some.inj e1'
  rw [← e2, e2']
  exact b4 tp h1 h2 h3 s hs

/-- 200 + 100 on the buses: result 44, carry. -/
example : ∃ t : T, t.topic .acummOut = (200 : BitVec 8).setWidth 32 ∧
    t.topic .op2Out = (100 : BitVec 8).setWidth 32 ∧ aluSel (t.topic .control) = 0 ∧
    aluSpec 0 200 100 = 44 ∧ aluCarrySpec 0 200 100 = true :=
  ⟨⟨fun tp => if tp = .acummOut then 200 else if tp = .op2Out then 100 else 0, fun _ => 0,
    fun _ => 0, fun _ => 0, []⟩, rfl, rfl, rfl, rfl, rfl⟩

/-! ## C45 -/

/-- **C45.** The 4-input multiplexer returns the selected input, and -1 for any other selector. -/
theorem C45_mx4 (sel : CInt) (i : Fin 4 → CInt) : (∀ k : Fin 4, sel = BitVec.ofNat 32 k.val →
    run4x1mx sel (i 0) (i 1) (i 2) (i 3) = i k) ∧
    (4 ≤ sel.toNat → run4x1mx sel (i 0) (i 1) (i 2) (i 3) = -1) := by
  refine ⟨fun k hk => ?_, fun h => ?_⟩
  · subst hk
    match k with
    | 0 => rfl
    | 1 => rfl
    | 2 => rfl
    | 3 => rfl
  · unfold run4x1mx
    rw [if_neg (by omega), if_neg (by omega), if_neg (by omega), if_neg (by omega)]

/-- **C45.** The 2-input multiplexer. -/
theorem C45_mx2 (sel : CInt) (i : Fin 2 → CInt) : (∀ k : Fin 2, sel = BitVec.ofNat 32 k.val →
    run2x1mx sel (i 0) (i 1) = i k) ∧ (2 ≤ sel.toNat → run2x1mx sel (i 0) (i 1) = -1) := by
  refine ⟨fun k hk => ?_, fun h => ?_⟩
  · subst hk
    match k with
    | 0 => rfl
    | 1 => rfl
  · unfold run2x1mx
    rw [if_neg (by omega), if_neg (by omega)]

theorem mxdir_run (t : T) (x : Fin 4 → BitVec 16) (h0 : t.topic .pcOut = (x 0).setWidth 32)
    (h1 : t.topic .spOut = (x 1).setWidth 32) (h2 : t.topic .hlOut = (x 2).setWidth 32)
    (h3 : t.topic .fffcOut = (x 3).setWidth 32) (k : Fin 4)
    (hk : k.val = ((t.topic .control).getLsbD 24).toNat + 2 * ((t.topic .control).getLsbD 25).toNat) :
    ∃ t', T.run runMxdir t = some ((), t') ∧ t'.topic .dir2 = (x k).setWidth 32 ∧
      (∀ tp, tp ≠ .dir2 → t'.topic tp = t.topic tp) ∧ t'.regs = t.regs ∧ t'.mem = t.mem ∧
      t'.log = t.log := by
  have b0 : (t.topic .control).getLsbD CB.seldir0 = (t.topic .control).getLsbD 24 := rfl
  have b1 : (t.topic .control).getLsbD CB.seldir1 = (t.topic .control).getLsbD 25 := rfl
  unfold runMxdir
  simp only [run_bind', run_upd, run_cur, run_nxt, Option.bind_some, T.setCur, upd_apply,
    Slot.topic, reduceIte, toInt_sel2, run_ppure, h0, h1, h2, h3, toInt_16, b0, b1]
  generalize (t.topic .control).getLsbD 24 = c0 at *
  generalize (t.topic .control).getLsbD 25 = c1 at *
  cases c0 <;> cases c1 <;>
    simp only [run4x1mx, BitVec.reduceToNat, ne_neg_one_16, Bool.false_eq_true, if_false, if_true,
      Nat.reduceEqDiff, run_pub]
  · obtain rfl : k = 0 := Fin.ext hk
    exact ⟨_, rfl, by simp [T.setTopic], fun tp h => by simp [T.setTopic, h], rfl, rfl, rfl⟩
  · obtain rfl : k = 2 := Fin.ext hk
    exact ⟨_, rfl, by simp [T.setTopic], fun tp h => by simp [T.setTopic, h], rfl, rfl, rfl⟩
  · obtain rfl : k = 1 := Fin.ext hk
    exact ⟨_, rfl, by simp [T.setTopic], fun tp h => by simp [T.setTopic, h], rfl, rfl, rfl⟩
  · obtain rfl : k = 3 := Fin.ext hk
    exact ⟨_, rfl, by simp [T.setTopic], fun tp h => by simp [T.setTopic, h], rfl, rfl, rfl⟩

/-- **C45.** The direction multiplexer puts PC, SP, HL or 0xFFFC on the address bus as the two
select bits of the control word say, and changes nothing else. -/
theorem C45_mxdir {h : H} {t : T} (r : Rep h t) (x : Fin 4 → BitVec 16)
    (h0 : t.topic .pcOut = (x 0).setWidth 32) (h1 : t.topic .spOut = (x 1).setWidth 32)
    (h2 : t.topic .hlOut = (x 2).setWidth 32) (h3 : t.topic .fffcOut = (x 3).setWidth 32)
    (k : Fin 4)
    (hk : k.val = ((t.topic .control).getLsbD 24).toNat + 2 * ((t.topic .control).getLsbD 25).toNat) :
    ∃ h' t', H.run runMxdir h = some ((), h') ∧ Rep h' t' ∧ OnBus h' .dir2 ((x k).setWidth 32) ∧
      (∀ tp, tp ≠ .dir2 → OnBus h' tp (t.topic tp)) ∧ h'.regs = h.regs ∧ h'.mem = h.mem ∧
      h'.log = h.log := by
  obtain ⟨t', e, a1, a2, a3, a4, a5⟩ := mxdir_run t x h0 h1 h2 h3 k hk
  obtain ⟨h', e', r', _⟩ := sim_some r e
  refine ⟨h', t', e', r', ?_, ?_, ?_, ?_, ?_⟩
  · have := r'.onBus .dir2; rw [a1] at this; exact this
  · intro tp hn; have := r'.onBus tp; rw [a2 tp hn] at this; exact this
  · rw [r'.regs, a3, r.regs]
  · rw [r'.mem, a4, r.mem]
  · rw [r'.log, a5, r.log]

/-- **C45.** In every reachable machine the four inputs hold 16-bit addresses, the last one 0xFFFC or,
before it is first put on its bus, 0, and the multiplexer puts the selected one on the address bus. -/
theorem C45_machine {p : Phase} {h : H} (hr : Reach p h) (hp : p.on = true) :
    ∃ (x : Fin 4 → BitVec 16) (c : W) (h' : H), OnBus h .pcOut ((x 0).setWidth 32) ∧
      OnBus h .spOut ((x 1).setWidth 32) ∧ OnBus h .hlOut ((x 2).setWidth 32) ∧
      OnBus h .fffcOut ((x 3).setWidth 32) ∧ (x 3 = 0 ∨ x 3 = 0xFFFC) ∧ OnBus h .control c ∧
      H.run runMxdir h = some ((), h') ∧
      (∀ k : Fin 4, k.val = (c.getLsbD 24).toNat + 2 * (c.getLsbD 25).toNat →
        OnBus h' .dir2 ((x k).setWidth 32)) ∧
      (∀ tp v, tp ≠ .dir2 → OnBus h tp v → OnBus h' tp v) ∧
      h'.regs = h.regs ∧ h'.mem = h.mem ∧ h'.log = h.log := by
  obtain ⟨a, o, fffc⟩ := Reach.invariant (fun a => a.fffcOut = 0 ∨ a.fffcOut = 0xFFFC) (fun _ _ => .inl rfl)
    (fun a c hs hok ha => by
      cases c <;> first | exact ha | exact .inr (A.cycle_spec a hs hok.lt).2.2.2.2.2.2) hr hp
  obtain ⟨cur, r⟩ := o.rep
  let x : Fin 4 → BitVec 16 := fun k => if k.val = 0 then a.pcOut else if k.val = 1 then a.spOut else
    if k.val = 2 then a.hlOut else a.fffcOut
  have lt : (((lift a cur).topic .control).getLsbD 24).toNat +
      2 * (((lift a cur).topic .control).getLsbD 25).toNat < 4 := by
    cases ((lift a cur).topic .control).getLsbD 24 <;>
      cases ((lift a cur).topic .control).getLsbD 25 <;> decide
  obtain ⟨h', t', e, r', b1, b2, b3⟩ := C45_mxdir r x rfl rfl rfl rfl ⟨_, lt⟩ rfl
  refine ⟨x, (lift a cur).topic .control, h', r.onBus _, r.onBus _, r.onBus _, r.onBus _, fffc, r.onBus _, e,
    ?_, ?_, b3⟩
  · intro k hk
    rw [show k = ⟨_, lt⟩ from Fin.ext hk]
    exact b1
  · intro tp v h1 hv s hs
    obtain ⟨b, e1, e2⟩ := hv s hs
    obtain ⟨b', e1', e2'⟩ := r.onBus tp s hs
    rw [e1] at e1'
    obtain rfl : b = b' := Option.some.inj e1'
    rw [← e2, e2']
    exact b2 tp h1 s hs

/-- Select bits 01 choose SP. -/
example : ∃ t : T, t.topic .spOut = (0x1234 : BitVec 16).setWidth 32 ∧
    (1 : Fin 4).val = ((t.topic .control).getLsbD 24).toNat + 2 * ((t.topic .control).getLsbD 25).toNat :=
  ⟨⟨fun tp => if tp = .spOut then 0x1234 else if tp = .control then 0x1000000 else 0, fun _ => 0,
    fun _ => 0, fun _ => 0, []⟩, rfl, rfl⟩

end Mpp
