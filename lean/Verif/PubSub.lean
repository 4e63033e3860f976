import Verif.LinkedList
/-!
# `lib/pubsub.c` and the bus objects of `lib/electronic/bus.c`

Bus objects live in a heap: a pointer is `none` (NULL) or an address; a freed or never allocated
address holds `none`. Subscription objects are never freed and are identified with their id, the
value of `subscription_count` when they were allocated. The linked list of subscriptions is the
list of the ids (`Verif.LinkedList` shows that the C list functions are the list operations used
here). `none` as the result of an operation is undefined behaviour.
-/
namespace Mpp

/-- `Bus_t` (`electronic/bus.h`). -/
structure Bus where
  next : W
  cur : W
  deriving DecidableEq

/-- `PubSubSubscription` (`pubsub.h:62-67`), without the id. -/
structure Sub where
  topic : Topic
  bus : Option Nat
  active : Bool

/-- State of `pubsub.c` and of the bus heap. -/
structure PS where
  heap : Nat → Option Bus
  brk : Nat
  subs : Nat → Option Sub
  count : Nat
  order : List Nat
  mws : List (Topic × (W → Bool))

namespace PS

/-- Before `main`: nothing allocated (`pubsub.c:22-27`). -/
def empty : PS :=
  { heap := fun _ => none, brk := 0, subs := fun _ => none, count := 0, order := [], mws := [] }

/-- `create_bus_data` (`electronic/bus.c:36-42`). -/
def createBus (p : PS) : Nat × PS :=
  (p.brk, { p with heap := upd p.heap p.brk (some ⟨0, 0⟩), brk := p.brk + 1 })

/-- `destroy_bus_data` (`electronic/bus.c:49`): `free(NULL)` does nothing, a double free is
undefined. -/
def destroyBus (p : PS) (ptr : Option Nat) : Option PS :=
  match ptr with
  | none => some p
  | some a =>
    match p.heap a with
    | none => none
    | some _ => some { p with heap := upd p.heap a none }

/-- `update_bus_data` (`electronic/bus.c:51`). -/
def updateBus (p : PS) (ptr : Option Nat) : Option PS :=
  match ptr with
  | none => none
  | some a =>
    match p.heap a with
    | none => none
    | some b => some { p with heap := upd p.heap a (some { b with cur := b.next }) }

/-- Dereferencing a bus pointer. -/
def deref (p : PS) (ptr : Option Nat) : Option Bus :=
  match ptr with
  | none => none
  | some a => p.heap a

/-- `subscribe_to` (`pubsub.c:30-51`). `subscription_count++` overflows at `INT_MAX`. -/
def subscribe (p : PS) (t : Topic) (bus : Option Nat) : Option (Nat × PS) :=
  if p.count < 2 ^ 31 - 1 then
    some (p.count,
      { p with
        subs := upd p.subs p.count (some ⟨t, bus, true⟩)
        count := p.count + 1
        order := p.order ++ [p.count] })
  else none

/-- `unsubscribe_for` (`pubsub.c:86-115`). -/
def unsubscribe (p : PS) (sub : Option Nat) : Option (Bool × PS) :=
  match sub with
  | none => some (false, p)
  | some id =>
    if p.order = [] then some (false, p)
    else match p.subs id with
      | none => none
      | some s =>
        if id ≥ p.count then some (false, p)
        else if id ∈ p.order then
          some (true, { p with subs := upd p.subs id (some { s with active := false }),
                               order := p.order.erase id })
        else
          some (false, { p with subs := upd p.subs id (some { s with active := s.active }) })

/-- `add_topic_middleware` (`pubsub.c:53-72`) with a non-NULL function. -/
def addMiddleware (p : PS) (t : Topic) (f : W → Bool) : PS := { p with mws := p.mws ++ [(t, f)] }

/-- `rm_topic_middleware` (`pubsub.c:74-84`): for a non-NULL argument line 81 writes one element
past the end of the array (or through NULL when it is empty). -/
def rmMiddleware (p : PS) (m : Option Nat) : Option (Bool × PS) :=
  match m with
  | none => some (false, p)
  | some _ => none

/-- The middleware loop of `publish_message_to` (`pubsub.c:128-136`). -/
def middlewaresPass (t : Topic) (w : W) : List (Topic × (W → Bool)) → Bool
  | [] => true
  | (t', f) :: ms => if t' ≠ t then middlewaresPass t w ms
      else if f w then middlewaresPass t w ms else false

/-- The delivery loop of `publish_message_to` (`pubsub.c:138-150`). -/
def deliver (subs : Nat → Option Sub) (t : Topic) (w : W) :
    List Nat → (Nat → Option Bus) → Nat → Option (Nat × (Nat → Option Bus))
  | [], heap, sent => some (sent, heap)
  | id :: ids, heap, sent =>
    match subs id with
    | none => none
    | some s =>
      if ¬ s.active then deliver subs t w ids heap sent
      else if s.topic ≠ t then deliver subs t w ids heap sent
      else match s.bus with
        | none => none
        | some a => match heap a with
          | none => none
          | some b => deliver subs t w ids (upd heap a (some { b with next := w })) (sent + 1)

/-- `publish_message_to` (`pubsub.c:124-154`); `none` inside is the returned -1. -/
def publish (p : PS) (t : Topic) (w : W) : Option (Option Nat × PS) :=
  if middlewaresPass t w p.mws then
    match deliver p.subs t w p.order p.heap 0 with
    | none => none
    | some (sent, heap) => some (some sent, { p with heap := heap })
  else some (none, p)

/-! ## Facts about delivery -/

/-- `id` is an active subscription to `t` for the bus at address `a`. -/
def Delivers (subs : Nat → Option Sub) (t : Topic) (id a : Nat) : Prop :=
  ∃ s, subs id = some s ∧ s.active = true ∧ s.topic = t ∧ s.bus = some a

/-- Every listed subscription object exists, and if it is active its bus is live. -/
def ListOk (subs : Nat → Option Sub) (ids : List Nat) (heap : Nat → Option Bus) : Prop :=
  ∀ id ∈ ids, ∃ s, subs id = some s ∧
    (s.active = true → ∃ a b, s.bus = some a ∧ heap a = some b)

/-- Does `id` receive messages of topic `t`? -/
def receives (subs : Nat → Option Sub) (t : Topic) (id : Nat) : Bool :=
  match subs id with
  | none => false
  | some s => s.active && s.topic = t

theorem deliver_spec (subs : Nat → Option Sub) (t : Topic) (w : W) (ids : List Nat)
    (heap : Nat → Option Bus) (sent : Nat) (hok : ListOk subs ids heap) :
    ∃ heap', deliver subs t w ids heap sent = some (sent + (ids.filter (receives subs t)).length, heap') ∧
      ∀ a, ((∃ id ∈ ids, Delivers subs t id a) → heap' a = (heap a).map (fun b => { b with next := w })) ∧
           ((¬ ∃ id ∈ ids, Delivers subs t id a) → heap' a = heap a) := by
  induction ids generalizing heap sent with
  | nil => exact ⟨heap, rfl, fun a => ⟨by simp, fun _ => rfl⟩⟩
  | cons id ids ih =>
    obtain ⟨s, hs, hl⟩ := hok id (by simp)
    have hok' : ListOk subs ids heap := fun i hi => hok i (by simp [hi])
    by_cases hact : s.active = true
    · by_cases htop : s.topic = t
      · obtain ⟨a, b, ha, hb⟩ := hl hact
        have hok2 : ListOk subs ids (upd heap a (some { b with next := w })) := by
          intro i hi
          obtain ⟨s', hs', hl'⟩ := hok' i hi
          refine ⟨s', hs', fun h => ?_⟩
          obtain ⟨a', b', ha', hb'⟩ := hl' h
          by_cases e : a' = a
          · subst e; exact ⟨a', _, ha', upd_same _ _ _⟩
          · exact ⟨a', b', ha', by rw [upd_ne _ _ e, hb']⟩
        obtain ⟨heap', h1, h2⟩ := ih _ (sent + 1) hok2
        refine ⟨heap', ?_, ?_⟩
        · have hr : receives subs t id = true := by simp [receives, hs, hact, htop]
          simp only [deliver, hs, hact, htop, ha, hb, List.filter_cons, hr, if_true, List.length_cons]
          simp only [not_true, if_false, ne_eq]
          rw [h1]
          congr 2
          omega
        · intro c
          by_cases hc : ∃ i ∈ ids, Delivers subs t i c
          · refine ⟨fun _ => ?_, fun h => ?_⟩
            · rw [(h2 c).1 hc]
              by_cases e : c = a
              · subst e; simp [hb]
              · rw [upd_ne _ _ e]
            · exfalso; apply h; obtain ⟨i, hi, hd⟩ := hc; exact ⟨i, by simp [hi], hd⟩
          · rw [(h2 c).2 hc]
            by_cases e : c = a
            · subst e
              refine ⟨fun _ => by simp [hb], fun h => ?_⟩
              exfalso; exact h ⟨id, by simp, s, hs, hact, htop, ha⟩
            · rw [upd_ne _ _ e]
              refine ⟨fun h => ?_, fun _ => rfl⟩
              exfalso
              obtain ⟨i, hi, hd⟩ := h
              simp only [List.mem_cons] at hi
              rcases hi with hi | hi
              · subst hi
                obtain ⟨s', hs', _, _, hb'⟩ := hd
                rw [hs] at hs'; cases hs'
                rw [ha] at hb'; cases hb'
                exact e rfl
              · exact hc ⟨i, hi, hd⟩
      · obtain ⟨heap', h1, h2⟩ := ih heap sent hok'
        have hr : receives subs t id = false := by simp [receives, hs, htop]
        refine ⟨heap', ?_, ?_⟩
        · simp only [deliver, hs, hact, List.filter_cons, hr]
          simpa [htop] using h1
        · intro c
          have hiff : (∃ i ∈ id :: ids, Delivers subs t i c) ↔ ∃ i ∈ ids, Delivers subs t i c := by
            constructor
            · rintro ⟨i, hi, hd⟩
              simp only [List.mem_cons] at hi
              rcases hi with rfl | hi
              · obtain ⟨s', hs', _, ht', _⟩ := hd
                rw [hs] at hs'; cases hs'; exact absurd ht' htop
              · exact ⟨i, hi, hd⟩
            · rintro ⟨i, hi, hd⟩; exact ⟨i, by simp [hi], hd⟩
          rw [hiff]; exact h2 c
    · obtain ⟨heap', h1, h2⟩ := ih heap sent hok'
      have hr : receives subs t id = false := by simp [receives, hs, hact]
      refine ⟨heap', ?_, ?_⟩
      · simp only [deliver, hs, hact, List.filter_cons, hr]
        simpa using h1
      · intro c
        have hiff : (∃ i ∈ id :: ids, Delivers subs t i c) ↔ ∃ i ∈ ids, Delivers subs t i c := by
          constructor
          · rintro ⟨i, hi, hd⟩
            simp only [List.mem_cons] at hi
            rcases hi with rfl | hi
            · obtain ⟨s', hs', ha', _, _⟩ := hd
              rw [hs] at hs'; cases hs'; exact absurd ha' hact
            · exact ⟨i, hi, hd⟩
          · rintro ⟨i, hi, hd⟩; exact ⟨i, by simp [hi], hd⟩
        rw [hiff]; exact h2 c

theorem middlewaresPass_iff (t : Topic) (w : W) (ms : List (Topic × (W → Bool))) :
    middlewaresPass t w ms = true ↔ ∀ m ∈ ms, m.1 = t → m.2 w = true := by
  induction ms with
  | nil => simp [middlewaresPass]
  | cons m ms ih =>
    obtain ⟨t', f⟩ := m
    simp only [middlewaresPass, List.forall_mem_cons]
    by_cases h : t' = t
    · cases f w <;> simp [h, ih]
    · simp [h, ih]

end PS
end Mpp
