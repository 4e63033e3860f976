import Verif.Host
import Verif.LinkedList
/-!
# What the unit tests of the core do

Each test publishes words on the input buses of one component, runs it, and looks at the buses and
registers. The words are arguments here. The tests initialise the component they test and nothing
else; the programs below are run on a machine on which `init` was called, where every bus that a test
subscribes is subscribed by a component. Used for C98.
-/
namespace Mpp

/-- The steps of `alu_test.c:58-272`: the control word and both operands are published, the ALU is run. -/
def aluStep (c x y : W) : Prog Unit := do
  publish .control c
  publish .acummOut x
  publish .op2Out y
  runAlu

/-- The steps of `alu_test.c:274-336`: as above without the first operand. -/
def aluStep2 (c y : W) : Prog Unit := do
  publish .control c
  publish .op2Out y
  runAlu

/-- The steps of `addsub_test.c:28-88`. -/
def addsubStep (c d : W) : Prog Unit := do
  publish .control c
  publish .dir2 d
  runAddsub

/-- The first two steps of `acum_test.c:24-57`. -/
def acummStep (c d : W) : Prog Unit := do
  publish .control c
  publish .data d
  runAcumm

/-- The last step of `acum_test.c:58-68`: nothing is published on the data bus. -/
def acummStep2 (c : W) : Prog Unit := do
  publish .control c
  runAcumm

/-! ## Middlewares

`PubSub.lean` keeps the middlewares as a list. Here are the array and the blocks (`pubsub.c:22-23`). -/

/-- The array of middlewares and the blocks it points to. -/
structure MwArray where
  /-- `topic_with_middleware_count` -/
  count : Nat
  /-- `topics_with_middleware`: NULL, or the pointers in the block -/
  arr : Option (List (Option Nat))
  /-- the allocated `PubSubMiddleware` blocks -/
  block : Nat → Option (Topic × (W → Bool))
  brk : Nat

/-- Static variables at program start. -/
def MwArray.start : MwArray := ⟨0, none, fun _ => none, 0⟩

/-- `topics_with_middleware[i] = v`; undefined outside the block. -/
def MwArray.store (s : MwArray) (i : Nat) (v : Option Nat) : Option MwArray :=
  match s.arr with
  | none => none
  | some l => if i < l.length then some { s with arr := some (l.set i v) } else none

/-- `add_topic_middleware` (`pubsub.c:53-72`) with a non-NULL function, when `realloc` and `malloc`
succeed. The new element is written at once, so its value before does not matter. -/
def MwArray.add (s : MwArray) (t : Topic) (f : W → Bool) : Option (Nat × MwArray) :=
  let old := (s.arr.getD []).take (s.count + 1)
  let s1 : MwArray :=
    { count := s.count + 1
      arr := some (old ++ List.replicate (s.count + 1 - old.length) none)
      block := upd s.block s.brk (some (t, f))
      brk := s.brk + 1 }
  (s1.store (s1.count - 1) (some s.brk)).map fun s2 => (s.brk, s2)

/-- `rm_topic_middleware` (`pubsub.c:74-84`). Freeing a block that is not allocated is undefined. -/
def MwArray.rm (s : MwArray) (m : Option Nat) : Option (Bool × MwArray) :=
  match m with
  | none => some (false, s)
  | some a =>
    match s.block a with
    | none => none
    | some _ => (({ s with block := upd s.block a none } : MwArray).store s.count none).map fun s => (true, s)

/-- The loop of `publish_message_to` over the middlewares (`pubsub.c:128-136`), from index `i`, with
`n` indices to go: does the message pass? -/
def MwArray.passFrom (s : MwArray) (t : Topic) (w : W) (i : Nat) : Nat → Option Bool
  | 0 => some true
  | n + 1 =>
    match s.arr with
    | none => none
    | some l =>
      match l[i]? with
      | none => none
      | some none => s.passFrom t w (i + 1) n
      | some (some a) =>
        match s.block a with
        | none => none
        | some (t', f) =>
          if t' ≠ t then s.passFrom t w (i + 1) n
          else if f w then s.passFrom t w (i + 1) n else some false

/-- The loop over all middlewares. -/
def MwArray.pass (s : MwArray) (t : Topic) (w : W) : Option Bool := s.passFrom t w 0 s.count

/-- Middlewares added one after the other: the pointers returned and the array. -/
def MwArray.addAll : List (Topic × (W → Bool)) → MwArray → Option (List Nat × MwArray)
  | [], s => some ([], s)
  | (t, f) :: ms, s => (s.add t f).bind fun r => (addAll ms r.2).map fun q => (r.1 :: q.1, q.2)

/-! ## Watchers -/

/-- `unregister_watcher` (`watcher.c:36-39`): result, new head, heap. -/
def unregisterWatcher {α} [DecidableEq α] (h : LL.Heap α) (head : Option Nat) (v : α) :
    Option (Bool × Option Nat × LL.Heap α) :=
  match head with
  | none => some (false, none, h)
  | some _ => LL.delete h head v

/-- The loop of `get_register` (`watcher.c:41-51`) over the nodes, with fuel; the watchers have type
`α` and `ty` is their field `type`. Undefined when a node is not allocated. -/
def getWatcher {α β} [DecidableEq β] (h : LL.Heap α) (ty : α → β) (b : β) :
    Nat → Option Nat → Option (Option α)
  | 0, _ => none
  | _ + 1, none => some none
  | n + 1, some a =>
    match h.node a with
    | none => none
    | some x => if ty x.value = b then some (some x.value) else getWatcher h ty b n x.next

end Mpp
