import Verif.Host

/-! # `init` when memory runs out

`Host.lean` takes every `malloc` to succeed. Here the `k`-th one succeeds if `alloc k`. Of the
functions that `init` calls only `subscribe_to` looks at the result (`mpp-cpu/src/lib/pubsub.c:34-37`);
its callers do not look at what it returns. The others write through the pointer, which is undefined
when it is NULL. -/

namespace Mpp

/-- How many blocks a statement asks for, if it gets all of them: the memory
(`mpp-cpu/src/lib/components/mem.c:39`), a bus (`mpp-cpu/src/lib/electronic/bus.c:37`), a subscription
and the node that holds it (`mpp-cpu/src/lib/pubsub.c:34`, `mpp-cpu/src/lib/linkedlist.c:7`), the node of
a watcher (`mpp-cpu/src/lib/watcher.c:23`). -/
def Cmd.blocks : Cmd → Nat
  | .fillMem => 1
  | .create _ => 1
  | .subscribe _ _ => 2
  | .watch _ => 1
  | _ => 0

/-- One statement, when `k` blocks have been asked for before. -/
def H.cmdMem (alloc : Nat → Bool) (rand : Nat → Nat) (c : Cmd) (k : Nat) (h : H) : Option (Nat × H) :=
  match c with
  | .fillMem | .create _ | .watch _ =>
    if alloc k then (h.cmd rand c).map fun h => (k + 1, h) else none
  | .subscribe s _ =>
    if alloc k then
      if alloc (k + 1) then (h.cmd rand c).map fun h => (k + 2, h) else none
    else some (k + 1, { h with subPtr := upd h.subPtr s none })
  | _ => (h.cmd rand c).map fun h => (k, h)

def H.cmdsMem (alloc : Nat → Bool) (rand : Nat → Nat) : List Cmd → Nat → H → Option (Nat × H)
  | [], k, h => some (k, h)
  | c :: cs, k, h => (h.cmdMem alloc rand c k).bind fun r => H.cmdsMem alloc rand cs r.1 r.2

/-- `init` (`mpp-cpu/src/linker/linker.c:35-42`): how many blocks were asked for, and the state. -/
def H.initMem (alloc : Nat → Bool) (rand : Nat → Nat) (h : H) : Option (Nat × H) :=
  H.cmdsMem alloc rand initCmds 0 h

end Mpp
