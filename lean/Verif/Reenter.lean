import Verif.Panel

/-! # A callback that calls back

`Host.lean` takes the UI callback to be a function that does not call the core. JavaScript puts no
such limit on it: `createUpdateUICallback` (`mpp-front/src/lib/core/index.ts:324-330`) installs a
function that runs every subscriber, and a subscriber may call any exported function, among them the
ones that call the callback. Here the callback is an arbitrary program over the exported functions:
the calls that it makes may depend on the values that earlier ones returned and on how many times it
was called before. -/

namespace Mpp

/-- What a piece of JavaScript does to the core: it ends, or it calls an exported function and goes
on according to the value that this returned. -/
inductive Script
  | done
  | call (c : Call) (next : CInt → Script)

/-- How a run ends. -/
inductive Out
  /-- it returned `v`; the callback was called `k` times so far, `h` is the state of the core -/
  | back (v : CInt) (k : Nat) (h : H)
  /-- the function `c` that was called last did something undefined -/
  | broke (c : Call)
  /-- calls are nested deeper than there is stack for -/
  | deep

/-- The calls that were begun and got as far as the callback, in that order, with the values that
they return; and how the run ends. -/
abbrev Record := List (Call × CInt) × Out

/-- What an exported function does before it calls the callback: `run_clock_cycle`
(`mpp-cpu/src/linker/cu.c:139-143`), `set_memory_value` (`mpp-cpu/src/linker/mem.c:63-66`),
`set_register_pc` (`mpp-cpu/src/linker/registers.c:98-104`). The others do not call it. As in
`Host.lean`, `run_clock_cycle` returns 0, not the time it took. -/
def Call.work : Call → H → Option (CInt × H)
  | .runClockCycle _, h => (clockLoop 2 h).map fun h => (0, h)
  | .setMemoryValue offset value, h =>
    match getValueByOffset offset with
    | none => none
    | some i => (h.handle (.memSet i value)).map fun r => (0, r.2)
  | .setRegisterPc value, h =>
    match h.getRegister .pc with
    | none => none
    | some r =>
      (H.run (do setReg r value; publish .pcOut (← Mpp.getReg r)) h).map fun x => (0, x.2)
  | c, h => exec c h

/-- A script, when exported functions do what `ex` says. -/
def runScript (ex : Call → Nat → H → Record) : Script → Nat → H → Record
  | .done, k, h => ([], .back 0 k h)
  | .call c next, k, h =>
    match ex c k h with
    | (tr, .back v k h) =>
      let r := runScript ex (next v) k h
      (tr ++ r.1, r.2)
    | (tr, o) => (tr, o)

/-- An exported function, with room for `fuel` calls inside each other. `cb k` is what the callback
does when it is called for the `k`-th time. The callback is looked up when it is called
(`get_update_ui_fn()()`), and to call NULL is undefined. -/
def execRe (cb : Nat → Script) : Nat → Call → Nat → H → Record
  | 0, _, _, _ => ([], .deep)
  | fuel + 1, c, k, h =>
    match c.work h with
    | none => ([], .broke c)
    | some (v, h) =>
      if c.notifies then
        if h.ui then
          match runScript (execRe cb fuel) (cb k) (k + 1) h with
          | (tr, .back _ k h) => ((c, v) :: tr, .back v k h)
          | (tr, o) => ((c, v) :: tr, o)
        else ([], .broke c)
      else ([(c, v)], .back v k h)

/-- Every call that a script can make satisfies `p`. -/
def Script.All (p : Call → Bool) : Script → Prop
  | .done => True
  | .call c next => p c = true ∧ ∀ v, (next v).All p

end Mpp
