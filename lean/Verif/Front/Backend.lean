import Verif.Observe
/-!
# Loading the core: `lib/core/index.ts` and `App.tsx`

Each call of `libmppModule` makes a new instance of the compiled C program, with its own memory. The
module-level variables `moduleInstance` and `mppCore` refer to one of them. `connectBackend` is
asynchronous: calls may overlap. A *task* is what the browser runs without interruption; the
continuations that become ready in a task run, in order, before the next task.
-/
namespace Mpp.Front

/-- The module-level variables of `lib/core/index.ts:6-7`, the instances, the calls of
`connectBackend` that wait for `libmppModule` and the state `coreLoaded` of the page. -/
structure Backend where
  /-- `moduleInstance` (`lib/core/index.ts:6`) -/
  module : Option Nat
  /-- `mppCore` (`lib/core/index.ts:7`): the instance whose functions it holds -/
  core : Option Nat
  /-- number of instances made so far -/
  made : Nat
  /-- their states -/
  inst : Nat → H
  /-- number of calls of `connectBackend` that wait at `await libmppModule(..)`
  (`lib/core/index.ts:253`) -/
  waiting : Nat
  /-- `coreLoaded` (`App.tsx:44`) -/
  loaded : Bool

/-- The page before it is shown. -/
def Backend.start : Backend := ⟨none, none, 0, fun _ => H.start, 0, false⟩

/-- `execute(method)` (`lib/core/index.ts:306-310`, also `getCore().method()`, `:301-304`): no core is
an error (`some none`), undefined behaviour of the C program is `none`. -/
def Backend.execute (b : Backend) (c : Call) : Option (Option CInt × Backend) :=
  match b.core with
  | none => some (none, b)
  | some k => (exec c (b.inst k)).map fun r => (some r.1, { b with inst := upd b.inst k r.2 })

/-- The rest of `loadInstance` after the module is ready (`lib/core/index.ts:253-265`). -/
def Backend.loadRest (b : Backend) : Backend :=
  { b with module := some b.made, core := some b.made, made := b.made + 1 }

/-- `createUpdateUICallback` (`lib/core/index.ts:324-330`): a pointer into the function table of
`moduleInstance` is given to `mppCore`; in another instance it would mean something else. -/
def Backend.createCallback (b : Backend) : Option Backend :=
  if b.module = b.core then (b.execute (.setUpdateUi true)).map Prod.snd else none

/-- The rest of `connectBackend` after `loadInstance` (`lib/core/index.ts:275-286`), and the handlers
in `App.tsx:53-59`. -/
def Backend.connectRest (b : Backend) (rand : Nat → Nat) : Option Backend :=
  match b.core with
  | none => some { b with loaded := false }
  | some _ => (b.execute (.init rand)).bind fun r => r.2.createCallback.map fun b => { b with loaded := true }

def Backend.connectRests (b : Backend) : List (Nat → Nat) → Option Backend
  | [] => some b
  | r :: rs => (b.connectRest r).bind fun b => b.connectRests rs

/-- The tasks of the page as far as they use the core. -/
inductive BackendEvent
  /-- `connectBackend()` is called (`App.tsx:52-60`) -/
  | connect
  /-- some calls of `libmppModule` are ready in one task; the random numbers that the calls of `init`
  will use -/
  | ready (rands : List (Nat → Nat))
  /-- a call of `libmppModule` fails: `connectBackend` is rejected -/
  | fail
  /-- `disconnectBackend()` (`lib/core/index.ts:289-299`); nothing on the page calls it -/
  | disconnect
  /-- something on the page calls a function of the core -/
  | page (c : Call)

/-- One task; the value is what the page gets, `none` for an error or no value. -/
def Backend.step (b : Backend) : BackendEvent → Option (Option CInt × Backend)
  | .connect =>
    -- `lib/core/index.ts:269-274`: a warning if there is a core, and the promise is fulfilled
    if b.core.isSome then some (none, { b with loaded := true })
    else some (none, { b with waiting := b.waiting + 1 })
  | .ready rands =>
    ((rands.foldl (fun (b : Backend) _ => b.loadRest) { b with waiting := b.waiting - rands.length }).connectRests rands).map
      fun b => (none, b)
  | .fail => some (none, { b with waiting := b.waiting - 1, loaded := false })
  | .disconnect =>
    if b.core.isSome then
      (b.execute .shutdown).map fun r => (none, { r.2 with core := none })
    else some (none, b)
  | .page c => b.execute c

def Backend.steps (b : Backend) : List BackendEvent → Option (List (Option CInt) × Backend)
  | [] => some ([], b)
  | e :: es => (b.step e).bind fun r => (r.2.steps es).map fun q => (r.1 :: q.1, q.2)

/-- The calls that the page makes besides those in `lib/core/index.ts`. -/
def _root_.Mpp.Call.ofPage : Call → Bool
  | .init _ | .shutdown | .setUpdateUi _ => false
  | _ => true

/-- Which tasks can happen: only as many modules become ready as are waited for (and less than would
exhaust the subscription numbers), and the components that call the core are there only when `coreLoaded`
is set (`App.tsx:65-69`); they stay within the documented ranges. -/
def BackendEvent.Can (b : Backend) : BackendEvent → Prop
  | .connect => True
  | .ready rands => rands.length ≤ b.waiting ∧ rands.length ≤ 27183337 ∧ rands ≠ []
  | .fail => 0 < b.waiting
  | .disconnect => True
  | .page c => b.loaded = true ∧ c.ofPage = true ∧ c.Allowed ⟨true, true, 1, 1⟩

/-- Every task of the list can happen when its turn comes. -/
def Backend.Can (b : Backend) : List BackendEvent → Prop
  | [] => True
  | e :: es => e.Can b ∧ ∀ r, b.step e = some r → r.2.Can es

/-! ## The wrapped functions -/

/-- `exportedMethods` (`lib/core/index.ts:11-224`): the names and the number of `typeArgs`. -/
def exportedMethods : List (String × Nat) :=
  [("init", 0), ("shutdown", 0), ("get_memory_size", 0), ("get_memory_value_size_bits", 0),
   ("get_memory_value", 1), ("get_memory_dir_bus", 0), ("set_memory_value", 2),
   ("get_register_acum", 0), ("get_register_acum", 0), ("get_register_fc", 0), ("get_register_fz", 0),
   ("get_register_b", 0), ("get_register_c", 0), ("get_register_d", 0), ("get_register_e", 0),
   ("get_register_h", 0), ("get_register_l", 0), ("get_register_2op", 0), ("get_register_pch", 0),
   ("get_register_pcl", 0), ("get_register_pc", 0), ("get_register_sp", 0), ("get_register_ri", 0),
   ("set_register_pc", 1), ("run_clock_cycle", 1), ("get_state", 0), ("get_next_state", 0),
   ("get_data_bus", 0), ("get_control_bus_pccar", 0), ("get_control_bus_accar", 0),
   ("get_control_bus_acbus", 0), ("get_control_bus_spcar", 0), ("get_control_bus_2opcar", 0),
   ("get_control_bus_hcar", 0), ("get_control_bus_lcar", 0), ("get_control_bus_ricar", 0),
   ("get_control_bus_regcar", 0), ("get_control_bus_regbus", 0), ("get_control_bus_membus", 0),
   ("get_control_bus_le", 0), ("get_control_bus_selalu", 0), ("reset_control", 0),
   ("linker_set_update_ui", 0)]

/-- The functions of the interface `MppCore` (`lib/core/types.ts:5-53`), with their parameters. -/
def coreMethods : List (String × Nat) :=
  [("linker_set_update_ui", 1), ("init", 0), ("shutdown", 0), ("get_memory_size", 0),
   ("get_memory_value_size_bits", 0), ("get_memory_value", 1), ("get_memory_dir_bus", 0),
   ("get_register_acum", 0), ("get_register_fc", 0), ("get_register_fz", 0), ("get_register_b", 0),
   ("get_register_c", 0), ("get_register_d", 0), ("get_register_e", 0), ("get_register_h", 0),
   ("get_register_l", 0), ("get_register_2op", 0), ("get_register_pch", 0), ("get_register_pcl", 0),
   ("get_register_pc", 0), ("get_register_sp", 0), ("get_register_ri", 0), ("get_data_bus", 0),
   ("get_control_bus_pccar", 0), ("get_control_bus_accar", 0), ("get_control_bus_acbus", 0),
   ("get_control_bus_spcar", 0), ("get_control_bus_2opcar", 0), ("get_control_bus_hcar", 0),
   ("get_control_bus_lcar", 0), ("get_control_bus_ricar", 0), ("get_control_bus_membus", 0),
   ("get_control_bus_le", 0), ("get_control_bus_regcar", 0), ("get_control_bus_regbus", 0),
   ("get_control_bus_selalu", 0), ("run_clock_cycle", 1), ("get_state", 0), ("get_next_state", 0),
   ("reset_control", 0), ("set_memory_value", 2), ("set_register_pc", 1)]

/-- The C functions marked `EMSCRIPTEN_KEEPALIVE` (`linker/linker.c:35-58`, `linker/bus.c:35-100`,
`linker/registers.c:23-98`, `linker/cu.c:139-160`, `linker/mem.c:38-71`), with their parameters. -/
def exportedC : List (String × Nat) :=
  [("init", 0), ("shutdown", 0), ("linker_set_update_ui", 1), ("get_data_bus", 0),
   ("get_control_bus_pccar", 0), ("get_control_bus_accar", 0), ("get_control_bus_acbus", 0),
   ("get_control_bus_spcar", 0), ("get_control_bus_2opcar", 0), ("get_control_bus_hcar", 0),
   ("get_control_bus_lcar", 0), ("get_control_bus_ricar", 0), ("get_control_bus_regcar", 0),
   ("get_control_bus_regbus", 0), ("get_control_bus_membus", 0), ("get_control_bus_le", 0),
   ("get_control_bus_selalu", 0), ("get_register_acum", 0), ("get_register_fc", 0),
   ("get_register_fz", 0), ("get_register_b", 0), ("get_register_c", 0), ("get_register_d", 0),
   ("get_register_e", 0), ("get_register_h", 0), ("get_register_l", 0), ("get_register_2op", 0),
   ("get_register_pch", 0), ("get_register_pcl", 0), ("get_register_pc", 0), ("get_register_sp", 0),
   ("get_register_ri", 0), ("set_register_pc", 1), ("run_clock_cycle", 1), ("get_state", 0),
   ("get_next_state", 0), ("reset_control", 0), ("get_memory_size", 0),
   ("get_memory_value_size_bits", 0), ("get_memory_value", 1), ("set_memory_value", 2),
   ("get_memory_dir_bus", 0)]

/-- What each of them is in the model (`Call`), for given arguments; other numbers of arguments do not
match the C function. -/
def callOf : String → List CInt → Option Call
  | "init", [] => some (.init fun _ => 0)
  | "shutdown", [] => some .shutdown
  | "linker_set_update_ui", [p] => some (.setUpdateUi (p ≠ 0))
  | "get_memory_size", [] => some .getMemorySize
  | "get_memory_value_size_bits", [] => some .getMemoryValueSizeBits
  | "get_memory_value", [i] => some (.getMemoryValue i)
  | "set_memory_value", [i, v] => some (.setMemoryValue i v)
  | "set_register_pc", [v] => some (.setRegisterPc v)
  | "run_clock_cycle", [u] => some (.runClockCycle (u ≠ 0))
  | "reset_control", [] => some .resetControl
  | _, _ => none

end Mpp.Front
