import Verif.Names
/-!
# Programs: the language in which the component code is modelled

The C component functions only touch the outside world through a few primitives. They are
written once, as terms of `Prog`, and given meaning by a handler for the primitives: the
concrete heap machine (`Verif.Host`) and, as a proof device, one value per topic
(`Verif.TopicMachine`).
-/
namespace Mpp

/-- Primitive operations of the component code. -/
inductive Op
  /-- `update_bus_data(bus)` (`electronic/bus.c:51`) -/
  | upd (s : Slot)
  /-- read `bus->current_value` -/
  | cur (s : Slot)
  /-- read `bus->next_value` -/
  | nxt (s : Slot)
  /-- `publish_message_to(topic, word)`; the components ignore the returned count -/
  | pub (t : Topic) (w : W)
  /-- read / write a static register variable -/
  | getReg (r : Reg)
  | setReg (r : Reg) (w : W)
  /-- read / write `mem.values[i].value` for `0 ≤ i < 65536` -/
  | memGet (i : BitVec 16)
  | memSet (i : BitVec 16) (v : CInt)
  /-- `throw_error` with a notice (`error.c:27-51`): only reports -/
  | err (e : Err)
  /-- undefined behaviour -/
  | ub

/-- Result type of a primitive. -/
def Op.ret : Op → Type
  | .cur _ | .nxt _ | .getReg _ => W
  | .memGet _ => CInt
  | .ub => Empty
  | _ => Unit

/-- Programs over the primitives. -/
inductive Prog (α : Type) : Type
  | pure (a : α) : Prog α
  | op (o : Op) (k : o.ret → Prog α) : Prog α

namespace Prog

def bind {α β} : Prog α → (α → Prog β) → Prog β
  | pure a, f => f a
  | op o k, f => op o (fun x => (k x).bind f)

instance : Monad Prog where
  pure := Prog.pure
  bind := Prog.bind

/-- Run a program with a handler; `none` is undefined behaviour. -/
def run {σ α} (h : (o : Op) → σ → Option (o.ret × σ)) : Prog α → σ → Option (α × σ)
  | .pure a, s => some (a, s)
  | .op o k, s => (h o s).bind fun r => (k r.1).run h r.2

theorem run_pure {σ α} (h : (o : Op) → σ → Option (o.ret × σ)) (a : α) (s : σ) :
    (Pure.pure a : Prog α).run h s = some (a, s) := rfl

theorem run_bind {σ α β} (h : (o : Op) → σ → Option (o.ret × σ)) (p : Prog α) (f : α → Prog β)
    (s : σ) : (p >>= f).run h s = (p.run h s).bind fun r => (f r.1).run h r.2 := by
  show (p.bind f).run h s = _
  induction p generalizing s with
  | pure a => rfl
  | op o k ih =>
    simp only [bind, run]
    cases h o s with
    | none => rfl
    | some r => exact ih r.1 r.2

end Prog

/-! Smart constructors, named after the C operations. -/

def busUpdate (s : Slot) : Prog Unit := .op (.upd s) .pure
def busCur (s : Slot) : Prog W := .op (.cur s) .pure
def busNext (s : Slot) : Prog W := .op (.nxt s) .pure
def publish (t : Topic) (w : W) : Prog Unit := .op (.pub t w) .pure
def getReg (r : Reg) : Prog W := .op (.getReg r) .pure
def setReg (r : Reg) (w : W) : Prog Unit := .op (.setReg r w) .pure
def memGet (i : BitVec 16) : Prog CInt := .op (.memGet i) .pure
def memSet (i : BitVec 16) (v : CInt) : Prog Unit := .op (.memSet i v) .pure
def throwError (e : Err) : Prog Unit := .op (.err e) .pure
def undefined {α : Type} : Prog α := .op .ub (fun e => nomatch e)

/-- `word_to_int` (`definitions.c:17-24`) inside a component: undefined when bit 31 is set
(see `cWordToInt_unpack`). -/
def toInt (w : W) : Prog CInt :=
  match wordToInt w with
  | none => undefined
  | some v => .pure v

/-- A one-bit word `x` with `initialize_word(&x, 0); x.bits[0] = b;`. -/
def bit0 (b : Bool) : W := setBit 0 0 b

end Mpp
