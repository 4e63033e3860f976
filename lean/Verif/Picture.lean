import Verif.Diagram
import Verif.Panel
/-!
# The CPU diagram on the screen: the numbers in the boxes, the highlights and the arrows

Model of the React state of the boxes (`RegisterNode.tsx`, `BusNode.tsx`, `FlagsNode.tsx`, `ALUNode.tsx`)
and of the arrows between them (`hook/useUpdateEdges.ts`, `constants/edges.tsx`), which are brought up to
date whenever the subscribers are notified. The memory box is in `Front/MemPanel`, the panel of the
states in `Panel`, the fields in which the numbers are written in `Front/NumberBox`.

Left out: the box with the time of a clock cycle, handles (see `Handles`), sizes, positions, and React Flow itself,
which draws the boxes and arrows it is given. All the boxes are taken to be on the screen.
-/
namespace Mpp

/-- What matters here of an edge of the diagram (`pages/CPUTable/constants/edges.tsx`). -/
structure Arrow where
  id : String
  source : String
  target : String
  /-- `animated`: the line of the arrow moves -/
  moving : Bool
  label : Option String
  /-- `style.stroke` is `"red"`, and not `undefined` -/
  red : Bool
deriving DecidableEq

/-- `initialEdges` (`pages/CPUTable/constants/edges.tsx:3-308`, without those in comments). -/
def arrows : List Arrow :=
  [⟨"databus-ri", "databus", "ri", false, none, false⟩,
   ⟨"databus-registersbank", "databus", "registers-bank", false, none, false⟩,
   ⟨"registersbank-databus", "registers-bank", "databus", false, none, false⟩,
   ⟨"databus-memory", "databus", "memory", true, none, false⟩,
   ⟨"memory-databus", "memory", "databus", false, none, false⟩,
   ⟨"databus-pc", "databus", "pc", false, none, false⟩,
   ⟨"databus-acum", "databus", "acum", false, none, false⟩,
   ⟨"acum-databus", "acum", "databus", false, none, false⟩,
   ⟨"databus-sp", "databus", "sp", false, none, false⟩,
   ⟨"databus-2op", "databus", "2op", false, none, false⟩,
   ⟨"databus-h", "databus", "h", false, none, false⟩,
   ⟨"databus-7", "databus", "l", false, none, false⟩,
   ⟨"acum-alu", "acum", "alu", false, some "A", false⟩,
   ⟨"2op-alu", "2op", "alu", false, some "B", false⟩,
   ⟨"alu-flagsfz", "alu", "flags", false, some "FZ", false⟩,
   ⟨"alu-flagsfc", "alu", "flags", false, some "FC", false⟩]

/-- The diagram. -/
structure Picture where
  /-- `value` of `RegisterNode` (line 17) and `BusNode` (line 15), by the id of the box -/
  value : String → CInt
  /-- `changed` of `RegisterNode` (line 18): the box is highlighted -/
  changed : String → Bool
  /-- `fz`, `fc` and `changed` of `FlagsNode` (lines 13-15) -/
  fz : Bool
  fc : Bool
  flagsChanged : Bool
  /-- `selAlu` of `ALUNode` (line 27) -/
  selAlu : CInt
  /-- `allEdges` (`useUpdateEdges.ts:17`), the edges when the boxes were drawn for the first time; the
  subscription is made only once (lines 69-75), so it always has these, changed in place -/
  held : List Arrow
  /-- `edges` of `CPUTable` (`CPUTable/index.tsx:57`), which React Flow draws -/
  shown : List Arrow

/-- The page is loaded (`DEFAULT_REGISTER_VALUE`, `DEFAULT_BUS_VALUE` and `DEFAULT_SELALU_VALUE`
are 0). -/
def Picture.start : Picture := ⟨fun _ => 0, fun _ => false, false, false, false, 0, arrows, arrows⟩

/-- `execute(f)` (`lib/core/index.ts:306-310`) for a function without arguments; `none` when there is no
such function or it does something undefined. -/
def execute (f : String) (h : H) : Option (CInt × H) := (callNamed f).bind fun c => exec c h

/-- Find the first arrow with `p`, change it, put it in the place of the arrow with its id
(`useUpdateEdges.ts:25-44`, `55-64`). `none`: there is none, and the function returns. Changing an
object in the list and replacing it by itself is the same as replacing it by the changed one, because
the ids are different. -/
def change (p : Arrow → Bool) (f : Arrow → Arrow) (as : List Arrow) : Option (List Arrow) :=
  (as.find? p).map fun a => as.map fun e => if e.id = a.id then f a else e

/-- `` `${label}: ${value}` `` -/
def lineLabel (label : String) (x : CInt) : String := label ++ ": " ++ toString x.toInt

/-- What becomes of the arrow that ends at a box, given the value of its load line
(`useUpdateEdges.ts:28-36`). -/
def Arrow.load (label : String) (x : CInt) (a : Arrow) : Arrow :=
  { a with label := some (lineLabel label x), moving := decide (x = 1), red := decide (x = 1) }

/-- What becomes of the arrow that begins at a box, given the value of its release line
(`useUpdateEdges.ts:58`). -/
def Arrow.release (label : String) (x : CInt) (a : Arrow) : Arrow :=
  { a with label := some (lineLabel label x) }

/-- `allEdges` is changed and given to React Flow (`useUpdateEdges.ts:46`, `66`). -/
def Picture.setEdges (d : Picture) (as : List Arrow) : Picture := { d with held := as, shown := as }

/-- `if (data.controlBusBitRelease)` (`useUpdateEdges.ts:49-67`). -/
def Picture.updateRelease (b : Box) (x : H × Picture) : Option (H × Picture) :=
  match b.release with
  | none => some x
  | some (label, f) => (execute f x.1).map fun r =>
    match change (fun a => a.source = b.id) (Arrow.release label r.1) x.2.held with
    | none => (r.2, x.2)
    | some as => (r.2, x.2.setEdges as)

/-- `onUIUpdate` of `useUpdateEdges` (lines 19-67). -/
def Picture.updateEdges (b : Box) (x : H × Picture) : Option (H × Picture) :=
  match b.load with
  | none => Picture.updateRelease b x
  | some (label, f) => (execute f x.1).bind fun r =>
    match change (fun a => a.target = b.id) (Arrow.load label r.1) x.2.held with
    | none => some (r.2, x.2)
    | some as => Picture.updateRelease b (r.2, x.2.setEdges as)

/-- `onUIUpdate` of `RegisterNode` (lines 22-38) and `BusNode` (lines 18-34). `setChanged` is called by
the function that computes the new value, whenever React runs it. The mark of `BusNode` is not drawn. -/
def Picture.updateValue (b : Box) (x : H × Picture) : Option (H × Picture) :=
  match b.get with
  | none => some x
  | some f => (execute f x.1).map fun r =>
    (r.2, { x.2 with
      value := upd x.2.value b.id r.1
      changed := upd x.2.changed b.id (decide (x.2.value b.id ≠ r.1)) })

/-- The two subscriptions of a box. -/
def Picture.updateBox (b : Box) (x : H × Picture) : Option (H × Picture) :=
  (Picture.updateEdges b x).bind (Picture.updateValue b)

def Picture.updateBoxes : List Box → H × Picture → Option (H × Picture)
  | [], x => some x
  | b :: bs, x => (Picture.updateBox b x).bind (Picture.updateBoxes bs)

/-- `onUIUpdate` of `FlagsNode` (lines 17-38). The functions given to `setFz` and `setFc` set
`hasChanged`, which is used immediately afterwards; React may run them at once or only when it draws,
which `early` says of the two. -/
def Picture.updateFlags (early : Bool × Bool) (x : H × Picture) : Option (H × Picture) :=
  (execute "get_register_fz" x.1).bind fun z =>
    (execute "get_register_fc" z.2).map fun c =>
      let fz := decide (z.1 ≠ 0)
      let fc := decide (c.1 ≠ 0)
      (c.2, { x.2 with
        fz := fz, fc := fc
        flagsChanged := (early.1 && x.2.fz != fz) || (early.2 && x.2.fc != fc) })

/-- `onUIUpdate` of `ALUNode` (lines 29-32). -/
def Picture.updateAlu (x : H × Picture) : Option (H × Picture) :=
  (execute "get_control_bus_selalu" x.1).map fun r => (r.2, { x.2 with selAlu := r.1 })

/-- `notifyUpdateToSubscribers` (`lib/core/index.ts:320-322`), as far as the diagram is concerned. -/
def Picture.update (early : Bool × Bool) (x : H × Picture) : Option (H × Picture) :=
  (Picture.updateBoxes boxes x).bind fun x => (Picture.updateFlags early x).bind Picture.updateAlu

/-- What can happen while the diagram is on the screen. -/
inductive PictureEvent
  /-- an exported function is called -/
  | call (c : Call) (early : Bool × Bool)
  /-- `notifyUpdateToSubscribers` called by the run-program button (`RunButtons.tsx:128`, `187`) -/
  | notify (early : Bool × Bool)
  /-- the user selects or removes arrows, `onEdgesChange` (`CPUTable/index.tsx:67-71`): React Flow says
  what the new list is, which is taken as arbitrary. It is made of copies. -/
  | edges (as : List Arrow)

/-- One event. -/
def PictureEvent.step : PictureEvent → H × Picture → Option (H × Picture)
  | .call c early, (h, d) =>
    (exec c h).bind fun r => if c.notifies then Picture.update early (r.2, d) else some (r.2, d)
  | .notify early, x => Picture.update early x
  | .edges as, (h, d) => some (h, { d with shown := as })

def pictureSteps : List PictureEvent → H × Picture → Option (H × Picture)
  | [], x => some x
  | e :: es, x => (e.step x).bind (pictureSteps es)

/-- The events that notify the subscribers. -/
def PictureEvent.updates : PictureEvent → Bool
  | .call c _ => c.notifies
  | .notify _ => true
  | .edges _ => false

/-- What React does with the two flags in an update. -/
def PictureEvent.early : PictureEvent → Bool × Bool
  | .call _ early => early
  | .notify early => early
  | .edges _ => (true, true)

def PictureEvent.Allowed (p : Phase) : PictureEvent → Prop
  | .call c _ => c.Allowed p
  | .notify _ => p.on = true
  | .edges _ => True

def PictureEvent.after (p : Phase) : PictureEvent → Phase
  | .call c _ => c.after p
  | _ => p

/-- Sessions that respect the lifecycle of the core. -/
def LegalPicture : Phase → List PictureEvent → Phase → Prop
  | p, [], p' => p' = p
  | p, e :: es, p' => e.Allowed p ∧ LegalPicture (e.after p) es p'

end Mpp
