/-!
# Where a floating arrow leaves its box

Model of `mpp-front/src/lib/ReactFlow/utils.ts`. `FloatingEdge.tsx` and `FloatingConnectionLine.tsx` use
it; nothing on the page uses these. Numbers are rational here, so that the rounding of floating point is
left out; what would be `NaN` is an outcome of its own. `createNodesAndEdges`, which makes up a picture
to try the arrows with, is not modelled.
-/
namespace Mpp.Front

/-- What is read of a `Node`: `position`, `width` and `height`; the size may be missing. -/
structure FlowNode where
  x : Rat
  y : Rat
  width : Option Rat
  height : Option Rat

/-- The outcome of `getNodeIntersection`. -/
inductive Meet
  /-- `throw new Error('… is not defined')` -/
  | threw
  /-- `x` and `y` are `NaN` -/
  | nan
  | point (x y : Rat)
  deriving DecidableEq

/-- `Math.abs` -/
def absR (a : Rat) : Rat := if a < 0 then -a else a

/-- `Math.round` -/
def roundR (a : Rat) : Int := (a + 1 / 2).floor

/-- `!size`: missing, or 0. -/
def noSize : Option Rat → Bool
  | none => true
  | some a => a == 0

/-- `getNodeIntersection` (`mpp-front/src/lib/ReactFlow/utils.ts:5-33`). `a` is `1 / 0` when both
`xx1` and `yy1` are 0, and then `a * xx1` is `NaN`. -/
def getNodeIntersection (n t : FlowNode) : Meet :=
  if noSize n.width || noSize n.height then .threw
  else
    let w := n.width.getD 0 / 2
    let h := n.height.getD 0 / 2
    let x2 := n.x + w
    let y2 := n.y + h
    let x1 := t.x + w
    let y1 := t.y + h
    let xx1 := (x1 - x2) / (2 * w) - (y1 - y2) / (2 * h)
    let yy1 := (x1 - x2) / (2 * w) + (y1 - y2) / (2 * h)
    if absR xx1 + absR yy1 = 0 then .nan
    else
      let a := 1 / (absR xx1 + absR yy1)
      let xx3 := a * xx1
      let yy3 := a * yy1
      .point (w * (xx3 + yy3) + x2) (h * (-xx3 + yy3) + y2)

/-- `Position` -/
inductive Side
  | left | top | right | bottom
  deriving DecidableEq

/-- `getEdgePosition` (`mpp-front/src/lib/ReactFlow/utils.ts:36-59`); `none` is the error. -/
def getEdgePosition (n : FlowNode) (x y : Rat) : Option Side :=
  if noSize n.width || noSize n.height then none
  else
    let nx := roundR n.x
    let ny := roundR n.y
    let px := roundR x
    let py := roundR y
    if px ≤ nx + 1 then some .left
    else if (px : Rat) ≥ nx + n.width.getD 0 - 1 then some .right
    else if py ≤ ny + 1 then some .top
    else if (py : Rat) ≥ n.y + n.height.getD 0 - 1 then some .bottom
    else some .top

/-- What `getEdgeParams` returns. -/
structure EdgeParams where
  sx : Rat
  sy : Rat
  tx : Rat
  ty : Rat
  sourcePos : Side
  targetPos : Side
  deriving DecidableEq

/-- `getEdgeParams` (`mpp-front/src/lib/ReactFlow/utils.ts:62-78`); `none` when one of the sizes is
missing or the numbers are `NaN`. -/
def getEdgeParams (source target : FlowNode) : Option EdgeParams :=
  match getNodeIntersection source target, getNodeIntersection target source with
  | .point sx sy, .point tx ty =>
    match getEdgePosition source sx sy, getEdgePosition target tx ty with
    | some p, some q => some ⟨sx, sy, tx, ty, p, q⟩
    | _, _ => none
  | _, _ => none

/-- The target of the line while it is drawn
(`mpp-front/src/pages/CPUTable/components/FloatingConnectionLine.tsx:17-23`). -/
def connectionTarget (targetX targetY : Rat) : FlowNode := ⟨targetX, targetY, some 1, some 1⟩

end Mpp.Front
