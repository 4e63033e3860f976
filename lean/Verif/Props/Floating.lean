import Verif.Front.Floating
/-!
# C94: a floating arrow begins on the border of its box
-/
namespace Mpp.Front

/-- The point is on the border of the box. -/
def OnBorder (n : FlowNode) (W H x y : Rat) : Prop :=
  (n.x ≤ x ∧ x ≤ n.x + W) ∧ (n.y ≤ y ∧ y ≤ n.y + H) ∧ (x = n.x ∨ x = n.x + W ∨ y = n.y ∨ y = n.y + H)

theorem size_some {s : Option Rat} {W : Rat} (h : s = some W) (hW : 0 < W) :
    noSize s = false ∧ s.getD 0 = W := by
  subst h
  refine ⟨?_, rfl⟩
  simp only [noSize, beq_eq_false_iff_ne]
  grind

theorem largest (p q : Rat) (h : p ≠ 0 ∨ q ≠ 0) :
    0 < absR (p - q) + absR (p + q) ∧
    ∃ a, a = 1 / (absR (p - q) + absR (p + q)) ∧ 0 < a ∧
      (-1 ≤ a * (2 * p) ∧ a * (2 * p) ≤ 1) ∧ (-1 ≤ a * (2 * q) ∧ a * (2 * q) ≤ 1) ∧
      (a * (2 * p) = 1 ∨ a * (2 * p) = -1 ∨ a * (2 * q) = 1 ∨ a * (2 * q) = -1) := by
  have pos : 0 < absR (p - q) + absR (p + q) := by unfold absR; grind
  refine ⟨pos, _, rfl, ?_⟩
  generalize hS : absR (p - q) + absR (p + q) = S at pos
  have ha : 0 < 1 / S := by
    rw [Rat.div_def, Rat.one_mul]
    exact Rat.inv_pos.2 pos
  have one : 1 / S * S = 1 := by grind
  have bounds : (-S ≤ 2 * p ∧ 2 * p ≤ S) ∧ (-S ≤ 2 * q ∧ 2 * q ≤ S) ∧
      (2 * p = S ∨ 2 * p = -S ∨ 2 * q = S ∨ 2 * q = -S) := by
    unfold absR at hS
    grind
  have up : ∀ b, b ≤ S → 1 / S * b ≤ 1 := by
    intro b hb
    have := Rat.mul_le_mul_of_nonneg_left hb (Rat.le_of_lt ha)
    rwa [one] at this
  have down : ∀ b, -S ≤ b → -1 ≤ 1 / S * b := by
    intro b hb
    have := Rat.mul_le_mul_of_nonneg_left hb (Rat.le_of_lt ha)
    rwa [show 1 / S * -S = -1 by grind] at this
  refine ⟨ha, ⟨down _ bounds.1.1, up _ bounds.1.2⟩, ⟨down _ bounds.2.1.1, up _ bounds.2.1.2⟩, ?_⟩
  rcases bounds.2.2 with e | e | e | e
  · exact .inl (by rw [e, one])
  · exact .inr (.inl (by rw [e]; grind))
  · exact .inr (.inr (.inl (by rw [e, one])))
  · exact .inr (.inr (.inr (by rw [e]; grind)))

/-- **C94.** When the two boxes are not at the same place, the arrow leaves the box at a point of its
border, in the direction from the corner of the box to the corner of the other one. -/
theorem C94_border {n t : FlowNode} {W H : Rat} (hw : n.width = some W) (hh : n.height = some H)
    (pW : 0 < W) (pH : 0 < H) (apart : t.x ≠ n.x ∨ t.y ≠ n.y) :
    ∃ x y k, getNodeIntersection n t = .point x y ∧ OnBorder n W H x y ∧ 0 < k ∧
      x - (n.x + W / 2) = k * (t.x - n.x) ∧ y - (n.y + H / 2) = k * (t.y - n.y) := by
  obtain ⟨w1, w2⟩ := size_some hw pW
  obtain ⟨h1, h2⟩ := size_some hh pH
  have pp : (t.x + W / 2 - (n.x + W / 2)) / (2 * (W / 2)) = (t.x - n.x) / W := by grind
  have qq : (t.y + H / 2 - (n.y + H / 2)) / (2 * (H / 2)) = (t.y - n.y) / H := by grind
  have hp : (t.x - n.x) / W * W = t.x - n.x := by grind
  have hq : (t.y - n.y) / H * H = t.y - n.y := by grind
  generalize (t.x - n.x) / W = p at pp hp
  generalize (t.y - n.y) / H = q at qq hq
  have ne : p ≠ 0 ∨ q ≠ 0 := by grind
  obtain ⟨pos, a, ea, ha, hP, hQ, hb⟩ := largest p q ne
  have eq : getNodeIntersection n t =
      .point (W / 2 * (a * (p - q) + a * (p + q)) + (n.x + W / 2))
        (H / 2 * (-(a * (p - q)) + a * (p + q)) + (n.y + H / 2)) := by
    rw [getNodeIntersection]
    simp only [w1, w2, h1, h2, pp, qq]
    rw [if_neg (by simp), if_neg (by grind), ← ea]
  have ex : W / 2 * (a * (p - q) + a * (p + q)) = W / 2 * (a * (2 * p)) := by grind
  have ey : H / 2 * (-(a * (p - q)) + a * (p + q)) = H / 2 * (a * (2 * q)) := by grind
  rw [ex, ey] at eq
  refine ⟨_, _, a, eq, ?_, ha, by grind, by grind⟩
  have span : ∀ (o L u : Rat), 0 < L → -1 ≤ u → u ≤ 1 → o ≤ L / 2 * u + (o + L / 2) ∧ L / 2 * u + (o + L / 2) ≤ o + L := by
    intro o L u hL h1 h2
    have pos : 0 ≤ L / 2 := by grind
    have a1 := Rat.mul_le_mul_of_nonneg_left h1 pos
    have a2 := Rat.mul_le_mul_of_nonneg_left h2 pos
    grind
  refine ⟨span _ _ _ pW hP.1 hP.2, span _ _ _ pH hQ.1 hQ.2, ?_⟩
  rcases hb with e | e | e | e
  · exact .inr (.inl (by rw [e]; grind))
  · exact .inl (by rw [e]; grind)
  · exact .inr (.inr (.inr (by rw [e]; grind)))
  · exact .inr (.inr (.inl (by rw [e]; grind)))

theorem round_near (a : Rat) : a - 1 / 2 < (roundR a : Rat) ∧ (roundR a : Rat) ≤ a + 1 / 2 := by
  have h1 := Rat.floor_le (a + 1 / 2)
  have h2 := @Rat.lt_floor (a + 1 / 2)
  unfold roundR
  grind

/-- The side of the box is less than 2 away from the point. -/
def NearSide (n : FlowNode) (W H x y : Rat) : Side → Prop
  | .left => x < n.x + 2
  | .right => n.x + W - 2 < x
  | .top => y < n.y + 2
  | .bottom => n.y + H - 2 < y

example : getNodeIntersection ⟨0, 0, some 10, some 10⟩ ⟨20, 0, some 10, some 100⟩ = .point 10 5 := by
  decide +kernel

/-- **C94, the side.** At a point of the border the arrow gets a side that is there, up to rounding. -/
theorem C94_side {n : FlowNode} {W H x y : Rat} (hw : n.width = some W) (hh : n.height = some H)
    (pW : 0 < W) (pH : 0 < H) (hb : OnBorder n W H x y) :
    ∃ s, getEdgePosition n x y = some s ∧ NearSide n W H x y s := by
  obtain ⟨w1, w2⟩ := size_some hw pW
  obtain ⟨h1, h2⟩ := size_some hh pH
  have rnx := round_near n.x
  have rny := round_near n.y
  have rx := round_near x
  have ry := round_near y
  have cast : ∀ a b : Int, a ≤ b + 1 ↔ (a : Rat) ≤ b + 1 := by
    intro a b
    rw [← Rat.intCast_le_intCast]
    simp
  obtain ⟨_, _, edge⟩ := hb
  rw [getEdgePosition]
  simp only [w1, w2, h1, h2, cast]
  rw [if_neg (by simp)]
  split
  · exact ⟨_, rfl, by simp only [NearSide]; grind⟩
  · split
    · exact ⟨_, rfl, by simp only [NearSide]; grind⟩
    · split
      · exact ⟨_, rfl, by simp only [NearSide]; grind⟩
      · split
        · exact ⟨_, rfl, by simp only [NearSide]; grind⟩
        · exfalso
          rcases edge with e | e | e | e <;> grind

/-- **C94, both ends.** Between two boxes at different places there is an arrow. Both ends are on the
border of their box and near the side that they get, and the directions in which they leave the centres are
opposite. -/
theorem C94_params {s t : FlowNode} {W H W' H' : Rat} (hw : s.width = some W) (hh : s.height = some H)
    (hw' : t.width = some W') (hh' : t.height = some H') (pW : 0 < W) (pH : 0 < H) (pW' : 0 < W') (pH' : 0 < H')
    (apart : t.x ≠ s.x ∨ t.y ≠ s.y) :
    ∃ e k l, getEdgeParams s t = some e ∧
      OnBorder s W H e.sx e.sy ∧ NearSide s W H e.sx e.sy e.sourcePos ∧
      OnBorder t W' H' e.tx e.ty ∧ NearSide t W' H' e.tx e.ty e.targetPos ∧ 0 < k ∧ 0 < l ∧
      e.sx - (s.x + W / 2) = k * (t.x - s.x) ∧ e.sy - (s.y + H / 2) = k * (t.y - s.y) ∧
      e.tx - (t.x + W' / 2) = -l * (t.x - s.x) ∧ e.ty - (t.y + H' / 2) = -l * (t.y - s.y) := by
  obtain ⟨sx, sy, k, e1, b1, k1, d1, d2⟩ := C94_border hw hh pW pH apart
  obtain ⟨tx, ty, l, e2, b2, k2, d3, d4⟩ := C94_border hw' hh' pW' pH' (t := s) (by grind)
  obtain ⟨p, e3, n1⟩ := C94_side hw hh pW pH b1
  obtain ⟨q, e4, n2⟩ := C94_side hw' hh' pW' pH' b2
  refine ⟨⟨sx, sy, tx, ty, p, q⟩, k, l, ?_, b1, n1, b2, n2, k1, k2, d1, d2, ?_, ?_⟩
  · rw [getEdgeParams, e1, e2]
    simp only [e3, e4]
  · show tx - (t.x + W' / 2) = _
    grind
  · show ty - (t.y + H' / 2) = _
    grind

example : getEdgeParams ⟨0, 0, some 100, some 50⟩ ⟨300, 60, some 100, some 50⟩ =
    some ⟨100, 35, 300, 75, .right, .left⟩ := by
  decide +kernel

/-- The point is on the line through the centres of two boxes of these sizes. -/
def OnCentreLine (n t : FlowNode) (W H W' H' x y : Rat) : Prop :=
  (x - (n.x + W / 2)) * ((t.y + H' / 2) - (n.y + H / 2)) = (y - (n.y + H / 2)) * ((t.x + W' / 2) - (n.x + W / 2))

/-- **C94, the line of the comment.** The function is to find the point "of the line between the center of
the intersectionNode and the target node". It takes the size of the first box for that of the second, so
that it finds this point exactly when the sizes differ in the direction in which the boxes lie: in
particular when they have the same size. -/
theorem C94_line_partial {n t : FlowNode} {W H W' H' : Rat} (hw : n.width = some W) (hh : n.height = some H)
    (pW : 0 < W) (pH : 0 < H) (apart : t.x ≠ n.x ∨ t.y ≠ n.y) :
    ∃ x y, getNodeIntersection n t = .point x y ∧
      (OnCentreLine n t W H W' H' x y ↔ (t.x - n.x) * (H' - H) = (t.y - n.y) * (W' - W)) := by
  obtain ⟨x, y, k, e, _, kp, d1, d2⟩ := C94_border hw hh pW pH apart
  refine ⟨x, y, e, ?_⟩
  rw [OnCentreLine, d1, d2]
  have c : k * (t.x - n.x) * (t.y + H' / 2 - (n.y + H / 2)) - k * (t.y - n.y) * (t.x + W' / 2 - (n.x + W / 2)) =
      k * ((t.x - n.x) * (H' - H) - (t.y - n.y) * (W' - W)) / 2 := by grind
  constructor
  · intro h
    have z : k * ((t.x - n.x) * (H' - H) - (t.y - n.y) * (W' - W)) = 0 := by grind
    rcases Rat.mul_eq_zero.1 z with h | h
    · grind
    · grind
  · intro h
    have z : (t.x - n.x) * (H' - H) - (t.y - n.y) * (W' - W) = 0 := by grind
    rw [z] at c
    grind

/-- **C94, the line is missed.** A box beside a higher one; and a line drawn straight down, from a box of
100 by 100 to a point under its centre, which leaves it to the right of the centre. -/
theorem C94_missed :
    getNodeIntersection ⟨0, 0, some 10, some 10⟩ ⟨20, 0, some 10, some 100⟩ = .point 10 5 ∧
    ¬ OnCentreLine ⟨0, 0, some 10, some 10⟩ ⟨20, 0, some 10, some 100⟩ 10 10 10 100 10 5 ∧
    getNodeIntersection ⟨0, 0, some 100, some 100⟩ (connectionTarget 50 200) = .point (125 / 2) 100 := by
  unfold OnCentreLine
  decide +kernel

/-- **C94, no arrow.** At the same place there is none; without a size there is an error. -/
theorem C94_none (n t : FlowNode) :
    (n.width = none ∨ n.width = some 0 ∨ n.height = none ∨ n.height = some 0 ↔ getNodeIntersection n t = .threw) ∧
    (t.x = n.x → t.y = n.y → getEdgeParams n t = none) := by
  constructor
  · have z : ∀ o : Option Rat, noSize o = true ↔ o = none ∨ o = some 0 := by
      rintro (_ | a) <;> simp [noSize]
    constructor
    · intro h
      have h : (noSize n.width || noSize n.height) = true := by
        rw [Bool.or_eq_true, z, z, or_assoc]
        exact h
      rw [getNodeIntersection, if_pos h]
    · intro h
      rw [getNodeIntersection] at h
      split at h
      · next e =>
        rw [Bool.or_eq_true, z, z, or_assoc] at e
        exact e
      · dsimp only at h
        split at h <;> cases h
  · intro hx hy
    have : getNodeIntersection n t = .threw ∨ getNodeIntersection n t = .nan := by
      rw [getNodeIntersection]
      split
      · exact .inl rfl
      · right
        have z : ∀ a b c : Rat, (a + b - (a + b)) / c = 0 := by intro a b c; grind
        simp only [hx, hy, z]
        rw [if_pos (by decide +kernel)]
    rcases this with h | h <;> simp [getEdgeParams, h]

example : getEdgeParams ⟨3, 4, some 10, some 10⟩ ⟨3, 4, some 20, some 5⟩ = none :=
  (C94_none _ _).2 rfl rfl

end Mpp.Front
