import Verif.Handles
import Verif.Props.Picture
/-!
# Property C73: the arrows of the diagram begin and end at their boxes
-/
namespace Mpp

/-- `h` is where an arrow begins (or ends, for `k = target`) that names the box `box` and the handle
`name`: it is drawn on this box, arrows may begin (or end) there, and it is the only one that may be
meant, that is, the only one of the box with this name, or the only one of the box where arrows may
begin (or end), if no handle is named. -/
structure Meant (box : String) (name : Option String) (k : HandleKind) (h : Handle) : Prop where
  drawn : (box, h) ∈ drawnHandles
  kind : h.kind = k
  named : ∀ n ∈ name, h.id = some n
  only : ∀ h', (box, h') ∈ drawnHandles → (name = none → h'.kind = k) →
    (∀ n ∈ name, h'.id = some n) → h' = h

/-- The box at an end of an arrow. -/
def Arrow.box (a : Arrow) : HandleKind → String
  | .source => a.source
  | .target => a.target

/-- The handle that an arrow names at an end. -/
def Arrow.named (a : Arrow) : HandleKind → Option String
  | .source => sourceHandle a.id
  | .target => targetHandle a.id

/-- Every box has an entry in the table of handles, in the order of the file. -/
theorem node_ids : nodeHandles.map (·.1) = boxes.map (·.id) := by decide +kernel

/-- The handle that an arrow names, or the first of the right kind. -/
def Arrow.end (a : Arrow) (k : HandleKind) : Option (String × Handle) :=
  drawnHandles.find? fun x => x.1 = a.box k && decide (x.2.kind = k) &&
    (a.named k = none || a.named k = x.2.id)

theorem ends_some : ∀ a ∈ arrows, ∀ k ∈ [HandleKind.source, .target], ∃ x ∈ drawnHandles,
    a.end k = some x ∧ x.1 = a.box k ∧ x.2.kind = k ∧ (∀ n ∈ (a.named k).toList, x.2.id = some n) ∧
    ∀ y ∈ drawnHandles, y.1 = a.box k → (a.named k = none → y.2.kind = k) →
      (∀ n ∈ (a.named k).toList, y.2.id = some n) → y.2 = x.2 := by decide +kernel

theorem kind_mem (k : HandleKind) : k ∈ [HandleKind.source, .target] := by cases k <;> decide

theorem arrow_meant {a : Arrow} (ha : a ∈ arrows) (k : HandleKind) :
    ∃ h, a.end k = some (a.box k, h) ∧ Meant (a.box k) (a.named k) k h := by
  obtain ⟨⟨b, h⟩, m, e, rfl, h2, h3, h4⟩ := ends_some a ha k (kind_mem k)
  exact ⟨h, e, m, h2, fun n hn => h3 n (by simpa using hn), fun h' m' k1 k2 =>
    h4 _ m' rfl k1 fun n hn => k2 n (by simpa using hn)⟩

theorem Meant.unique {b : String} {n : Option String} {k : HandleKind} {h h' : Handle}
    (m : Meant b n k h) (m' : Meant b n k h') : h = h' :=
  m'.only h m.drawn (fun _ => m.kind) m.named

theorem ends_apart : ∀ a ∈ arrows, ∀ b ∈ arrows, ∀ k ∈ [HandleKind.source, .target],
    ∀ k' ∈ [HandleKind.source, .target], (a.id, k) ≠ (b.id, k') →
    (a.end k).map (fun x => (x.1, x.2.side, x.2.percent)) ≠
      (b.end k').map (fun x => (x.1, x.2.side, x.2.percent)) := by decide +kernel

/-- An arrow on the screen is one of the beginning, up to what it says. -/
theorem shown_arrow {ph ph' : Phase} {h h' : H} {d : Picture} {es : List PictureEvent}
    {e : PictureEvent} (hr : Reach ph h) (hl : LegalPicture ph (es ++ [e]) ph')
    (run : pictureSteps (es ++ [e]) (h, Picture.start) = some (h', d)) (hu : e.updates = true)
    {a : Arrow} (ha : a ∈ d.shown) :
    ∃ b ∈ arrows, a.id = b.id ∧ (∀ k, a.box k = b.box k) ∧ ∀ k, a.named k = b.named k := by
  have k := (C61_arrows ph ph' h h' d es e hr hl run hu).1
  have : (a.id, a.source, a.target) ∈ arrows.map (fun a => (a.id, a.source, a.target)) := by
    rw [← k]; exact List.mem_map.2 ⟨a, ha, rfl⟩
  obtain ⟨b, hb, eb⟩ := List.mem_map.1 this
  simp only [Prod.mk.injEq] at eb
  obtain ⟨e1, e2, e3⟩ := eb
  refine ⟨b, hb, e1.symm, fun k => ?_, fun k => ?_⟩
  · cases k <;> simp only [Arrow.box, e2, e3]
  · cases k <;> simp only [Arrow.named, e1]

/-- **C73.** After every UI update of every session, each arrow on the screen begins at a point that the
box it comes from draws for the beginning of arrows, and ends at a point that the box it goes to draws
for their end; and no other point of those boxes can be meant. -/
theorem C73_ends (ph ph' : Phase) (h h' : H) (d : Picture) (es : List PictureEvent)
    (e : PictureEvent) (hr : Reach ph h) (hl : LegalPicture ph (es ++ [e]) ph')
    (run : pictureSteps (es ++ [e]) (h, Picture.start) = some (h', d)) (hu : e.updates = true) :
    ∀ a ∈ d.shown, (∃ s, Meant a.source (sourceHandle a.id) .source s) ∧
      ∃ t, Meant a.target (targetHandle a.id) .target t := by
  intro a ha
  obtain ⟨b, hb, _, h2, h3⟩ := shown_arrow hr hl run hu ha
  obtain ⟨s, _, hs⟩ := arrow_meant hb .source
  obtain ⟨t, _, ht⟩ := arrow_meant hb .target
  rw [← h2, ← h3] at hs ht
  exact ⟨⟨s, hs⟩, t, ht⟩

/-- **C73.** After every UI update of every session, no two ends of arrows on the screen are at the same
place: two arrows may have a box in common, but not a point of it. -/
theorem C73_apart (ph ph' : Phase) (h h' : H) (d : Picture) (es : List PictureEvent)
    (e : PictureEvent) (hr : Reach ph h) (hl : LegalPicture ph (es ++ [e]) ph')
    (run : pictureSteps (es ++ [e]) (h, Picture.start) = some (h', d)) (hu : e.updates = true)
    (a b : Arrow) (ha : a ∈ d.shown) (hb : b ∈ d.shown) (k k' : HandleKind) (s t : Handle)
    (hs : Meant (a.box k) (a.named k) k s) (ht : Meant (b.box k') (b.named k') k' t)
    (same : (a.box k, s.side, s.percent) = (b.box k', t.side, t.percent)) :
    a.id = b.id ∧ k = k' := by
  obtain ⟨a', ma, a1, a2, a3⟩ := shown_arrow hr hl run hu ha
  obtain ⟨b', mb, b1, b2, b3⟩ := shown_arrow hr hl run hu hb
  rw [a2, a3] at hs; rw [b2, b3] at ht; rw [a2, b2] at same; rw [a1, b1]
  obtain ⟨s', es', hs'⟩ := arrow_meant ma k
  obtain ⟨t', et', ht'⟩ := arrow_meant mb k'
  rw [hs.unique hs', ht.unique ht'] at same
  refine Classical.byContradiction fun n => ?_
  refine ends_apart a' ma b' mb k (kind_mem k) k' (kind_mem k') (fun e => n ?_) ?_
  · simp only [Prod.mk.injEq] at e; exact e
  · rw [es', et']; simp only [Option.map_some, same]

/-- **C73.** After every UI update of every session, the arrow between the ALU and the flags that says FZ
goes from the output FZ to the input FZ, the one that says FC from FC to FC, the arrow that says A comes
from the accumulator and ends at the input A, and the one that says B comes from the other operand and
ends at the input B. -/
theorem C73_inputs (ph ph' : Phase) (h h' : H) (d : Picture) (es : List PictureEvent)
    (e : PictureEvent) (hr : Reach ph h) (hl : LegalPicture ph (es ++ [e]) ph')
    (run : pictureSteps (es ++ [e]) (h, Picture.start) = some (h', d)) (hu : e.updates = true) :
    (∀ l ∈ ["FZ", "FC"], ∃ a ∈ d.shown, a.label = some l ∧ a.source = "alu" ∧ a.target = "flags" ∧
      sourceHandle a.id = some ("alu-output-" ++ l) ∧ targetHandle a.id = some ("flags-input-" ++ l)) ∧
    ∀ x ∈ [("A", "acum"), ("B", "2op")], ∃ a ∈ d.shown, a.label = some x.1 ∧ a.source = x.2 ∧
      a.target = "alu" ∧ targetHandle a.id = some ("alu-input-" ++ x.1) := by
  have k := (C61_arrows ph ph' h h' d es e hr hl run hu).2.2.2
  have k' : ∀ a ∈ arrows, (decide (∀ b ∈ boxes, b.load.isSome = true → a.target ≠ b.id) &&
      decide (a.target = "databus" → ∀ b ∈ boxes, b.release.isSome = true → a.source ≠ b.id)) = true →
      a ∈ d.shown := by
    intro a ha hd
    simp only [Bool.and_eq_true, decide_eq_true_iff] at hd
    exact k a ha hd.1 hd.2
  have t1 : ∀ l ∈ ["FZ", "FC"], ∃ a ∈ arrows,
      (decide (∀ b ∈ boxes, b.load.isSome = true → a.target ≠ b.id) &&
      decide (a.target = "databus" → ∀ b ∈ boxes, b.release.isSome = true → a.source ≠ b.id)) = true ∧
      a.label = some l ∧ a.source = "alu" ∧ a.target = "flags" ∧
      sourceHandle a.id = some ("alu-output-" ++ l) ∧
      targetHandle a.id = some ("flags-input-" ++ l) := by decide +kernel
  have t2 : ∀ x ∈ [("A", "acum"), ("B", "2op")], ∃ a ∈ arrows,
      (decide (∀ b ∈ boxes, b.load.isSome = true → a.target ≠ b.id) &&
      decide (a.target = "databus" → ∀ b ∈ boxes, b.release.isSome = true → a.source ≠ b.id)) = true ∧
      a.label = some x.1 ∧ a.source = x.2 ∧ a.target = "alu" ∧
      targetHandle a.id = some ("alu-input-" ++ x.1) := by decide +kernel
  refine ⟨fun l hl => ?_, fun x hx => ?_⟩
  · obtain ⟨a, ha, hd, q⟩ := t1 l hl
    exact ⟨a, k' a ha hd, q⟩
  · obtain ⟨a, ha, hd, q⟩ := t2 x hx
    exact ⟨a, k' a ha hd, q⟩

/-! ## Any box -/

theorem name_inj (id a b : String) (h : some (id ++ a) = some (id ++ b)) : a = b := by
  have := congrArg String.toList (Option.some.inj h)
  rw [String.toList_append, String.toList_append] at this
  exact String.toList_inj.1 (List.append_cancel_left this)

/-- The part of the name of a handle after the id of its box. -/
def ends (l : List (String × HandleKind × Side × Nat)) (id : String) : List Handle :=
  l.map fun x => ⟨some (id ++ x.1), x.2.1, x.2.2.1, x.2.2.2⟩

theorem ends_nodup {l : List (String × HandleKind × Side × Nat)} (id : String)
    (h : (l.map (·.1)).Nodup) : ((ends l id).map (·.id)).Nodup := by
  unfold ends
  rw [List.map_map]
  rw [show ((fun h : Handle => h.id) ∘ fun x : String × HandleKind × Side × Nat =>
      (⟨some (id ++ x.1), x.2.1, x.2.2.1, x.2.2.2⟩ : Handle)) = (fun s => some (id ++ s)) ∘ (·.1) from rfl,
    ← List.map_map]
  exact List.Pairwise.map _ (fun a b n e => n (name_inj id a b e)) h

/-- What `handlesAt` appends to the id. -/
def endsAt (word : String) (side : Side) : Nat → List (String × HandleKind × Side × Nat)
  | 1 => [("-" ++ word ++ "-target-30", .target, side, 30), ("-" ++ word ++ "-source-30", .source, side, 30)]
  | 2 => [("-" ++ word ++ "-source-70", .source, side, 70), ("-" ++ word ++ "-target-70", .target, side, 70),
      ("-" ++ word ++ "-target-30", .target, side, 30), ("-" ++ word ++ "-source-30", .source, side, 30)]
  | _ => []

theorem handlesAt_ends (word : String) (side : Side) (d : HandleData) (id : String) :
    handlesAt word side d id = ends (if d.pos.any (·.contains word) then
      endsAt word side (if d.count = some 1 then 1 else if d.count = some 2 then 2 else 0) else []) id := by
  unfold handlesAt
  by_cases h : d.pos.any (·.contains word) = true
  · rw [if_pos h, if_pos h]
    by_cases h1 : d.count = some 1
    · rw [h1, if_pos rfl, if_pos rfl, if_neg (by decide), List.append_nil]
      simp only [endsAt, ends, List.map_cons, List.map_nil, String.append_assoc]
    · by_cases h2 : d.count = some 2
      · rw [h2, if_pos rfl, if_neg (by decide), if_neg (by decide), if_pos rfl, List.nil_append]
        simp only [endsAt, ends, List.map_cons, List.map_nil, String.append_assoc]
      · rw [if_neg h1, if_neg h2, if_neg h1, if_neg h2]; rfl
  · rw [if_neg h, if_neg h]; rfl

theorem handles_ends (d : HandleData) (id : String) : ∃ n ∈ [0, 1, 2],
    (n = if d.count = some 1 then 1 else if d.count = some 2 then 2 else 0) ∧
    handles d id = ends ((if d.pos.any (·.contains "top") then endsAt "top" .top n else []) ++
      if d.pos.any (·.contains "bottom") then endsAt "bottom" .bottom n else []) id := by
  refine ⟨if d.count = some 1 then 1 else if d.count = some 2 then 2 else 0, ?_, rfl, ?_⟩
  · by_cases h1 : d.count = some 1
    · rw [if_pos h1]; decide
    · rw [if_neg h1]; split <;> decide
  · unfold handles
    rw [handlesAt_ends, handlesAt_ends, ends, ends, ends, List.map_append]

theorem ends_all (n : Nat) (hn : n ∈ [0, 1, 2]) (t b : Bool) (l : List (String × HandleKind × Side × Nat))
    (hl : l = (if t then endsAt "top" .top n else []) ++ if b then endsAt "bottom" .bottom n else []) :
    (l.map (·.1)).Nodup ∧ (l.map (·.2)).Nodup ∧
    (∀ x ∈ l, x.2.2.1 = .top ∧ t = true ∨ x.2.2.1 = .bottom ∧ b = true) ∧
    (t = true → ∀ k, (l.filter fun x => x.2.2.1 = .top ∧ x.2.1 = k).length = n) ∧
    (b = true → ∀ k, (l.filter fun x => x.2.2.1 = .bottom ∧ x.2.1 = k).length = n) := by
  subst hl
  simp only [List.mem_cons, List.not_mem_nil, or_false] at hn
  rcases hn with rfl | rfl | rfl <;> cases t <;> cases b <;>
    refine ⟨by decide, by decide, by decide, fun h k => ?_, fun h k => ?_⟩ <;>
    cases k <;> first | rfl | cases h

theorem ends_filter (l : List (String × HandleKind × Side × Nat)) (id : String) (s : Side)
    (k : HandleKind) : ((ends l id).filter fun h => h.side = s ∧ h.kind = k).length =
      (l.filter fun x => x.2.2.1 = s ∧ x.2.1 = k).length := by
  unfold ends
  rw [List.filter_map, List.length_map]
  rfl

/-- **C73.** Whatever the id and the data of a register box: its handles have different names, and no two
of them have the same place and the same use. They are on the sides that the data name. If the data ask
for one or two, there are as many on each of these sides for the beginning of arrows, and as many for
their end; if they ask for another number, there are none at all. -/
theorem C73_registers (d : HandleData) (id : String) :
    ((handles d id).map (·.id)).Nodup ∧
    ((handles d id).map fun h => (h.kind, h.side, h.percent)).Nodup ∧
    (∀ h ∈ handles d id, ∃ ps, d.pos = some ps ∧
      (h.side = .top ∧ "top" ∈ ps ∨ h.side = .bottom ∧ "bottom" ∈ ps)) ∧
    (∀ n, d.count = some n → n = 1 ∨ n = 2 → ∀ ps, d.pos = some ps → ∀ kind,
      ("top" ∈ ps → ((handles d id).filter fun h => h.side = .top ∧ h.kind = kind).length = n) ∧
      ("bottom" ∈ ps → ((handles d id).filter fun h => h.side = .bottom ∧ h.kind = kind).length = n)) ∧
    (d.count ≠ some 1 → d.count ≠ some 2 → handles d id = []) := by
  obtain ⟨n, hn, en, e⟩ := handles_ends d id
  obtain ⟨h1, h2, h3, h4, h5⟩ := ends_all n hn _ _ _ rfl
  have pos : ∀ w, d.pos.any (·.contains w) = true → ∃ ps, d.pos = some ps ∧ w ∈ ps := by
    intro w h
    cases ep : d.pos with
    | none => rw [ep] at h; cases h
    | some ps => rw [ep] at h; exact ⟨ps, rfl, by simpa using h⟩
  rw [e]
  refine ⟨ends_nodup id h1, ?_, fun h hh => ?_, fun m em hm ps ep kind => ⟨fun w => ?_, fun w => ?_⟩,
    fun n1 n2 => ?_⟩
  · unfold ends
    rw [List.map_map]
    exact h2
  · unfold ends at hh
    obtain ⟨x, hx, rfl⟩ := List.mem_map.1 hh
    rcases h3 x hx with ⟨q1, q2⟩ | ⟨q1, q2⟩
    · obtain ⟨ps, ep, w⟩ := pos _ q2
      exact ⟨ps, ep, .inl ⟨q1, w⟩⟩
    · obtain ⟨ps, ep, w⟩ := pos _ q2
      exact ⟨ps, ep, .inr ⟨q1, w⟩⟩
  · rw [ends_filter, h4 (by rw [ep]; simpa using w) kind, en, em]
    rcases hm with rfl | rfl <;> rfl
  · rw [ends_filter, h5 (by rw [ep]; simpa using w) kind, en, em]
    rcases hm with rfl | rfl <;> rfl
  · rw [if_neg n1, if_neg n2] at en
    subst en
    simp only [endsAt, ite_self, List.append_nil]
    rfl

/-- The boxes of the diagram, and a register box that asks for three. -/
example : (handles ⟨some ["bottom", "top"], some 2⟩ "acum").length = 8 ∧
    handles ⟨some ["top"], some 3⟩ "acum" = [] := by decide +kernel

/-- The bus has twenty points for arrows. -/
example : (drawnHandles.filter fun x => x.1 = "databus").length = 20 := by decide +kernel

/-- After one cycle of a machine that has just been started the arrow from the memory to the data bus is
on the screen, with two ends. -/
example : ∃ ph ph' h h' d e, Reach ph h ∧ LegalPicture ph ([] ++ [e]) ph' ∧ e.updates = true ∧
    pictureSteps ([] ++ [e]) (h, Picture.start) = some (h', d) ∧
    ∃ a ∈ d.shown, a.source = "memory" ∧ a.target = "databus" ∧
      ∃ t, Meant a.target (targetHandle a.id) .target t := by
  obtain ⟨ph, h, h', r, hr, on, ui, run, _⟩ := C52_visited 0 (by decide) (by decide)
  obtain ⟨lg, d, hd⟩ := one_cycle hr on ui run (true, true)
  obtain ⟨_, _, w, _⟩ := C61_arrows _ _ _ _ _ _ _ hr lg hd rfl
  obtain ⟨a, ma, s1, s2, _⟩ := w ⟨"memory", none, none, none, some ("MEMBUS", "get_control_bus_membus")⟩
    (by decide +kernel) _ _ rfl
  exact ⟨ph, ph, h, h', d, _, hr, lg, rfl, hd, a, ma, s1, s2, (C73_ends _ _ _ _ _ _ _ hr lg hd rfl a ma).2⟩

end Mpp
