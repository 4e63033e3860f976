import Verif.Front.MemPanel
import Verif.Props.Boxes
import Verif.Props.Diagram
/-!
# Property C55: the memory box of the diagram
-/
namespace Mpp.Front

/-! ## What the rows should be -/

/-- The offsets next to `n` that exist, and which of them is `n`. -/
def near (n : Nat) : List (Nat × Bool) :=
  ((if n = 0 then [] else [(n - 1, false)]) ++ [(n, true), (n + 1, false)]).filter
    fun c => decide (c.1 < 65536)

/-- The rows are those of the cells next to `n`: the offsets in the one base, the contents in the
other, `n` highlighted. (Offsets are written with small letters.) -/
def Around (h : H) (base setting : Base) (n : Nat) (rows : List MemRow) : Prop :=
  List.Forall₂ (fun (c : Nat × Bool) (r : MemRow) => ∃ i x, i.toNat = c.1 ∧ Cell h i x ∧
    Usual base.radix (r.offset.map Char.toUpper) c.1 ∧ Usual setting.radix r.value x.toNat ∧
    r.marked = c.2) (near n) rows

/-! ## Drawing -/

/-- The rows for one offset of the machine `a`. -/
def A.memRow (a : A) (base setting : Base) (marked : Bool) (o : Int) : List MemRow :=
  let v := a.value (.getMemoryValue (BitVec.ofInt 32 o))
  if v.toInt = -1 then [] else [⟨base.plain o, setting.formatInt v.toInt, marked⟩]

def A.memRows (a : A) (base setting : Base) (n : Nat) : List MemRow :=
  A.memRow a base setting false ((n : Int) - 1) ++ A.memRow a base setting true n ++
    A.memRow a base setting false (n + 1)

theorem getMem {h : H} {a : A} (o : On h a) (v : CInt) :
    exec (.getMemoryValue v) h = some (a.value (.getMemoryValue v), h) := by
  by_cases hv : IsAddr v
  · have e : v = (v.setWidth 16).setWidth 32 := by
      apply BitVec.eq_of_toNat_eq
      unfold IsAddr at hv
      rw [BitVec.toInt_eq_toNat_cond] at hv
      simp only [BitVec.toNat_setWidth]
      split at hv <;> omega
    rw [show a.value (.getMemoryValue v) = (a.mem (v.setWidth 16)).setWidth 32 from if_pos hv]
    have := o.getMemory (v.setWidth 16)
    rwa [← e] at this
  · rw [show a.value (.getMemoryValue v) = -1 from if_neg hv]
    exact On.getMemory_out hv

theorem memRow_on {h : H} {a : A} (o : On h a)
    (base setting : Base) (marked : Bool) (n : Int) :
    memRow h base setting marked n = some (h, A.memRow a base setting marked n) := by
  unfold memRow A.memRow
  rw [getMem o]
  rfl

theorem memRows_on {h : H} {a : A} (o : On h a)
    (base setting : Base) (n : Nat) :
    memRows h base setting n = some (h, A.memRows a base setting n) := by
  unfold memRows A.memRows
  rw [memRow_on o]
  simp only [Option.bind_some, memRow_on o, Option.map_some]

theorem toInt_small {n : Int} (h1 : -2 ^ 31 ≤ n) (h2 : n < 2 ^ 31) : (BitVec.ofInt 32 n).toInt = n := by
  rw [BitVec.toInt_ofInt]
  exact Int.bmod_eq_of_le (by omega) (by omega)

theorem byte_toInt (x : BitVec 8) : (x.setWidth 32).toInt = x.toNat := by
  rw [BitVec.toInt_eq_toNat_cond, BitVec.toNat_setWidth]
  have := x.isLt
  rw [Nat.mod_eq_of_lt (by omega), if_pos (by omega)]

theorem A.memRow_out (a : A) (base setting : Base) (marked : Bool) {n : Int} (h1 : -2 ^ 31 ≤ n)
    (h2 : n < 2 ^ 31) (h : n < 0 ∨ 65536 ≤ n) : A.memRow a base setting marked n = [] := by
  have : ¬ IsAddr (BitVec.ofInt 32 n) := by unfold IsAddr; rw [toInt_small h1 h2]; omega
  unfold A.memRow
  rw [show a.value (.getMemoryValue (BitVec.ofInt 32 n)) = -1 from if_neg this]
  rfl

theorem A.memRow_val (a : A) (base setting : Base) (marked : Bool) (n : Int) (x : BitVec 8)
    (hv : a.value (.getMemoryValue (BitVec.ofInt 32 n)) = x.setWidth 32) :
    A.memRow a base setting marked n = [⟨base.plain n, setting.format x.toNat, marked⟩] := by
  unfold A.memRow
  simp only [hv, byte_toInt]
  have h2 : ¬ ((x.toNat : Int) < 0) := by omega
  rw [if_neg (by omega)]
  simp only [Base.formatInt, if_neg h2, Int.natAbs_natCast]

theorem A.memRow_in (a : A) (base setting : Base) (marked : Bool) {n : Nat} (h : n < 65536) :
    A.memRow a base setting marked n =
      [⟨Nat.toDigits base.radix n, setting.format (a.mem (BitVec.ofNat 16 n)).toNat, marked⟩] := by
  have ht : (BitVec.ofInt 32 (n : Int)).toInt = n := toInt_small (by omega) (by omega)
  have hi : IsAddr (BitVec.ofInt 32 n) := by unfold IsAddr; rw [ht]; omega
  have hv : a.value (.getMemoryValue (BitVec.ofInt 32 n)) = (a.mem (BitVec.ofNat 16 n)).setWidth 32 := by
    rw [show a.value (.getMemoryValue (BitVec.ofInt 32 n)) =
      (a.mem ((BitVec.ofInt 32 (n : Int)).setWidth 16)).setWidth 32 from if_pos hi]
    congr 2
    apply BitVec.eq_of_toNat_eq
    simp
  rw [A.memRow_val a base setting marked _ _ hv]
  have h1 : ¬ ((n : Int) < 0) := by omega
  simp only [Base.plain, if_neg h1, Int.natAbs_natCast]

theorem around_rows {h : H} {a : A} (o : On h a) (base setting : Base) {n : Nat} (hn : n < 2 ^ 31 - 1) :
    Around h base setting n (A.memRows a base setting n) := by
  have row : ∀ (k : Nat) (b : Bool), k < 65536 → ∃ i x, i.toNat = k ∧ Cell h i x ∧
      Usual base.radix ((Nat.toDigits base.radix k).map Char.toUpper) k ∧
      Usual setting.radix (setting.format (a.mem (BitVec.ofNat 16 k)).toNat) x.toNat ∧ b = b := by
    intro k b hk
    refine ⟨BitVec.ofNat 16 k, a.mem (BitVec.ofNat 16 k), ?_, o.getMemory _, format_usual base k,
      format_usual setting _, rfl⟩
    rw [BitVec.toNat_ofNat]; omega
  unfold Around near A.memRows
  have next : ((n : Int) + 1) = ((n + 1 : Nat) : Int) := by omega
  rw [next]
  by_cases h0 : n = 0
  · subst h0
    rw [A.memRow_out a base setting false (by decide) (by decide) (by decide),
      A.memRow_in a base setting true (by decide), A.memRow_in a base setting false (by decide)]
    exact .cons (row 0 true (by decide)) (.cons (row 1 false (by decide)) .nil)
  · have prev : ((n : Int) - 1) = ((n - 1 : Nat) : Int) := by omega
    rw [if_neg h0, prev]
    by_cases h1 : n < 65535
    · rw [A.memRow_in a base setting false (by omega), A.memRow_in a base setting true (by omega),
        A.memRow_in a base setting false (by omega)]
      have e : (([(n - 1, false)] ++ [(n, true), (n + 1, false)]).filter
          fun (c : Nat × Bool) => decide (c.1 < 65536)) = [(n - 1, false), (n, true), (n + 1, false)] := by
        simp [List.filter, show n - 1 < 65536 by omega, show n < 65536 by omega, show n + 1 < 65536 by omega]
      rw [e]
      exact .cons (row _ false (by omega)) (.cons (row _ true (by omega)) (.cons (row _ false (by omega)) .nil))
    · by_cases h2 : n = 65535
      · subst h2
        rw [A.memRow_in a base setting false (by decide), A.memRow_in a base setting true (by decide),
          A.memRow_out a base setting false (by decide) (by decide) (by decide)]
        exact .cons (row _ false (by decide)) (.cons (row _ true (by decide)) .nil)
      · by_cases h3 : n = 65536
        · subst h3
          rw [A.memRow_in a base setting false (by decide),
            A.memRow_out a base setting true (by decide) (by decide) (by decide),
            A.memRow_out a base setting false (by decide) (by decide) (by decide)]
          exact .cons (row _ false (by decide)) .nil
        · rw [A.memRow_out a base setting false (by omega) (by omega) (by omega),
            A.memRow_out a base setting true (by omega) (by omega) (by omega),
            A.memRow_out a base setting false (by omega) (by omega) (by omega)]
          have e : (([(n - 1, false)] ++ [(n, true), (n + 1, false)]).filter
              fun (c : Nat × Bool) => decide (c.1 < 65536)) = [] := by
            simp [List.filter, show ¬ n - 1 < 65536 by omega, show ¬ n < 65536 by omega,
              show ¬ n + 1 < 65536 by omega]
          rw [e]
          exact .nil

/-! ## Sessions -/

theorem draw_on {h : H} {a : A} (o : On h a)
    (m : MemPanel) :
    m.draw h = some (h, { m with rows := A.memRows a m.base m.setting m.field.number }) := by
  unfold MemPanel.draw
  rw [memRows_on o]
  rfl

theorem update_on {h : H} {a : A} (o : On h a)
    (m : MemPanel) :
    m.update h = some (h, { m with
      field := Field.settle m.field.number { m.field with number := a.dir2.toNat }
      le := if a.control.getLsbD Line.le.bit then 1 else 0
      rows := A.memRows a m.base m.setting a.dir2.toNat }) := by
  unfold MemPanel.update
  have hd : (a.dir2.setWidth 32).toNat = a.dir2.toNat := by
    rw [BitVec.toNat_setWidth]; have := a.dir2.isLt; omega
  simp only [o.getMemoryDirBus, o.getControlBit, Option.bind_some, Field.step, hd]
  rw [draw_on o]
  simp only [Field.settle_number]

/-- The two copies of the base agree, and the box is right. -/
structure MemPanel.Sync (m : MemPanel) : Prop where
  base : m.base = m.field.base
  right : m.field.Right

theorem Field.step_base {f f' : Field} {max : Option Nat} {i : Input} (h : f.step max i = some f')
    (hi : ∀ b, i ≠ .pick b) : f'.base = f.base := by
  have hs : ∀ (old : Nat) (f : Field), (f.settle old).base = f.base := by
    intro old f; unfold Field.settle; split <;> rfl
  cases i with
  | type s =>
    simp only [Field.step] at h
    split at h
    · split at h
      · cases h; exact hs _ _
      · cases h
    · cases h; rfl
  | pick b => exact absurd rfl (hi b)
  | prop n => simp only [Field.step, Option.some.injEq] at h; cases h; exact hs _ _

theorem MemEvent.step_sync {p : Phase} {h h' : H} {m m' : MemPanel} (hr : Reach p h) (s : m.Sync)
    {e : MemEvent} (he : e.Allowed p) (run : e.step (h, m) = some (h', m')) :
    Reach (e.after p) h' ∧ m'.Sync := by
  have upd : ∀ {p : Phase} {h h' : H}, Reach p h → p.on = true → m.update h = some (h', m') →
      h' = h ∧ m'.Sync := by
    intro p h h' hr on e
    obtain ⟨a, o⟩ := hr.on on
    rw [update_on o] at e
    cases e
    have hb : ∀ (old : Nat) (f : Field), (f.settle old).base = f.base := by
      intro old f; unfold Field.settle; split <;> rfl
    refine ⟨rfl, ?_, ?_⟩
    · show m.base = (Field.settle _ _).base
      rw [hb]
      exact s.base
    · have := Field.step_right (max := none) s.right (i := .prop a.dir2.toNat) rfl
      exact this
  cases e with
  | call c =>
    obtain ⟨v, h1, e1, _⟩ := hr.inv.call c he
    have r1 := hr.step he e1
    simp only [MemEvent.step, e1, Option.bind_some] at run
    by_cases hn : c.notifies = true
    · rw [if_pos hn] at run
      have on : (c.after p).on = true := by
        cases c <;> first | exact he.1 | (simp [Call.notifies] at hn)
      obtain ⟨rfl, s'⟩ := upd r1 on run
      exact ⟨r1, s'⟩
    · rw [if_neg hn] at run
      cases run
      exact ⟨r1, s⟩
  | notify =>
    obtain ⟨rfl, s'⟩ := upd hr he run
    exact ⟨hr, s'⟩
  | setting b => cases run; exact ⟨hr, s.base, s.right⟩
  | type t =>
    obtain ⟨a, o⟩ := hr.on he
    simp only [MemEvent.step, Option.bind_eq_some_iff] at run
    obtain ⟨f, e1, e2⟩ := run
    have right := Field.step_right s.right e1
    have hb := Field.step_base e1 (by intro b h; cases h)
    by_cases hc : f.number = m.field.number ∧ (if f.valid = true then f.base else m.base) = m.base
    · rw [if_pos hc] at e2
      cases e2; exact ⟨hr, s.base.trans hb.symm, right⟩
    · rw [if_neg hc, draw_on o] at e2
      cases e2
      refine ⟨hr, ?_, right⟩
      show (if f.valid = true then f.base else m.base) = f.base
      split
      · rfl
      · exact s.base.trans hb.symm
  | pick b =>
    obtain ⟨a, o⟩ := hr.on he
    simp only [MemEvent.step, Option.bind_eq_some_iff] at run
    obtain ⟨f, e1, e2⟩ := run
    have right := Field.step_right s.right e1
    simp only [Field.step, if_neg (format_ne b m.field.number), Option.some.injEq] at e1
    split at e2
    · rename_i hb
      cases e2; cases e1
      exact ⟨hr, hb.symm, right⟩
    · rw [draw_on o] at e2
      cases e2; cases e1
      exact ⟨hr, rfl, right⟩

theorem memSteps_sync {p p' : Phase} {h h' : H} {m m' : MemPanel} (hr : Reach p h) (s : m.Sync)
    (es : List MemEvent) (hl : LegalMem p es p') (run : memSteps es (h, m) = some (h', m')) :
    Reach p' h' ∧ m'.Sync := by
  induction es generalizing p h m with
  | nil => cases hl; cases run; exact ⟨hr, s⟩
  | cons e es ih =>
    simp only [memSteps, Option.bind_eq_some_iff] at run
    obtain ⟨⟨h1, m1⟩, e1, e2⟩ := run
    obtain ⟨r1, s1⟩ := MemEvent.step_sync hr s hl.1 e1
    exact ih r1 s1 hl.2 e2

theorem memSteps_append (es ds : List MemEvent) (x : H × MemPanel) :
    memSteps (es ++ ds) x = (memSteps es x).bind (memSteps ds) := by
  induction es generalizing x with
  | nil => rfl
  | cons e es ih =>
    simp only [List.cons_append, memSteps]
    cases e.step x with
    | none => rfl
    | some y => simp only [Option.bind_some]; exact ih y

theorem LegalMem.split {p p' : Phase} {es : List MemEvent} {e : MemEvent}
    (hl : LegalMem p (es ++ [e]) p') : ∃ q, LegalMem p es q ∧ e.Allowed q ∧ p' = e.after q := by
  induction es generalizing p with
  | nil => exact ⟨p, rfl, hl.1, hl.2⟩
  | cons d es ih =>
    obtain ⟨q, h1, h2⟩ := ih hl.2
    exact ⟨q, ⟨hl.1, h1⟩, h2⟩

theorem start_sync {p : Phase} {h h' : H} {setting : Base} {m : MemPanel} (hr : Reach p h)
    (on : p.on = true) (start : MemPanel.start h setting = some (h', m)) : h' = h ∧ m.Sync := by
  obtain ⟨a, o⟩ := hr.on on
  unfold MemPanel.start at start
  rw [draw_on o] at start
  cases start
  exact ⟨rfl, rfl, fun _ => rfl⟩

/-- The calls that end with the UI callback. -/
def CallsBack (c : Call) : Prop :=
  (∃ i v, c = .setMemoryValue i v) ∨ (∃ v, c = .setRegisterPc v) ∨ c = .runClockCycle true

/-- **C55.** Whatever is done with the core, the search box and the settings, after every UI update the
memory box shows the cell that the address bus points to and its neighbours, with their present
contents, highlights it, and says "reading" or "writing" as the control line LE is. -/
theorem C55_update (ph ph' : Phase) (h h' h0 : H) (setting : Base) (m m' : MemPanel)
    (es : List MemEvent) (e : MemEvent) (hr : Reach ph h) (on : ph.on = true)
    (start : MemPanel.start h setting = some (h0, m)) (hl : LegalMem ph (es ++ [e]) ph')
    (hu : e = .notify ∨ ∃ c, e = .call c ∧ CallsBack c)
    (run : memSteps (es ++ [e]) (h0, m) = some (h', m')) :
    ∃ d, exec .getMemoryDirBus h' = some (d, h') ∧ Mpp.Reads h' "get_control_bus_le" m'.le ∧
      m'.field.number = d.toNat ∧ d.toNat < 65536 ∧
      Around h' m'.field.base m'.setting d.toNat m'.rows := by
  have hu : e.updates = true := by
    rcases hu with rfl | ⟨_, rfl, ⟨_, _, rfl⟩ | ⟨_, rfl⟩ | rfl⟩ <;> rfl
  obtain ⟨rfl, s0⟩ := start_sync hr on start
  obtain ⟨q, l1, l2, l3⟩ := hl.split
  rw [memSteps_append, Option.bind_eq_some_iff] at run
  obtain ⟨⟨h1, m1⟩, e1, e2⟩ := run
  obtain ⟨r1, s1⟩ := memSteps_sync hr s0 es l1 e1
  simp only [memSteps, Option.bind_eq_some_iff] at e2
  obtain ⟨⟨h2, m2⟩, e2, e3⟩ := e2
  cases e3
  obtain ⟨_, s2⟩ := MemEvent.step_sync r1 s1 l2 e2
  have upd : ∀ {p : Phase} {h : H}, Reach p h → p.on = true → m1.update h = some (h', m') →
      ∃ d, exec .getMemoryDirBus h' = some (d, h') ∧ Mpp.Reads h' "get_control_bus_le" m'.le ∧
        m'.field.number = d.toNat ∧ d.toNat < 65536 ∧
        Around h' m'.field.base m'.setting d.toNat m'.rows := by
    intro p h hr on e
    obtain ⟨a, o⟩ := hr.on on
    have hd : (a.dir2.setWidth 32).toNat = a.dir2.toNat := by
      rw [BitVec.toNat_setWidth]; have := a.dir2.isLt; omega
    rw [update_on o] at e
    cases e
    refine ⟨_, o.getMemoryDirBus, ⟨_, rfl, o.getControlBit _⟩, ?_, ?_, ?_⟩
    · rw [hd, Field.settle_number]
    · rw [hd]; exact a.dir2.isLt
    · rw [hd, ← s2.base]
      exact around_rows o _ _ (by have := a.dir2.isLt; omega)
  cases e with
  | call c =>
    obtain ⟨v, h3, e3, _⟩ := r1.inv.call c l2
    have r3 := r1.step l2 e3
    simp only [MemEvent.step, e3, Option.bind_some] at e2
    rw [if_pos (show c.notifies = true from hu)] at e2
    refine upd r3 ?_ e2
    cases c <;> first | exact l2.1 | cases hu
  | notify => exact upd r1 l2 e2
  | type s => cases hu
  | pick b => cases hu
  | setting b => cases hu

/-- **C55.** Typing a numeral of an offset that is not shown yet shows that cell and its neighbours. -/
theorem C55_search (ph ph' : Phase) (h h' h0 : H) (setting : Base) (m m' : MemPanel)
    (es : List MemEvent) (s : Str) (n : Nat) (hr : Reach ph h) (on : ph.on = true)
    (start : MemPanel.start h setting = some (h0, m)) (hl : LegalMem ph (es ++ [.type s]) ph')
    (run : memSteps es (h0, m) = some (h', m')) (hs : Numeral m'.field.base.radix s n)
    (hn : n < 2 ^ 31 - 1) (new : n ≠ m'.field.number) :
    ∃ m'', memSteps (es ++ [.type s]) (h0, m) = some (h', m'') ∧ m''.field.number = n ∧
      m''.field.base = m'.field.base ∧ Around h' m''.field.base m'.setting n m''.rows := by
  obtain ⟨rfl, s0⟩ := start_sync hr on start
  obtain ⟨q, l1, l2, l3⟩ := hl.split
  obtain ⟨r1, s1⟩ := memSteps_sync hr s0 es l1 run
  obtain ⟨a, o⟩ := r1.on l2
  obtain ⟨f, e1, e2, e3, e4, e5⟩ := C54_type none m'.field s n hs (by omega)
  rw [memSteps_append, run]
  simp only [Option.bind_some, memSteps, MemEvent.step, e1, e3, if_true]
  simp only at e5
  rw [if_neg (by rw [e5]; exact fun h => new h.1), draw_on o]
  refine ⟨_, rfl, e5, e2, ?_⟩
  show Around _ f.base m'.setting n (A.memRows a f.base m'.setting f.number)
  rw [e5]
  exact around_rows o _ _ hn

/-- **C55, false in general.** The search box takes numbers beyond the memory, and 2^32 is taken for
0: searching for hexadecimal 100000000, from any box that shows something else, shows the contents of
cells 0 and 1 with the offsets 100000000 and 100000001. -/
theorem C55_alias_wrong (ph : Phase) (h : H) (m : MemPanel) (hr : Reach ph h) (on : ph.on = true)
    (hb : m.field.base = .hex) (new : m.field.number ≠ 0x100000000) :
    ∃ m' x y v w, MemEvent.step (.type "100000000".toList) (h, m) = some (h, m') ∧
      m'.field.valid = true ∧ Cell h 0 x ∧ Cell h 1 y ∧ Usual m.setting.radix v x.toNat ∧
      Usual m.setting.radix w y.toNat ∧
      m'.rows = [⟨"100000000".toList, v, true⟩, ⟨"100000001".toList, w, false⟩] := by
  obtain ⟨a, o⟩ := hr.on on
  have hs : Numeral m.field.base.radix "100000000".toList 0x100000000 := by
    rw [hb]
    have := format_usual .hex 0x100000000
    have e : Base.hex.format 0x100000000 = "100000000".toList := by decide +kernel
    rw [e] at this
    exact this.value
  obtain ⟨f, e1, e2, e3, e4, e5⟩ := C54_type none m.field _ _ hs (by decide)
  simp only at e5
  simp only [MemEvent.step, e1, Option.bind_some, e3, if_true]
  rw [if_neg (by rw [e5]; exact fun h => new h.1.symm), draw_on o]
  refine ⟨_, a.mem 0, a.mem 1, _, _, rfl, e3, o.getMemory 0, o.getMemory 1, format_usual _ _,
    format_usual _ _, ?_⟩
  show A.memRows a f.base m.setting f.number = _
  rw [e5, e2, hb]
  have r1 : A.memRow a .hex m.setting false (((0x100000000 : Nat) : Int) - 1) = [] := rfl
  have r2 : A.memRow a .hex m.setting true ((0x100000000 : Nat) : Int) =
      [⟨"100000000".toList, m.setting.format (a.mem 0).toNat, true⟩] := by
    rw [A.memRow_val a .hex m.setting true _ (a.mem 0) rfl]
    congr 2
  have r3 : A.memRow a .hex m.setting false (((0x100000000 : Nat) : Int) + 1) =
      [⟨"100000001".toList, m.setting.format (a.mem 1).toNat, false⟩] := by
    rw [A.memRow_val a .hex m.setting false _ (a.mem 1) rfl]
    congr 2
  unfold A.memRows
  rw [r1, r2, r3]
  rfl

/-! ## Between updates -/

/-- Everything but the fast clock cycles, which call no UI update, starting and stopping the core, and
changing the setting. -/
def MemEvent.quiet : MemEvent → Bool
  | .call (.runClockCycle u) => u
  | .call (.init _) => false
  | .call .shutdown => false
  | .setting _ => false
  | _ => true

theorem notNotify_mem {c : Call} (a : A) (hq : (MemEvent.call c).quiet = true)
    (hn : ¬ c.notifies = true) : (a.call c).mem = a.mem := by
  cases c <;> first | rfl | exact absurd hq hn

theorem A.memRows_mem {a a' : A} (h : a.mem = a'.mem) (base setting : Base) (n : Nat) :
    A.memRows a base setting n = A.memRows a' base setting n := by
  have : ∀ v, a.value (.getMemoryValue v) = a'.value (.getMemoryValue v) := by
    intro v
    show (if IsAddr v then (a.mem (v.setWidth 16)).setWidth 32 else -1) =
      if IsAddr v then (a'.mem (v.setWidth 16)).setWidth 32 else -1
    rw [h]
  simp only [A.memRows, A.memRow, this]

theorem quiet_step {p : Phase} {h h' : H} {a : A} {m m' : MemPanel} (hr : Reach p h)
    (on : p.on = true) (o : On h a) (fresh : m.rows = A.memRows a m.base m.setting m.field.number)
    {e : MemEvent} (he : e.Allowed p) (hq : e.quiet = true) (run : e.step (h, m) = some (h', m')) :
    (e.after p).on = true ∧ m'.setting = m.setting ∧
      ∃ a', On h' a' ∧ m'.rows = A.memRows a' m'.base m'.setting m'.field.number := by
  cases e with
  | call c =>
    have hi : c.inner = true := by cases c <;> first | rfl | cases hq
    obtain ⟨h1, e1, o1⟩ := o.call hr.inv c he hi
    have on1 : (c.after p).on = true := by cases c <;> first | exact on | cases hq
    simp only [MemEvent.step, e1, Option.bind_some] at run
    by_cases hn : c.notifies = true
    · rw [if_pos hn, update_on o1] at run
      cases run
      refine ⟨on1, rfl, _, o1, ?_⟩
      show _ = A.memRows _ m.base m.setting (Field.settle _ _).number
      rw [Field.settle_number]
    · rw [if_neg hn] at run
      cases run
      exact ⟨on1, rfl, _, o1, fresh.trans (A.memRows_mem (notNotify_mem a hq hn).symm _ _ _)⟩
  | notify =>
    simp only [MemEvent.step, update_on o] at run
    cases run
    refine ⟨on, rfl, _, o, ?_⟩
    show _ = A.memRows _ m.base m.setting (Field.settle _ _).number
    rw [Field.settle_number]
  | setting b => cases hq
  | type t =>
    simp only [MemEvent.step, Option.bind_eq_some_iff] at run
    obtain ⟨f, e1, e2⟩ := run
    by_cases hc : f.number = m.field.number ∧ (if f.valid = true then f.base else m.base) = m.base
    · rw [if_pos hc] at e2
      cases e2
      refine ⟨on, rfl, a, o, ?_⟩
      show m.rows = A.memRows a m.base m.setting f.number
      rw [hc.1]; exact fresh
    · rw [if_neg hc, draw_on o] at e2
      cases e2
      exact ⟨on, rfl, a, o, rfl⟩
  | pick b =>
    simp only [MemEvent.step, Option.bind_eq_some_iff] at run
    obtain ⟨f, e1, e2⟩ := run
    simp only [Field.step, if_neg (format_ne b m.field.number), Option.some.injEq] at e1
    split at e2
    · cases e2; cases e1
      exact ⟨on, rfl, a, o, fresh⟩
    · rw [draw_on o] at e2
      cases e2; cases e1
      exact ⟨on, rfl, a, o, rfl⟩

/-- **C55.** As long as no clock cycle runs without a UI update, the setting stays, and the core is not
stopped, what the memory box shows is never out of date: at any moment its rows are the cells next to
its number with their present contents. -/
theorem C55_fresh (ph ph' : Phase) (h h' h0 : H) (setting : Base) (m m' : MemPanel)
    (es : List MemEvent) (hr : Reach ph h) (on : ph.on = true)
    (start : MemPanel.start h setting = some (h0, m)) (hl : LegalMem ph es ph')
    (hq : ∀ e ∈ es, e.quiet = true) (run : memSteps es (h0, m) = some (h', m'))
    (hn : m'.field.number < 2 ^ 31 - 1) :
    Around h' m'.field.base setting m'.field.number m'.rows := by
  obtain ⟨a, o⟩ := hr.on on
  obtain ⟨rfl, s0⟩ := start_sync hr on start
  have f0 : m.rows = A.memRows a m.base m.setting m.field.number ∧ m.setting = setting := by
    unfold MemPanel.start at start
    rw [draw_on o] at start
    cases start
    exact ⟨rfl, rfl⟩
  obtain ⟨f0, hset⟩ := f0
  obtain ⟨_, s1⟩ := memSteps_sync hr s0 es hl run
  suffices ∃ a', On h' a' ∧ m'.rows = A.memRows a' m'.base m'.setting m'.field.number ∧
      m'.setting = setting by
    obtain ⟨a', o', e, e'⟩ := this
    rw [e, ← s1.base, e']
    exact around_rows o' _ _ hn
  clear start
  induction es generalizing ph h0 m a with
  | nil => cases run; exact ⟨a, o, f0, hset⟩
  | cons e es ih =>
    simp only [memSteps, Option.bind_eq_some_iff] at run
    obtain ⟨⟨h1, m1⟩, e1, e2⟩ := run
    obtain ⟨on1, hs1, a1, o1, f1⟩ := quiet_step hr on o f0 hl.1 (hq e (by simp)) e1
    obtain ⟨r1, s2⟩ := MemEvent.step_sync hr s0 hl.1 e1
    exact ih (e.after ph) h1 m1 on1 hl.2 (fun e he => hq e (by simp [he])) e2 a1 s2 r1 o1 f1
      (hs1.trans hset)

theorem forall2_mem {α β : Type} {R : α → β → Prop} {l : List α} {k : List β} (h : List.Forall₂ R l k)
    {a : α} (ha : a ∈ l) : ∃ b ∈ k, R a b := by
  induction h with
  | nil => cases ha
  | cons h _ ih =>
    rcases List.mem_cons.1 ha with rfl | ha
    · exact ⟨_, by simp, h⟩
    · obtain ⟨b, hb, hr⟩ := ih ha
      exact ⟨b, by simp [hb], hr⟩

/-- **C55.** If a clock cycle with a UI update leaves the memory box saying "writing" (LE is 0), then
exactly the highlighted cell was written: its row shows the content, which is on the data bus, and no
other cell changed. -/
theorem C55_written (ph ph' : Phase) (h h0 h1 h' : H) (setting : Base) (m m1 m' : MemPanel)
    (es : List MemEvent) (hr : Reach ph h) (on : ph.on = true)
    (start : MemPanel.start h setting = some (h0, m))
    (hl : LegalMem ph (es ++ [.call (.runClockCycle true)]) ph')
    (before : memSteps es (h0, m) = some (h1, m1))
    (run : memSteps (es ++ [.call (.runClockCycle true)]) (h0, m) = some (h', m')) (le : m'.le = 0) :
    ∃ i x r, r ∈ m'.rows ∧ r.marked = true ∧
      Usual m'.field.base.radix (r.offset.map Char.toUpper) i.toNat ∧
      Usual m'.setting.radix r.value x.toNat ∧ Cell h' i x ∧
      exec .getDataBus h' = some (x.setWidth 32, h') ∧
      ∀ j y, j ≠ i → Cell h1 j y → Cell h' j y := by
  obtain ⟨d, u1, u2, u3, u4, u5⟩ := C55_update ph ph' h h' h0 setting m m' es _ hr on start hl
    (.inr ⟨_, rfl, .inr (.inr rfl)⟩) run
  obtain ⟨rfl, s0⟩ := start_sync hr on start
  obtain ⟨q, l1, l2, l3⟩ := hl.split
  obtain ⟨r1, s1⟩ := memSteps_sync hr s0 es l1 before
  have hex : ∃ r, exec (.runClockCycle true) h1 = some (r, h') := by
    obtain ⟨v, h3, e3, _⟩ := r1.inv.call (.runClockCycle true) l2
    rw [memSteps_append, before] at run
    simp only [Option.bind_some, memSteps, MemEvent.step, e3, Call.notifies, if_true,
      Option.bind_eq_some_iff] at run
    obtain ⟨⟨h4, m4⟩, e4, e5⟩ := run
    cases e5
    obtain ⟨a, o⟩ := (r1.step (c := .runClockCycle true) l2 e3).on l2.1
    rw [update_on o] at e4
    cases e4
    exact ⟨v, e3⟩
  obtain ⟨r, hex⟩ := hex
  rw [le] at u2
  obtain ⟨i, x, w1, w2, w3, w4⟩ := (C52_le q h1 h' true r r1 l2.1 l2.2 hex).2 u2
  have w1 := w1.exec rfl
  rw [u1] at w1
  have hd : d.toNat = i.toNat := by
    rw [some_inj w1, BitVec.toNat_setWidth]; have := i.isLt; omega
  have w2 := w2.exec rfl
  have hm : (i.toNat, true) ∈ near d.toNat := by
    rw [hd]
    unfold near
    rw [List.mem_filter]
    exact ⟨by simp, by simpa using i.isLt⟩
  obtain ⟨row, hrow, j, y, hj, hy, k1, k2, k3⟩ := forall2_mem u5 hm
  have : j = i := BitVec.eq_of_toNat_eq hj
  subst this
  have : y = x := widen8_inj (some_inj (hy.symm.trans w3))
  subst this
  exact ⟨j, y, row, hrow, k3, k1, k2, w3, w2, w4⟩

/-! ## Drawing is always possible -/

theorem parse_lt {r : Nat} (h16 : r ≤ 16) (s : Str) (acc : Nat) :
    parseIntFrom r acc s < (acc + 1) * 16 ^ s.length := by
  have grow : ∀ (k acc : Nat), acc < (acc + 1) * 16 ^ k := by
    intro k acc
    have : 0 < 16 ^ k := Nat.pow_pos (by decide)
    exact Nat.lt_of_lt_of_le (Nat.lt_succ_self acc) (Nat.le_mul_of_pos_right _ this)
  induction s generalizing acc with
  | nil => simp [parseIntFrom]
  | cons c s ih =>
    rw [parseIntFrom]
    split
    · rename_i d hd
      split
      · rename_i hr
        refine Nat.lt_of_lt_of_le (ih _) ?_
        rw [List.length_cons, Nat.pow_succ, Nat.mul_comm (16 ^ s.length) 16, ← Nat.mul_assoc]
        apply Nat.mul_le_mul_right
        have : r * acc ≤ 16 * acc := Nat.mul_le_mul_right _ h16
        omega
      · exact grow _ _
    · exact grow _ _

theorem type_small {f : Field} {s : Str} (hs : s.length ≤ 13) :
    ∃ f', f.step none (.type s) = some f' := by
  have : f.base.parse s < 2 ^ 53 := by
    have h := parse_lt (radix_le f.base) s 0
    have : 16 ^ s.length ≤ 16 ^ 13 := Nat.pow_le_pow_right (by decide) hs
    unfold Base.parse
    omega
  simp only [Field.step, if_pos this]
  split <;> exact ⟨_, rfl⟩

/-- **C55.** The memory box can be drawn in every session in which nobody types more than 13
characters into it (that many digits make a number below 2^53). -/
theorem C55_drawn (ph ph' : Phase) (h : H) (setting : Base) (es : List MemEvent) (hr : Reach ph h)
    (on : ph.on = true) (hl : LegalMem ph es ph')
    (small : ∀ s, MemEvent.type s ∈ es → s.length ≤ 13) :
    ∃ m, MemPanel.start h setting = some (h, m) ∧ ∃ h' m', memSteps es (h, m) = some (h', m') := by
  obtain ⟨a, o⟩ := hr.on on
  obtain ⟨m, e⟩ : ∃ m, MemPanel.start h setting = some (h, m) := ⟨_, draw_on o _⟩
  have s0 := (start_sync hr on e).2
  refine ⟨m, e, ?_⟩
  clear o on a e
  induction es generalizing ph h m with
  | nil => exact ⟨h, m, rfl⟩
  | cons e es ih =>
    have upd : ∀ {p : Phase} {h : H}, Reach p h → p.on = true → ∃ m', m.update h = some (h, m') := by
      intro p h hr on
      obtain ⟨a, o⟩ := hr.on on
      exact ⟨_, update_on o m⟩
    have key : ∃ h1 m1, e.step (h, m) = some (h1, m1) := by
      cases e with
      | call c =>
        obtain ⟨v, h1, e1, _⟩ := hr.inv.call c hl.1
        have r1 := hr.step (c := c) hl.1 e1
        simp only [MemEvent.step, e1, Option.bind_some]
        by_cases hn : c.notifies = true
        · have on1 : (c.after ph).on = true := by
            have := hl.1
            cases c <;> first | exact this.1 | (simp [Call.notifies] at hn)
          obtain ⟨m1, e2⟩ := upd r1 on1
          rw [if_pos hn]
          exact ⟨h1, m1, e2⟩
        · rw [if_neg hn]
          exact ⟨h1, m, rfl⟩
      | notify =>
        obtain ⟨m1, e2⟩ := upd hr hl.1
        exact ⟨h, m1, e2⟩
      | setting b => exact ⟨h, _, rfl⟩
      | type t =>
        obtain ⟨a, o⟩ := hr.on hl.1
        obtain ⟨f, e1⟩ := type_small (f := m.field) (small t (by simp))
        simp only [MemEvent.step, e1, Option.bind_some]
        by_cases hc : f.number = m.field.number ∧ (if f.valid = true then f.base else m.base) = m.base
        · rw [if_pos hc]; exact ⟨h, _, rfl⟩
        · rw [if_neg hc]; exact ⟨h, _, draw_on o _⟩
      | pick b =>
        obtain ⟨a, o⟩ := hr.on hl.1
        simp only [MemEvent.step, Field.step, Option.bind_some]
        split
        · exact ⟨h, _, rfl⟩
        · exact ⟨h, _, draw_on o _⟩
    obtain ⟨h1, m1, e1⟩ := key
    obtain ⟨r1, s1⟩ := MemEvent.step_sync hr s0 hl.1 e1
    obtain ⟨h2, m2, e2⟩ := ih (e.after ph) h1 r1 hl.2 (fun s hs => small s (by simp [hs])) m1 s1
    exact ⟨h2, m2, by simp only [memSteps, e1, Option.bind_some, e2]⟩

/-! ## Cases -/

/-- A machine in use that executes S36 next: after the clock cycle the box says "writing". -/
example : ∃ ph h h0 h' m m' ph', Reach ph h ∧ ph.on = true ∧ MemPanel.start h .dec = some (h0, m) ∧
    LegalMem ph ([.pick .dec, .type "300".toList] ++ [.call (.runClockCycle true)]) ph' ∧
    memSteps ([.pick .dec, .type "300".toList] ++ [.call (.runClockCycle true)]) (h0, m) =
      some (h', m') ∧ m'.le = 0 := by
  obtain ⟨ph, h, h', r, hr, on, ui, run, st⟩ := C52_visited 36 (by decide) (by decide)
  have hl : LegalMem ph ([.pick .dec, .type "300".toList] ++ [.call (.runClockCycle true)]) ph :=
    ⟨on, on, ⟨on, fun _ => ui⟩, rfl⟩
  obtain ⟨m, e1, h2, m', e2⟩ := C55_drawn ph ph h .dec _ hr on hl (by
    intro s hs
    simp at hs
    subst hs
    decide)
  refine ⟨ph, h, h, h2, m, m', ph, hr, on, e1, hl, e2, ?_⟩
  obtain ⟨v, k, d, s⟩ := hr.seen on (fun _ => ui) run
  have hk : k.toNat = 36 := by
    have := s.isState (by decide) st; rw [this, BitVec.toNat_ofNat]
  have hle := s.line .le
  rw [hk, if_neg (by decide)] at hle
  obtain ⟨d, u1, u2, _⟩ := C55_update ph ph h h2 h .dec m m' _ _ hr on e1 hl
    (.inr ⟨_, rfl, .inr (.inr rfl)⟩) e2
  have he : h2 = h' := by
    rw [memSteps_append, Option.bind_eq_some_iff] at e2
    obtain ⟨⟨h3, m3⟩, e3, e4⟩ := e2
    have : h3 = h := by
      obtain ⟨a, o⟩ := hr.on on
      simp only [memSteps, Option.bind_eq_some_iff] at e3
      obtain ⟨⟨h4, m4⟩, e5, ⟨h6, m6⟩, e6, e7⟩ := e3
      cases e7
      have h4e : h4 = h := by
        simp only [MemEvent.step, Option.bind_eq_some_iff] at e5
        obtain ⟨f, _, e5⟩ := e5
        split at e5
        · cases e5; rfl
        · rw [draw_on o] at e5; cases e5; rfl
      subst h4e
      simp only [MemEvent.step, Option.bind_eq_some_iff] at e6
      obtain ⟨f, _, e6⟩ := e6
      by_cases hc : f.number = m4.field.number ∧ (if f.valid = true then f.base else m4.base) = m4.base
      · rw [if_pos hc] at e6; cases e6; rfl
      · rw [if_neg hc, draw_on o] at e6; cases e6; rfl
    subst this
    have r1 : Reach ph h' := hr.cycle on ui run
    obtain ⟨a, o⟩ := r1.on on
    simp only [memSteps, MemEvent.step, run, Option.bind_some, Call.notifies, if_true, update_on o] at e4
    cases e4
    rfl
  subst he
  exact some_inj ((u2.exec rfl).symm.trans hle)

end Mpp.Front
