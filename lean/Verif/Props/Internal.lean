import Verif.Pair
import Verif.Props.Machine
import Verif.Loader
/-!
# Property C87: 2OP, H, L and RI are internal

`docs/src/pages/es/components/2OP.mdx:9-11`: the auxiliary register is used by the microinstructions, "being an internal
register the programmer has no access to it". No instruction makes use of what an earlier instruction left in 2OP, in H
and L or in RI: two machines that differ in these alone cannot be told apart by anything else, clock cycle by clock cycle.
-/
namespace Mpp

/-- Which of the internal registers may be different. -/
structure Taint where
  op2 : Bool
  h : Bool
  l : Bool
  ri : Bool
  deriving DecidableEq

namespace Taint

def all : Taint := ⟨true, true, true, true⟩

/-- What may be different after the microstate `S k`; `none` if it reads a register that may be different. -/
def after (t : Taint) : Nat → Option Taint
  | 0 => some { t with ri := false }
  | 1 | 14 | 23 | 24 | 26 | 28 | 29 | 31 | 32 | 33 | 34 | 35 | 36 | 37 | 40 | 41 | 43 => some t
  | 2 => if t.ri then none else some { t with op2 := false }
  | 12 | 15 => some { t with op2 := false }
  | 3 | 8 | 39 | 44 => if t.op2 || t.ri then none else some t
  | 4 | 5 | 6 | 7 | 9 | 10 | 11 | 13 => if t.op2 then none else some t
  | 16 | 21 => some { t with h := false }
  | 17 | 22 => some { t with l := false }
  | 18 => if t.h || t.l then none else some { t with op2 := false }
  | 19 => if t.h || t.l || t.op2 then none else some t
  | 20 | 38 => if t.h || t.l then none else some t
  | _ => none

def safe : Taint → List (BitVec 6) → Bool
  | _, [] => true
  | t, s :: l => match t.after s.toNat with
    | none => false
    | some t' => t'.safe l

end Taint

/-- The same, the internal registers aside that may be different. -/
structure AgreeBut (t : Taint) (v w : V) : Prop where
  ac : v.ac = w.ac
  b : v.b = w.b
  c : v.c = w.c
  d : v.d = w.d
  e : v.e = w.e
  pch : v.pch = w.pch
  pcl : v.pcl = w.pcl
  pc : v.pc = w.pc
  sp : v.sp = w.sp
  fc : v.fc = w.fc
  fz : v.fz = w.fz
  mem : v.mem = w.mem
  log : v.log = w.log
  h : t.h = false → v.h = w.h
  l : t.l = false → v.l = w.l
  op2 : t.op2 = false → v.op2 = w.op2
  ri : t.ri = false → v.ri = w.ri

theorem AgreeBut.all {t : Taint} {v w : V} (h : AgreeBut t v w) : AgreeBut .all v w :=
  { h with h := fun e => (by cases e), l := fun e => (by cases e), op2 := fun e => (by cases e),
           ri := fun e => (by cases e) }

section
variable {t : Taint} {v w : V} (h : AgreeBut t v w)
include h

theorem AgreeBut.incPc : AgreeBut t v.incPc w.incPc := by
  unfold V.incPc
  rw [h.pc]
  split
  · exact { h with pc := rfl, log := congrArg (_ :: ·) h.log }
  · exact { h with pc := rfl, pch := rfl, pcl := rfl }

theorem AgreeBut.decSp : AgreeBut t v.decSp w.decSp := by
  unfold V.decSp
  rw [h.sp]
  split
  · exact { h with sp := rfl, log := congrArg (_ :: ·) h.log }
  · exact { h with sp := rfl }

theorem AgreeBut.incSp : AgreeBut t v.incSp w.incSp := by
  unfold V.incSp
  rw [h.sp]
  split
  · exact { h with sp := rfl, log := congrArg (_ :: ·) h.log }
  · exact { h with sp := rfl }

theorem AgreeBut.at (a a' : BitVec 16) (e : a = a') : v.mem a = w.mem a' := by rw [h.mem, e]

theorem AgreeBut.store (a a' : BitVec 16) (x x' : BitVec 8) (e : a = a') (e' : x = x') :
    AgreeBut t (v.store a x) (w.store a' x') := by
  subst e e'
  exact { h with mem := congrArg (upd · a x) h.mem }

theorem AgreeBut.setR (i i' : BitVec 2) (x x' : BitVec 8) (e : i = i') (e' : x = x') :
    AgreeBut t (v.setR i x) (w.setR i' x') := by
  subst e e'
  exact { h with
    b := by show (if i = 0 then x else v.b) = if i = 0 then x else w.b; rw [h.b]
    c := by show (if i = 1 then x else v.c) = if i = 1 then x else w.c; rw [h.c]
    d := by show (if i = 2 then x else v.d) = if i = 2 then x else w.d; rw [h.d]
    e := by show (if i = 3 then x else v.e) = if i = 3 then x else w.e; rw [h.e] }

theorem AgreeBut.setAc (x x' : BitVec 8) (c c' : Bool) (e : x = x') (e' : c = c') :
    AgreeBut t (v.setAcFlags x c) (w.setAcFlags x' c') := by
  subst e e'
  exact { h with ac := rfl, fc := rfl, fz := rfl }

theorem AgreeBut.low (e : t.ri = false) : v.lowSel = w.lowSel := by unfold V.lowSel; rw [h.ri e]
theorem AgreeBut.high (e : t.ri = false) : v.highSel = w.highSel := by unfold V.highSel; rw [h.ri e]
theorem AgreeBut.hl (e : t.h = false) (e' : t.l = false) : v.hl = w.hl := by unfold V.hl; rw [h.h e, h.l e']
theorem AgreeBut.r (i i' : BitVec 2) (e : i = i') : v.r i = w.r i' := by
  subst e; unfold V.r; rw [h.b, h.c, h.d, h.e]

end

theorem AgreeBut.rtl {t t' : Taint} {v w : V} {k : Nat} (h : AgreeBut t v w) (e : t.after k = some t') :
    AgreeBut t' (v.rtl k) (w.rtl k) := by
  have two : ∀ {x y : Bool} {s : Taint}, (if x || y then none else some s) = some t' →
      x = false ∧ y = false ∧ s = t' := by
    intro x y s
    cases x <;> cases y <;> simp
  have one : ∀ {x : Bool} {s : Taint}, (if x then none else some s) = some t' → x = false ∧ s = t' := by
    intro x s
    cases x <;> simp
  have op : t.op2 = false → v.op2 = w.op2 := h.op2
  match k, e with
  | 0, e =>
    cases e
    exact ({ h with ri := fun _ => h.at _ _ h.pc } : AgreeBut { t with ri := false } { v with ri := v.mem v.pc }
      { w with ri := w.mem w.pc }).incPc
  | 1, e => cases e; exact h
  | 2, e =>
    obtain ⟨c1, rfl⟩ := one e
    exact { h with op2 := fun _ => h.r _ _ (h.low c1) }
  | 3, e =>
    obtain ⟨c1, c2, rfl⟩ := two e
    exact h.setR _ _ _ _ (h.high c2) (op c1)
  | 4, e =>
    obtain ⟨c1, rfl⟩ := one e
    exact { h with ac := op c1 }
  | 5, e =>
    obtain ⟨c1, rfl⟩ := one e
    exact h.setAc _ _ _ _ (by rw [h.ac, op c1]) (by rw [h.ac, op c1])
  | 6, e =>
    obtain ⟨c1, rfl⟩ := one e
    exact h.setAc _ _ _ _ (by rw [h.ac, op c1]) (by rw [h.ac, op c1])
  | 7, e =>
    obtain ⟨c1, rfl⟩ := one e
    exact { h with fc := (by show decide _ = decide _; rw [h.ac, op c1])
                   fz := (by show decide _ = decide _; rw [h.ac, op c1]) }
  | 8, e =>
    obtain ⟨c1, c2, rfl⟩ := two e
    exact { h.setR _ _ _ _ (h.low c2) (show v.op2 + 1 = w.op2 + 1 by rw [op c1]) with
      fc := rfl, fz := (by show decide _ = decide _; rw [op c1]) }
  | 9, e =>
    obtain ⟨c1, rfl⟩ := one e
    exact h.setAc _ _ _ _ (by rw [h.ac, op c1]) rfl
  | 10, e =>
    obtain ⟨c1, rfl⟩ := one e
    exact h.setAc _ _ _ _ (by rw [h.ac, op c1]) rfl
  | 11, e =>
    obtain ⟨c1, rfl⟩ := one e
    exact h.setAc _ _ _ _ (by rw [h.ac, op c1]) rfl
  | 12, e => cases e; exact { h with op2 := fun _ => h.ac }
  | 13, e =>
    obtain ⟨c1, rfl⟩ := one e
    exact h.setAc _ _ _ _ (by rw [op c1]) rfl
  | 14, e => cases e; exact h.setAc _ _ _ _ (by rw [h.ac]) rfl
  | 15, e =>
    cases e
    exact ({ h with op2 := fun _ => h.at _ _ h.pc } : AgreeBut { t with op2 := false } { v with op2 := v.mem v.pc }
      { w with op2 := w.mem w.pc }).incPc
  | 16, e =>
    cases e
    exact ({ h with h := fun _ => h.at _ _ h.pc } : AgreeBut { t with h := false } { v with h := v.mem v.pc }
      { w with h := w.mem w.pc }).incPc
  | 17, e =>
    cases e
    exact ({ h with l := fun _ => h.at _ _ h.pc } : AgreeBut { t with l := false } { v with l := v.mem v.pc }
      { w with l := w.mem w.pc }).incPc
  | 18, e =>
    obtain ⟨c1, c2, rfl⟩ := two e
    exact { h with op2 := fun _ => h.at _ _ (h.hl c1 c2) }
  | 19, e =>
    obtain ⟨c, c3, rfl⟩ := two e
    obtain ⟨c1, c2⟩ := Bool.or_eq_false_iff.1 c
    exact h.store _ _ _ _ (h.hl c1 c2) (op c3)
  | 20, e =>
    obtain ⟨c1, c2, rfl⟩ := two e
    exact { h with pc := h.hl c1 c2, pch := congrArg V.hi (h.hl c1 c2), pcl := congrArg V.lo (h.hl c1 c2) }
  | 21, e => cases e; exact { h with h := fun _ => h.d }
  | 22, e => cases e; exact { h with l := fun _ => h.e }
  | 23, e =>
    cases e
    exact { h with ac := (by show V.flagByte _ _ = V.flagByte _ _; rw [h.fc, h.fz]) }
  | 24, e =>
    cases e
    exact { h with fc := congrArg (·.getLsbD 7) h.ac, fz := congrArg (·.getLsbD 0) h.ac }
  | 26, e => cases e; exact h.decSp
  | 28, e => cases e; exact h.store _ _ _ _ h.sp h.pch
  | 29, e => cases e; exact h.store _ _ _ _ h.sp h.pcl
  | 31, e => cases e; exact h.incSp
  | 32, e =>
    cases e
    exact { h with pcl := h.at _ _ h.sp
                   pc := (by show V.hi _ ++ _ = V.hi _ ++ _; rw [h.pc, h.at _ _ h.sp]) }
  | 33, e =>
    cases e
    exact { h with pch := h.at _ _ h.sp
                   pc := (by show _ ++ V.lo _ = _ ++ V.lo _; rw [h.pc, h.at _ _ h.sp]) }
  | 34, e =>
    cases e
    exact { h with fc := congrArg (·.getLsbD 7) (h.at _ _ h.sp), fz := congrArg (·.getLsbD 0) (h.at _ _ h.sp) }
  | 35, e => cases e; exact h
  | 36, e => cases e; exact h.store _ _ _ _ h.sp h.ac
  | 37, e => cases e; exact { h with ac := h.at _ _ h.sp }
  | 38, e =>
    obtain ⟨c1, c2, rfl⟩ := two e
    exact { h with sp := h.hl c1 c2 }
  | 39, e =>
    obtain ⟨c1, c2, rfl⟩ := two e
    exact h.setR _ _ _ _ (h.low c2) (op c1)
  | 40, e => cases e; exact h.decSp
  | 41, e => cases e; exact h.incSp
  | 43, e => cases e; exact h.incSp
  | 44, e =>
    obtain ⟨c1, c2, rfl⟩ := two e
    exact h.setR _ _ _ _ (h.low c2) (op c1)
  | 25, e | 27, e | 30, e | 42, e | _ + 45, e => cases e

/-- No microprogram reads an internal register before it has written it. -/
theorem safe_all : ∀ o : BitVec 8, ∀ fc fz : Bool, Taint.safe ⟨true, true, true, false⟩ (pathOf o fc fz) = true := by
  decide +kernel

theorem after_ri {t t' : Taint} {k : Nat} (e : t.after k = some t') (h : t.ri = false) : t'.ri = false := by
  unfold Taint.after at e
  split at e <;> first | (cases e; done) | (cases e; first | exact h | rfl) | (split at e <;> cases e; exact h)

/-- The two machines are in the same microstate and the rest of its microprogram does not read what may be different. -/
structure Alongside (m n : M) : Prop where
  s : m.s = n.s
  rest : ∃ t, AgreeBut t m.v n.v ∧ (m.s ≠ 0 → t.ri = false ∧ ∃ fc fz k l,
    fullTrace m.v.ri fc fz k m.s = some l ∧ FlagsAt fc fz m ∧ t.safe l = true)

theorem Alongside.start {m n : M} {t : Taint} (e : m.s = 0) (e' : n.s = 0) (h : AgreeBut t m.v n.v) : Alongside m n :=
  ⟨e.trans e'.symm, t, h, fun h0 => absurd e h0⟩

theorem Alongside.step {m n : M} (h : Alongside m n) : Alongside m.step n.step := by
  obtain ⟨v, s⟩ := m
  obtain ⟨w, s'⟩ := n
  obtain ⟨hs, t, ag, rest⟩ := h
  change s = s' at hs
  subst hs
  by_cases h0 : s = 0
  · subst h0
    have a1 : AgreeBut ⟨true, true, true, false⟩ (v.rtl 0) (w.rtl 0) := ag.all.rtl rfl
    refine ⟨(next_zero v.ri v.fc v.fz).trans (next_zero w.ri w.fc w.fz).symm, _, a1, fun _ => ⟨rfl, ?_⟩⟩
    obtain ⟨e1, e2⟩ := rtl_early v 0 (.inr (.inr rfl))
    refine ⟨v.fc, v.fz, 8, _, ?_, fun _ => ⟨e1, e2⟩, safe_all (V.rtl 0 v).ri v.fc v.fz⟩
    show fullTrace (V.rtl 0 v).ri _ _ _ (A.nextOf 0 v.ri v.fc v.fz) = _
    rw [next_zero]
    exact fullTrace_all _ _ _
  · obtain ⟨hri, fc, fz, k, l, tr, fl, sf⟩ := rest h0
    change AgreeBut t v w at ag
    change fullTrace v.ri fc fz k s = some l at tr
    cases k with
    | zero =>
      simp only [fullTrace, if_neg h0] at tr
      cases tr
    | succ k =>
      simp only [fullTrace, if_neg h0] at tr
      cases e : fullTrace v.ri fc fz k (A.nextOf s v.ri fc fz) with
      | none => rw [e] at tr; cases tr
      | some l' =>
        rw [e] at tr
        cases tr
        unfold Taint.safe at sf
        cases ea : t.after s.toNat with
        | none => rw [ea] at sf; cases sf
        | some t' =>
          rw [ea] at sf
          have hn : A.nextOf s v.ri v.fc v.fz = A.nextOf s v.ri fc fz := by
            by_cases h17 : s = 17
            · obtain ⟨h1, h2⟩ := fl (.inr (.inr h17))
              change v.fc = fc at h1
              change v.fz = fz at h2
              rw [h1, h2]
            · exact next_flags _ _ _ _ _ _ h17
          have hr : (V.rtl s.toNat v).ri = v.ri := rtl_ri v _ (fun h => h0 (BitVec.eq_of_toNat_eq h))
          have hs : (M.step ⟨v, s⟩).s = A.nextOf s v.ri fc fz := hn
          refine ⟨?_, t', ag.rtl ea, fun _ => ⟨after_ri ea hri, fc, fz, k, l', ?_, ?_, sf⟩⟩
          · show A.nextOf s v.ri v.fc v.fz = A.nextOf s w.ri w.fc w.fz
            rw [ag.ri hri, ag.fc, ag.fz]
          · rw [hs]
            show fullTrace (V.rtl s.toNat v).ri _ _ _ _ = _
            rw [hr]
            exact e
          · intro hk
            rw [hs] at hk
            obtain ⟨n1, n2, n3⟩ := next_src s v.ri fc fz
            have hm : s = 1 ∨ s = 16 := by
              rcases hk with h | h | h
              · exact absurd (n1 h) h0
              · exact .inl (n2 h)
              · exact .inr (n3 h)
            obtain ⟨a1, a2⟩ := fl (hm.imp id .inl)
            obtain ⟨b1, b2⟩ := rtl_early v s (hm.imp id .inl)
            exact ⟨b1.trans a1, b2.trans a2⟩

/-- The getters of the internal registers. -/
def Call.internal : Call → Bool
  | .getRegisterValue .op2 => true
  | .getRegisterValue .h => true
  | .getRegisterValue .l => true
  | .getRegisterValue .ri => true
  | _ => false

theorem kept_alongside : Kept (fun a b => Alongside a.m b.m) (fun c => c.raw = false ∧ c.internal = false) := by
  refine ⟨fun _ _ => .start rfl rfl (t := .all) ⟨rfl, rfl, rfl, rfl, rfl, rfl, rfl, rfl, rfl, rfl, rfl, rfl, rfl,
    fun _ => rfl, fun _ => rfl, fun _ => rfl, fun _ => rfl⟩, fun a b h => ?_, fun a b c hc h => ?_,
    fun a b c h1 h2 h3 h => ?_⟩
  · obtain ⟨_, _, ag, _⟩ := h
    exact ag.log
  · obtain ⟨e2, _, ag, _⟩ := h
    change a.dd = b.dd at e2
    have e3 : a.mem = b.mem := ag.mem
    cases c with
    | getRegisterValue t =>
      show a.view.reg t = b.view.reg t
      have f1 := ag.ac; have f2 := ag.b; have f3 := ag.c; have f4 := ag.d; have f5 := ag.e
      have f6 := ag.pch; have f7 := ag.pcl; have f8 := ag.pc; have f9 := ag.sp; have f10 := ag.fc; have f11 := ag.fz
      change a.view.ac = b.view.ac at f1; change a.view.b = b.view.b at f2; change a.view.c = b.view.c at f3
      change a.view.d = b.view.d at f4; change a.view.e = b.view.e at f5; change a.view.pch = b.view.pch at f6
      change a.view.pcl = b.view.pcl at f7; change a.view.pc = b.view.pc at f8; change a.view.sp = b.view.sp at f9
      change a.view.fc = b.view.fc at f10; change a.view.fz = b.view.fz at f11
      cases t <;> first | cases hc.2; done | simp only [V.reg, *]
    | getMemoryValue o => simp only [A.value, e3]
    | getNextState => simp only [A.value, e2]
    | _ => first | rfl | cases hc.1
  · have e2 : a.dd = b.dd := h.s
    rw [a.m_call h1 h3.lt, b.m_call h2 (e2 ▸ h3.lt)]
    obtain ⟨hs, t, ag, rest⟩ := h
    cases c with
    | runClockCycle u => exact Alongside.step ⟨hs, t, ag, rest⟩
    | resetControl => exact .start rfl rfl ag
    | setMemoryValue o x => exact ⟨hs, t, { ag with mem := congrArg (upd · _ _) ag.mem }, rest⟩
    | setRegisterPc x => exact ⟨hs, t, { ag with pc := rfl }, rest⟩
    | _ => exact ⟨hs, t, ag, rest⟩

/-! ## C87 -/

/-- The registers that only microinstructions use. -/
def internalRegs : List WType := [.op2, .h, .l, .ri]

/-- Every other register, every flag and every cell shown by `h1` is also shown by `h2`. -/
structure LooksLikeOutside (h1 h2 : H) : Prop where
  reg : ∀ t v, t ∉ internalRegs → RegIs h1 t v → RegIs h2 t v
  cell : ∀ i x, Cell h1 i x → Cell h2 i x

/-- **C87.** Two machines between two instructions that differ at most in 2OP, H, L and RI: every later history of
calls, also one that stops in the middle of instructions, returns the same values on both and reports the same errors.
The getters of the four registers are excluded, and those of the raw contents of the internal buses. -/
theorem C87_internal {p1 p2 q1 q2 : Phase} {h1 h2 : H} (r1 : Reach p1 h1) (r2 : Reach p2 h2) (o1 : p1.on = true)
    (o2 : p2.on = true) (b1 : Boundary h1) (b2 : Boundary h2) (e : LooksLikeOutside h1 h2) (cs : List Call)
    (g1 : Legal p1 cs q1) (g2 : Legal p2 cs q2)
    (hc : ∀ c ∈ cs, c.raw = false ∧ ∀ t ∈ internalRegs, c ≠ .getRegisterValue t) :
    ∃ vs h1' h2' new, execAll cs h1 = some (vs, h1') ∧ execAll cs h2 = some (vs, h2') ∧
      h1'.log = new ++ h1.log ∧ h2'.log = new ++ h2.log := by
  have hc' : ∀ c ∈ cs, c.raw = false ∧ c.internal = false := by
    intro c m
    obtain ⟨c1, c2⟩ := hc c m
    refine ⟨c1, ?_⟩
    unfold Call.internal
    split <;> first | rfl | exact absurd rfl (c2 _ (by decide))
  obtain ⟨s1, d1⟩ := r1.desc
  obtain ⟨s2, d2⟩ := r2.desc
  cases s1 with
  | off l => rw [d1.phase] at o1; cases o1
  | on a =>
    cases s2 with
    | off l => rw [d2.phase] at o2; cases o2
    | on b =>
      have w1 : On h1 a := d1.is
      have w2 : On h2 b := d2.is
      have z1 : a.dd = 0 := widen6_inj (some_inj (w1.getNextState.symm.trans b1))
      have z2 : b.dd = 0 := widen6_inj (some_inj (w2.getNextState.symm.trans b2))
      have e1 : ∀ t, t ∉ internalRegs → a.view.reg t = b.view.reg t := fun t ht =>
        some_inj ((e.reg t _ ht (w1.getReg t)).symm.trans (w2.getReg t))
      have e2 : a.mem = b.mem := by
        funext i
        exact widen8_inj (some_inj ((e.cell i _ (w1.getMemory i)).symm.trans (w2.getMemory i)))
      have ag : AgreeBut .all ({ a with log := [] } : A).view ({ b with log := [] } : A).view :=
        { ac := widen8_inj (e1 .acum (by decide)), b := widen8_inj (e1 .b (by decide))
          c := widen8_inj (e1 .c (by decide)), d := widen8_inj (e1 .d (by decide))
          e := widen8_inj (e1 .e (by decide)), pch := widen8_inj (e1 .pch (by decide))
          pcl := widen8_inj (e1 .pcl (by decide)), pc := widen16_inj (e1 .pc (by decide))
          sp := widen16_inj (e1 .sp (by decide)), fc := flag_inj (e1 .fc (by decide))
          fz := flag_inj (e1 .fz (by decide)), mem := e2, log := rfl
          h := fun e => (by cases e), l := fun e => (by cases e), op2 := fun e => (by cases e)
          ri := fun e => (by cases e) }
      have al : Alongside ({ a with log := [] } : A).m ({ b with log := [] } : A).m := .start z1 z2 ag
      have x1 : a = ({ a with log := [] } : A).app h1.log := by rw [w1.log]; rfl
      have x2 : b = ({ b with log := [] } : A).app h2.log := by rw [w2.log]; rfl
      obtain ⟨vs, h1', h2', s1', s2', e1, e2, d3, d4, h⟩ := pair_calls kept_alongside (l1 := h1.log) (l2 := h2.log)
        (s1 := .on a) (s2 := .on b) cs ⟨_, _, x1, x2, al⟩ d1 d2 g1 g2 hc'
      obtain ⟨new, n1, n2⟩ := h.logs kept_alongside
      exact ⟨vs, h1', h2', new, e1, e2, by rw [d3.log, n1], by rw [d4.log, n2]⟩

/-- Two such machines: one has just run the two bytes of MOV 4B,AC; the other only the second of them, which is
INC AC, with 4A in AC. They differ in RI and in 2OP. -/
example : ∃ p1 p2 h1 h2, Reach p1 h1 ∧ Reach p2 h2 ∧ p1.on = true ∧ p2.on = true ∧ Boundary h1 ∧ Boundary h2 ∧
    LooksLikeOutside h1 h2 ∧ RegIs h1 .op2 0x4B ∧ RegIs h2 .op2 0x4A ∧ RegIs h1 .ri 0x64 ∧ RegIs h2 .ri 0x4B := by
  obtain ⟨h1, r1⟩ := ready_all ⟨1, 2, 3, 4, 5, 0x1232, 0x8000, false, false, upd (fun _ => 0x4B) 0x1232 0x64, []⟩ rfl
  obtain ⟨h2, r2⟩ := ready_all ⟨0x4A, 2, 3, 4, 5, 0x1233, 0x8000, false, false, upd (fun _ => 0x4B) 0x1232 0x64, []⟩ rfl
  obtain ⟨v1, t1, e1⟩ := r1.at
  obtain ⟨v2, t2, e2⟩ := r2.at
  obtain ⟨h1', _, t1', ph1, rr1, on1, _, b1, _⟩ := r1.run t1 false
  obtain ⟨h2', _, t2', ph2, rr2, on2, _, b2, _⟩ := r2.run t2 false
  obtain ⟨ac1, b1, c1, d1, e1', rh1, rl1, op21, pch1, pcl1, ri1, pc1, sp1, fc1, fz1, mem1, log1⟩ := v1
  obtain ⟨ac2, b2, c2, d2, e2', rh2, rl2, op22, pch2, pcl2, ri2, pc2, sp2, fc2, fz2, mem2, log2⟩ := v2
  cases e1
  cases e2
  refine ⟨ph1, ph2, h1', h2', rr1, rr2, on1, on2, ‹_›, ‹_›, ⟨?_, ?_⟩, t1'.reg .op2, t2'.reg .op2, t1'.reg .ri, t2'.reg .ri⟩
  · intro t v ht hv
    have q := some_inj ((t1'.reg t).symm.trans hv)
    refine (t2'.reg t).trans (congrArg (fun x => some (x, _)) (Eq.trans ?_ q))
    cases t <;> first | rfl | exact absurd (by decide) ht
  · intro i x hx
    have q := some_inj ((t1'.mem i).symm.trans hx)
    exact (t2'.mem i).trans (congrArg (fun x => some (x, _)) q)

/-- **C87.** The halves PCH and PCL of PC are not internal in this sense. They follow PC at every fetch but one at the
last cell, where PC stays (C17): a CALL there pushes what PCH and PCL held before. -/
theorem C87_halves (u : Bool) (h : H) (p : P) (r : Ready h p) (hpc : p.pc = 0xFFFF) (op : p.mem 0xFFFF = 0xC4)
    (hsp : 2 ≤ p.sp.toNat) (x y : CInt) (hx : RegIs h .pch x) (hy : RegIs h .pcl y) :
    ∃ n h', RunInstruction u n h h' ∧
      exec (.getMemoryValue ((p.sp - 1).setWidth 32)) h' = some (x, h') ∧
      exec (.getMemoryValue ((p.sp - 2).setWidth 32)) h' = some (y, h') := by
  obtain ⟨v, t, rfl⟩ := r.at
  have ui : h.ui = true := by obtain ⟨ph, rr, _, ui, _⟩ := r; exact rr.inv.ui.trans ui
  obtain ⟨h', e, t', _⟩ := t.instruction u (fun _ => ui)
  have ex : x = v.pch.setWidth 32 := some_inj (hx.symm.trans (t.reg .pch))
  have ey : y = v.pcl.setWidth 32 := some_inj (hy.symm.trans (t.reg .pcl))
  obtain ⟨ac, b, c, d, e', rh, rl, op2, pch, pcl, ri, pc, sp, fc, fz, mem, log⟩ := v
  change pc = 0xFFFF#16 at hpc
  change mem 0xFFFF#16 = 0xC4#8 at op
  change 2 ≤ sp.toNat at hsp
  subst hpc
  have hp : pathOf (mem 0xFFFF#16) fc fz = [1, 16, 17, 26, 28, 40, 29, 20] := by
    rw [op]
    cases fc <;> cases fz <;> decide +kernel
  dsimp only at t' e
  rw [hp] at t' e
  have z1 : sp ≠ 0 := by rintro rfl; exact absurd hsp (by decide)
  have z2 : sp - 1 ≠ 0 := by
    intro h
    have q := congrArg BitVec.toNat h
    rw [BitVec.toNat_sub] at q
    change (2 ^ 16 - 1 + sp.toNat) % 2 ^ 16 = 0 at q
    have := sp.isLt
    omega
  have m1 : V.mem (V.follow ⟨ac, b, c, d, e', rh, rl, op2, pch, pcl, ri, 0xFFFF#16, sp, fc, fz, mem, log⟩
      [0, 1, 16, 17, 26, 28, 40, 29, 20]) = upd (upd mem (sp - 1) pch) (sp - 1 - 1) pcl := by
    have z1' : (sp = 0#16) = False := eq_false z1
    have z2' : (sp - 1#16 = 0#16) = False := eq_false z2
    simp [V.follow, V.rtl, V.incPc, V.decSp, V.store, V.setPc, z1', z2']
  have ne : sp - 1 ≠ sp - 1 - 1 := by
    intro q
    have q := congrArg (fun x => x - (sp - 1)) q
    simp at q
    revert q
    bv_omega
  have two : sp - 2 = sp - 1 - 1 := by bv_omega
  refine ⟨_, h', e, ?_, ?_⟩
  · have q := t'.mem (sp - 1)
    rw [m1, upd_ne _ _ ne, upd_same] at q
    rw [ex]
    exact q
  · have q := t'.mem (sp - 1 - 1)
    rw [m1, upd_same] at q
    rw [ey, ← q, ← two]
    rfl

/-- Such a state: PCH and PCL hold 12 and 34 from an earlier instruction, and PC was set to FFFF since. -/
example : ∃ h p, Ready h p ∧ p.pc = 0xFFFF ∧ p.mem 0xFFFF = 0xC4 ∧ 2 ≤ p.sp.toNat ∧ RegIs h .pch 0x12 ∧
    RegIs h .pcl 0x34 := by
  obtain ⟨h, r⟩ := ready_all ⟨1, 2, 3, 4, 5, 0x1233, 0x8000, false, false, upd (fun _ => 0x4B) 0xFFFF 0xC4, []⟩ rfl
  obtain ⟨v, t, ev⟩ := r.at
  obtain ⟨h', _, t', r'⟩ := r.run t false
  obtain ⟨h'', e'', r''⟩ := r'.setPc 0xFFFF
  obtain ⟨ac, b, c, d, e', rh, rl, op2, pch, pcl, ri, pc, sp, fc, fz, mem, log⟩ := v
  cases ev
  obtain ⟨w, on, ew, _⟩ := t'
  obtain ⟨g, e1, o1, _⟩ := on.setPc r'.ui 0xFFFF
  cases e''.symm.trans e1
  have k := o1.at
  refine ⟨_, _, r'', rfl, by rfl, (show 2 ≤ (0x8000#16).toNat by decide), ?_, ?_⟩
  · refine (k.reg .pch).trans (congrArg (fun x => some (x, _)) ?_)
    have q : w.view.pch = 0x12 := by
      rw [ew]
      exact (rfl : _ = V.hi (0x1233#16 + 1)).trans (by decide)
    change w.view.pch.setWidth 32 = 0x12
    rw [q]
    decide
  · refine (k.reg .pcl).trans (congrArg (fun x => some (x, _)) ?_)
    have q : w.view.pcl = 0x34 := by
      rw [ew]
      exact (rfl : _ = V.lo (0x1233#16 + 1)).trans (by decide)
    change w.view.pcl.setWidth 32 = 0x34
    rw [q]
    decide

end Mpp
