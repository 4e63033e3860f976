import Verif.Props.Costs
/-!
# C108: what a program does not read does not matter

Two machines that agree on a set of registers, flags and cells still agree on it after the same program was run on
both, if the program reads nothing outside the set, and the program takes the same time on both.
-/
namespace Mpp.Front

/-- A set of registers, flags and cells. -/
structure ReadSet where
  ac : Prop
  reg : G → Prop
  fc : Prop
  fz : Prop
  sp : Prop
  mem : BitVec 16 → Prop

/-- An operand is in the set. -/
def ReadSet.operand (X : ReadSet) : Operand → Prop
  | .reg g => X.reg g
  | .ac => X.ac
  | .imm => True

def ReadSet.dest (X : ReadSet) : Dest → Prop
  | .ac => X.ac
  | .reg g => X.reg g

/-- The statement reads only what is in the set. -/
def ReadSet.Covers (X : ReadSet) (prog : List Stmt) (st : Stmt) : Prop :=
  match st.instr with
  | .mov src _ => X.operand src
  | .alu _ src => X.ac ∧ X.operand src
  | .inc dst => X.dest dst
  | .cma | .sfa | .sta => X.ac
  | .lfa => X.fc ∧ X.fz
  | .lda => ∀ a, st.arg.addr prog = some a → X.mem a
  | .ldax => X.reg .d ∧ X.reg .e ∧ ∀ a, X.mem a
  | .stax => X.ac ∧ X.reg .d ∧ X.reg .e
  | .beq => X.fz
  | .bc => X.fc
  | .push => X.ac ∧ X.sp
  | .call => X.sp
  | .pop | .ret | .iret => X.sp ∧ ∀ a, X.mem a
  | .jmp | .inisp | .fin => True

/-- The set together with what is written by a statement whatever was there before. -/
def ReadSet.put (X : ReadSet) : Dest → ReadSet
  | .ac => { X with ac := True }
  | .reg g => { X with reg := fun k => X.reg k ∨ k = g }

def ReadSet.flags (X : ReadSet) : ReadSet := { X with fc := True, fz := True }

/-- What two machines agree on after the statement, if they agreed on the set before it. -/
def ReadSet.after (X : ReadSet) (prog : List Stmt) (st : Stmt) : ReadSet :=
  match st.instr with
  | .mov _ dst => X.put dst
  | .alu .cmp _ | .sfa | .iret => X.flags
  | .alu _ _ | .cma => (X.put .ac).flags
  | .inc dst => (X.put dst).flags
  | .lfa | .lda | .ldax | .pop => X.put .ac
  | .sta => { X with mem := fun a => X.mem a ∨ st.arg.addr prog = some a }
  | .inisp => { X with sp := True }
  | _ => X

/-- The first set is within the second. -/
structure ReadSet.Within (X Y : ReadSet) : Prop where
  ac : X.ac → Y.ac
  reg : ∀ g, X.reg g → Y.reg g
  fc : X.fc → Y.fc
  fz : X.fz → Y.fz
  sp : X.sp → Y.sp
  mem : ∀ a, X.mem a → Y.mem a

/-- The statement that comes after the one at `i` may be the one at `j`. -/
def Follows (prog : List Stmt) (i : Nat) (st : Stmt) (j : Nat) : Prop :=
  match st.instr with
  | .jmp | .call => st.arg.dest prog = some j
  | .beq | .bc => j = i + 1 ∨ st.arg.dest prog = some j
  | .ret | .iret => True
  | .fin => False
  | _ => j = i + 1

/-- What may be read at or after each statement before it is written is in the set beside the statement. -/
def LiveSets (prog : List Stmt) (X : Nat → ReadSet) : Prop :=
  ∀ i st, prog[i]? = some st → (X i).Covers prog st ∧
    ∀ j, Follows prog i st j → (X j).Within ((X i).after prog st)

/-- Two states are at the same statement and agree on the set. -/
structure AlikeOn (X : ReadSet) (s t : Src) : Prop where
  pos : s.pos = t.pos
  ac : X.ac → s.ac = t.ac
  reg : ∀ g, X.reg g → s.get g = t.get g
  fc : X.fc → s.fc = t.fc
  fz : X.fz → s.fz = t.fz
  sp : X.sp → s.sp = t.sp
  mem : ∀ a, X.mem a → s.mem a = t.mem a

/-- `Src.step` of a given statement, with the state before it and the state `t` at the next statement apart. -/
def Src.act (prog : List Stmt) (s t : Src) (st : Stmt) : Option Src :=
  match st.instr with
  | .mov src dst => (s.value st.arg src).map fun x => t.put x dst
  | .alu op src => (s.value st.arg src).map fun x => t.compute x op
  | .inc dst => some { t.put (s.look dst + 1) dst with fc := false, fz := s.look dst + 1 == 0 }
  | .cma => some (t.logic (~~~ s.ac))
  | .lfa => some { t with ac := (if s.fc then 128 else 0) + (if s.fz then 1 else 0) }
  | .sfa => some { t with fc := s.ac.getLsbD 7, fz := s.ac.getLsbD 0 }
  | .lda => (st.arg.addr prog).map fun a => { t with ac := s.mem a }
  | .sta => (st.arg.addr prog).bind fun a => t.write prog a s.ac
  | .ldax => some { t with ac := s.mem (s.d ++ s.e) }
  | .stax => t.write prog (s.d ++ s.e) s.ac
  | .jmp => (st.arg.dest prog).map fun i => { t with pos := i }
  | .beq => if s.fz then (st.arg.dest prog).map fun i => { t with pos := i } else some t
  | .bc => if s.fc then (st.arg.dest prog).map fun i => { t with pos := i } else some t
  | .inisp => (st.arg.addr prog).map fun a => { t with sp := a }
  | .push => t.push prog s.ac
  | .pop => t.pop.map fun x => { x.2 with ac := x.1 }
  | .call => (st.arg.dest prog).bind fun i =>
      (t.push prog (BitVec.ofNat 8 (place prog (s.pos + 1) / 256))).bind fun t =>
        (t.push prog (BitVec.ofNat 8 (place prog (s.pos + 1)))).map fun t => { t with pos := i }
  | .ret => s.back prog
  | .iret => (s.back prog).bind fun t => t.pop.map fun f =>
      { f.2 with fc := f.1.getLsbD 7, fz := f.1.getLsbD 0 }
  | .fin => none

theorem Src.step_act (prog : List Stmt) (s : Src) :
    s.step prog = prog[s.pos]?.bind fun st => s.act prog { s with pos := s.pos + 1 } st := by
  unfold Src.step
  cases prog[s.pos]? with
  | none => rfl
  | some st => cases st with | mk i a l => cases i <;> rfl

theorem Src.write_pos {prog : List Stmt} {s t : Src} {a : BitVec 16} {x : BitVec 8} (h : s.write prog a x = some t) :
    t.pos = s.pos := by
  obtain ⟨-, rfl⟩ := Src.write_inv h
  rfl

theorem Src.push_pos {prog : List Stmt} {s t : Src} {x : BitVec 8} (h : s.push prog x = some t) : t.pos = s.pos := by
  unfold Src.push at h
  split at h
  · cases h
  · exact (Src.write_inv h).2 ▸ rfl

theorem Src.pop_pos {s t : Src} {x : BitVec 8} (h : s.pop = some (x, t)) : t.pos = s.pos := by
  unfold Src.pop at h
  split at h
  · cases h
  · cases h; rfl

theorem follows {prog : List Stmt} {s s' : Src} {st : Stmt} (hst : prog[s.pos]? = some st)
    (hs : s.step prog = some s') : Follows prog s.pos st s'.pos := by
  rw [Src.step_act, hst, Option.bind_some] at hs
  unfold Follows
  unfold Src.act at hs
  cases hi : st.instr <;> rw [hi] at hs <;> simp only at hs ⊢
  case mov src dst =>
    obtain ⟨x, hx, rfl⟩ := Option.map_eq_some_iff.1 hs
    cases dst with
    | ac => rfl
    | reg g => cases g <;> rfl
  case alu op src =>
    obtain ⟨x, hx, rfl⟩ := Option.map_eq_some_iff.1 hs
    cases op <;> rfl
  case inc dst =>
    cases hs
    cases dst with
    | ac => rfl
    | reg g => cases g <;> rfl
  case lda => obtain ⟨a, ha, rfl⟩ := Option.map_eq_some_iff.1 hs; rfl
  case sta => obtain ⟨a, ha, hs⟩ := Option.bind_eq_some_iff.1 hs; exact Src.write_pos hs
  case stax => exact Src.write_pos hs
  case jmp => obtain ⟨i, hd, rfl⟩ := Option.map_eq_some_iff.1 hs; exact hd
  case beq =>
    split at hs
    · obtain ⟨i, hd, rfl⟩ := Option.map_eq_some_iff.1 hs; exact .inr hd
    · cases hs; exact .inl rfl
  case bc =>
    split at hs
    · obtain ⟨i, hd, rfl⟩ := Option.map_eq_some_iff.1 hs; exact .inr hd
    · cases hs; exact .inl rfl
  case inisp => obtain ⟨a, ha, rfl⟩ := Option.map_eq_some_iff.1 hs; rfl
  case push => exact Src.push_pos hs
  case pop =>
    obtain ⟨⟨x, s1⟩, h1, rfl⟩ := Option.map_eq_some_iff.1 hs
    exact Src.pop_pos h1
  case call =>
    obtain ⟨i, hd, hs⟩ := Option.bind_eq_some_iff.1 hs
    obtain ⟨s1, h1, hs⟩ := Option.bind_eq_some_iff.1 hs
    obtain ⟨s2, h2, rfl⟩ := Option.map_eq_some_iff.1 hs
    exact hd
  case fin => cases hs
  all_goals (cases hs; rfl)

namespace AlikeOn
variable {X : ReadSet} {s t : Src}

theorem go (h : AlikeOn X s t) (i : Nat) : AlikeOn X { s with pos := i } { t with pos := i } :=
  ⟨rfl, h.ac, fun g hg => by have := h.reg g hg; cases g <;> exact this, h.fc, h.fz, h.sp, h.mem⟩

theorem next (h : AlikeOn X s t) : AlikeOn X { s with pos := s.pos + 1 } { t with pos := t.pos + 1 } := by
  rw [h.pos]; exact h.go _

theorem setAc (h : AlikeOn X s t) (x : BitVec 8) : AlikeOn (X.put .ac) { s with ac := x } { t with ac := x } :=
  ⟨h.pos, fun _ => rfl, fun g hg => by have := h.reg g hg; cases g <;> exact this, h.fc, h.fz, h.sp, h.mem⟩

theorem setFlags (h : AlikeOn X s t) (c z : Bool) : AlikeOn X.flags { s with fc := c, fz := z } { t with fc := c, fz := z } :=
  ⟨h.pos, h.ac, fun g hg => by have := h.reg g hg; cases g <;> exact this, fun _ => rfl, fun _ => rfl, h.sp, h.mem⟩

theorem setAll (h : AlikeOn X s t) (x : BitVec 8) (c z : Bool) :
    AlikeOn (X.put .ac).flags { s with ac := x, fc := c, fz := z } { t with ac := x, fc := c, fz := z } := (h.setAc x).setFlags c z

theorem setSp (h : AlikeOn X s t) (x : BitVec 16) : AlikeOn { X with sp := True } { s with sp := x } { t with sp := x } :=
  ⟨h.pos, h.ac, fun g hg => by have := h.reg g hg; cases g <;> exact this, h.fc, h.fz, fun _ => rfl, h.mem⟩

theorem setMem (h : AlikeOn X s t) (a : BitVec 16) (x : BitVec 8) :
    AlikeOn { X with mem := fun b => X.mem b ∨ b = a } { s with mem := fun i => if i = a then x else s.mem i }
      { t with mem := fun i => if i = a then x else t.mem i } :=
  ⟨h.pos, h.ac, fun g hg => by have := h.reg g hg; cases g <;> exact this, h.fc, h.fz, h.sp, fun b hb => by
    show (if b = a then x else s.mem b) = if b = a then x else t.mem b
    split
    · rfl
    · rename_i hne
      exact h.mem b (hb.resolve_right hne)⟩

theorem within (h : AlikeOn X s t) {Y : ReadSet} (w : Y.Within X) : AlikeOn Y s t :=
  ⟨h.pos, fun x => h.ac (w.ac x), fun g x => h.reg g (w.reg g x), fun x => h.fc (w.fc x), fun x => h.fz (w.fz x),
    fun x => h.sp (w.sp x), fun a x => h.mem a (w.mem a x)⟩

theorem put (h : AlikeOn X s t) (x : BitVec 8) (d : Dest) : AlikeOn (X.put d) (s.put x d) (t.put x d) := by
  cases d with
  | ac => exact h.setAc x
  | reg g =>
    cases g <;> exact ⟨h.pos, h.ac, fun k hk => by
      rcases hk with hk | rfl
      · have := h.reg k hk
        cases k <;> first | rfl | exact this
      · rfl, h.fc, h.fz, h.sp, h.mem⟩

theorem value (h : AlikeOn X s t) (arg : Arg) {o : Operand} (ho : X.operand o) : s.value arg o = t.value arg o := by
  cases o with
  | reg g => exact congrArg some (h.reg g ho)
  | ac => exact congrArg some (h.ac ho)
  | imm => rfl

theorem look (h : AlikeOn X s t) {d : Dest} (hd : X.dest d) : s.look d = t.look d := by
  cases d with
  | ac => exact h.ac hd
  | reg g => exact h.reg g hd

theorem compute {a b : Src} (hn : AlikeOn X a b) (e : a.ac = b.ac) (x : BitVec 8) {op : AluOp} (ho : op ≠ .cmp) :
    AlikeOn (X.put .ac).flags (a.compute x op) (b.compute x op) := by
  cases op <;> first
    | exact absurd rfl ho
    | (unfold Src.compute
       simp only [Src.logic]
       generalize a.ac = y at e ⊢
       subst e
       exact hn.setAll _ _ _)

theorem compare {a b : Src} (hn : AlikeOn X a b) (e : a.ac = b.ac) (x : BitVec 8) :
    AlikeOn X.flags (a.compute x .cmp) (b.compute x .cmp) := by
  unfold Src.compute
  simp only
  generalize hc : decide (a.ac < x) = c
  generalize hz : (a.ac == x) = z
  rw [e] at hc hz
  rw [hc, hz]
  exact hn.setFlags _ _

theorem write (h : AlikeOn X s t) (prog : List Stmt) (a : BitVec 16) (x : BitVec 8) {s' : Src}
    (hs : s.write prog a x = some s') : ∃ t', t.write prog a x = some t' ∧
      AlikeOn { X with mem := fun b => X.mem b ∨ b = a } s' t' := by
  obtain ⟨h1, rfl⟩ := Src.write_inv hs
  refine ⟨_, ?_, h.setMem a x⟩
  unfold Src.write
  rw [if_neg (by omega)]

theorem push (h : AlikeOn X s t) (hx : X.sp) (prog : List Stmt) (x : BitVec 8) {s' : Src}
    (hs : s.push prog x = some s') : ∃ t', t.push prog x = some t' ∧ AlikeOn X s' t' := by
  unfold Src.push at hs ⊢
  rw [h.sp hx] at hs
  split at hs
  · cases hs
  · rename_i hne
    rw [if_neg hne]
    obtain ⟨t', k, a⟩ := (h.setSp _).write prog _ x hs
    exact ⟨t', k, a.within ⟨id, fun _ => id, id, id, fun _ => trivial, fun _ => .inl⟩⟩

theorem pop (h : AlikeOn X s t) (hx : X.sp) (hm : ∀ a, X.mem a) {x : BitVec 8} {s' : Src} (hs : s.pop = some (x, s')) :
    ∃ t', t.pop = some (x, t') ∧ AlikeOn X s' t' := by
  unfold Src.pop at hs ⊢
  rw [h.sp hx] at hs
  split at hs
  · cases hs
  · rename_i hne
    rw [if_neg hne]
    cases hs
    exact ⟨_, by rw [h.mem _ (hm _)], (h.setSp _).within ⟨id, fun _ => id, id, id, fun _ => trivial, fun _ => id⟩⟩

theorem back (h : AlikeOn X s t) (hx : X.sp) (hm : ∀ a, X.mem a) {prog : List Stmt} {s' : Src}
    (hs : s.back prog = some s') : ∃ t', t.back prog = some t' ∧ AlikeOn X s' t' := by
  unfold Src.back at hs ⊢
  obtain ⟨⟨lo, s1⟩, h1, hs⟩ := Option.bind_eq_some_iff.1 hs
  obtain ⟨⟨hi, s2⟩, h2, hs⟩ := Option.bind_eq_some_iff.1 hs
  obtain ⟨i, h3, rfl⟩ := Option.map_eq_some_iff.1 hs
  obtain ⟨t1, k1, a1⟩ := h.pop hx hm h1
  obtain ⟨t2, k2, a2⟩ := a1.pop hx hm h2
  refine ⟨{ t2 with pos := i }, ?_, a2.go i⟩
  rw [k1, Option.bind_some]
  simp only
  rw [k2, Option.bind_some]
  simp only
  rw [h3]
  rfl

/-- One statement. -/
theorem act (h : AlikeOn X s t) {S T : Src} (hn : AlikeOn X S T) (hS : S.ac = s.ac) (hT : T.ac = t.ac) {prog : List Stmt}
    {st : Stmt} (hC : X.Covers prog st) {s' : Src} (hs : s.act prog S st = some s') :
    ∃ t', t.act prog T st = some t' ∧ AlikeOn (X.after prog st) s' t' := by
  unfold ReadSet.Covers at hC
  unfold ReadSet.after
  unfold Src.act at hs ⊢
  cases hi : st.instr <;> rw [hi] at hs hC <;> simp only at hs hC ⊢
  case mov src dst =>
    rw [h.value _ hC] at hs
    obtain ⟨x, hx, rfl⟩ := Option.map_eq_some_iff.1 hs
    exact ⟨_, by rw [hx]; rfl, hn.put x dst⟩
  case alu op src =>
    rw [h.value _ hC.2] at hs
    obtain ⟨x, hx, rfl⟩ := Option.map_eq_some_iff.1 hs
    have e : S.ac = T.ac := by rw [hS, hT, h.ac hC.1]
    refine ⟨_, by rw [hx]; rfl, ?_⟩
    cases op with
    | cmp => exact hn.compare e x
    | _ => exact hn.compute e x (by decide)
  case inc dst =>
    rw [h.look hC] at hs
    cases hs
    exact ⟨_, rfl, (hn.put _ dst).setFlags _ _⟩
  case cma =>
    rw [h.ac hC] at hs
    cases hs
    exact ⟨_, rfl, hn.setAll _ _ _⟩
  case lfa =>
    rw [h.fc hC.1, h.fz hC.2] at hs
    cases hs
    exact ⟨_, rfl, hn.setAc _⟩
  case sfa =>
    rw [h.ac hC] at hs
    cases hs
    exact ⟨_, rfl, hn.setFlags _ _⟩
  case lda =>
    obtain ⟨a, ha, rfl⟩ := Option.map_eq_some_iff.1 hs
    rw [h.mem a (hC a ha)]
    exact ⟨_, by rw [ha]; rfl, hn.setAc _⟩
  case sta =>
    obtain ⟨a, ha, hs⟩ := Option.bind_eq_some_iff.1 hs
    rw [h.ac hC] at hs
    rw [ha]
    obtain ⟨t', k, al⟩ := hn.write prog a _ hs
    exact ⟨t', k, al.within ⟨id, fun _ => id, id, id, id, fun b hb => hb.imp_right fun e => (Option.some.inj e).symm⟩⟩
  case ldax =>
    cases hs
    have e1 : s.d = t.d := h.reg .d hC.1
    have e2 : s.e = t.e := h.reg .e hC.2.1
    refine ⟨_, rfl, ?_⟩
    rw [e1, e2, h.mem _ (hC.2.2 _)]
    exact hn.setAc _
  case stax =>
    have e1 : s.d = t.d := h.reg .d hC.2.1
    have e2 : s.e = t.e := h.reg .e hC.2.2
    rw [e1, e2, h.ac hC.1] at hs
    obtain ⟨t', k, al⟩ := hn.write prog _ _ hs
    exact ⟨t', k, al.within ⟨id, fun _ => id, id, id, id, fun _ => .inl⟩⟩
  case jmp =>
    obtain ⟨i, hd, rfl⟩ := Option.map_eq_some_iff.1 hs
    exact ⟨_, by rw [hd]; rfl, hn.go i⟩
  case beq =>
    rw [h.fz hC] at hs
    split at hs
    · rename_i hz
      obtain ⟨i, hd, rfl⟩ := Option.map_eq_some_iff.1 hs
      exact ⟨_, by rw [if_pos hz, hd]; rfl, hn.go i⟩
    · rename_i hz
      cases hs
      exact ⟨_, by rw [if_neg hz], hn⟩
  case bc =>
    rw [h.fc hC] at hs
    split at hs
    · rename_i hz
      obtain ⟨i, hd, rfl⟩ := Option.map_eq_some_iff.1 hs
      exact ⟨_, by rw [if_pos hz, hd]; rfl, hn.go i⟩
    · rename_i hz
      cases hs
      exact ⟨_, by rw [if_neg hz], hn⟩
  case inisp =>
    obtain ⟨a, ha, rfl⟩ := Option.map_eq_some_iff.1 hs
    exact ⟨_, by rw [ha]; rfl, hn.setSp a⟩
  case push =>
    rw [h.ac hC.1] at hs
    exact hn.push hC.2 prog _ hs
  case pop =>
    obtain ⟨⟨x, s1⟩, h1, rfl⟩ := Option.map_eq_some_iff.1 hs
    obtain ⟨t1, k1, a1⟩ := hn.pop hC.1 hC.2 h1
    exact ⟨_, by rw [k1]; rfl, a1.setAc x⟩
  case call =>
    obtain ⟨i, hd, hs⟩ := Option.bind_eq_some_iff.1 hs
    obtain ⟨s1, h1, hs⟩ := Option.bind_eq_some_iff.1 hs
    obtain ⟨s2, h2, rfl⟩ := Option.map_eq_some_iff.1 hs
    obtain ⟨t1, k1, a1⟩ := hn.push hC prog _ h1
    obtain ⟨t2, k2, a2⟩ := a1.push hC prog _ h2
    exact ⟨_, by rw [hd, Option.bind_some, ← h.pos, k1, Option.bind_some, k2]; rfl, a2.go i⟩
  case ret => exact h.back hC.1 hC.2 hs
  case iret =>
    obtain ⟨s1, h1, hs⟩ := Option.bind_eq_some_iff.1 hs
    obtain ⟨t1, k1, a1⟩ := h.back hC.1 hC.2 h1
    obtain ⟨⟨x, s2⟩, h2, rfl⟩ := Option.map_eq_some_iff.1 hs
    obtain ⟨t2, k2, a2⟩ := a1.pop hC.1 hC.2 h2
    exact ⟨_, by rw [k1, Option.bind_some, k2]; rfl, a2.setFlags _ _⟩
  case fin => cases hs

theorem step {X : Nat → ReadSet} {s t : Src} (h : AlikeOn (X s.pos) s t) {prog : List Stmt} (hc : LiveSets prog X) {s' : Src}
    (hs : s.step prog = some s') : ∃ t', t.step prog = some t' ∧ AlikeOn (X s'.pos) s' t' := by
  have hf := hs
  rw [Src.step_act] at hs ⊢
  obtain ⟨st, hst, hs⟩ := Option.bind_eq_some_iff.1 hs
  rw [← h.pos, hst, Option.bind_some]
  have hn := h.next
  rw [← h.pos] at hn
  obtain ⟨hC, hW⟩ := hc s.pos st hst
  obtain ⟨t', k, a⟩ := h.act hn rfl rfl hC hs
  exact ⟨t', k, a.within (hW _ (follows hst hf))⟩

/-- Any number of statements, in the same time. -/
theorem run {X : Nat → ReadSet} {k : Nat} {s t : Src} (h : AlikeOn (X s.pos) s t) {prog : List Stmt} (hc : LiveSets prog X)
    {s' : Src} (hs : s.run prog k = some s') :
    ∃ t', t.run prog k = some t' ∧ AlikeOn (X s'.pos) s' t' ∧ s.cycles prog k = t.cycles prog k := by
  induction k generalizing s t with
  | zero => cases hs; exact ⟨t, rfl, h, rfl⟩
  | succ k ih =>
    obtain ⟨s1, h1, h2⟩ := Option.bind_eq_some_iff.1 hs
    obtain ⟨t1, k1, a1⟩ := h.step hc h1
    obtain ⟨t', k2, a2, c⟩ := ih a1 h2
    refine ⟨t', by rw [Src.run, k1]; exact k2, a2, ?_⟩
    obtain ⟨st, hst, -⟩ := Option.bind_eq_some_iff.1 (show prog[s.pos]?.bind _ = some s1 from h1)
    have hst' := hst
    rw [h.pos] at hst'
    simp only [Src.cycles, hst, hst', h1, k1, c]
    have hC := (hc _ st hst).1
    unfold ReadSet.Covers at hC
    congr 1
    cases hi : st.instr <;> rw [hi] at hC <;> first
      | rfl
      | (simp only at hC
         simp only [clockCycles, h.fz hC])
      | (simp only at hC
         simp only [clockCycles, h.fc hC])

end AlikeOn

theorem AlikeOn.symm {X : ReadSet} {s t : Src} (h : AlikeOn X s t) : AlikeOn X t s :=
  ⟨h.pos.symm, fun x => (h.ac x).symm, fun g x => (h.reg g x).symm, fun x => (h.fc x).symm, fun x => (h.fz x).symm,
    fun x => (h.sp x).symm, fun a x => (h.mem a x).symm⟩

/-- Two machines agree on a set; of the memory only the cells from `size` on count. -/
structure AgreeOn (X : ReadSet) (size : Nat) (p q : P) : Prop where
  ac : X.ac → p.ac = q.ac
  b : X.reg .b → p.b = q.b
  c : X.reg .c → p.c = q.c
  d : X.reg .d → p.d = q.d
  e : X.reg .e → p.e = q.e
  fc : X.fc → p.fc = q.fc
  fz : X.fz → p.fz = q.fz
  sp : X.sp → p.sp = q.sp
  mem : ∀ a : BitVec 16, X.mem a → size ≤ a.toNat → p.mem a = q.mem a

theorem AgreeOn.start {X : ReadSet} {prog : List Stmt} {p q : P} (h : AgreeOn X (sizeOf prog) p q)
    {bss : List (List (BitVec 8))} (hc : Code prog bss) {m m' : BitVec 16 → BitVec 8}
    (w : Written p.mem 0 bss.flatten m) (w' : Written q.mem 0 bss.flatten m') :
    AlikeOn X (.start p m) (.start q m') := by
  refine ⟨rfl, h.ac, fun g hg => ?_, h.fc, h.fz, h.sp, fun a ha => ?_⟩
  · cases g
    · exact h.b hg
    · exact h.c hg
    · exact h.d hg
    · exact h.e hg
  · show m a = m' a
    have hl := flatten_size hc
    by_cases hlt : a.toNat < bss.flatten.length
    · have e1 := w.here a.toNat _ (List.getElem?_eq_getElem hlt)
      have e2 := w'.here a.toNat _ (List.getElem?_eq_getElem hlt)
      rw [Nat.zero_add, BitVec.ofNat_toNat, BitVec.setWidth_eq] at e1 e2
      rw [e1, e2]
    · rw [w.elsewhere a (.inr (by omega)), w'.elsewhere a (.inr (by omega))]
      exact h.mem a ha (by omega)

/-- **C108.** A text is saved on two machines, and beside each statement of its program stands what may still be read
from there on. If the machines agree on what stands beside the first statement, except on the cells the program is
saved to, then whatever statements the program carries out on one of them it carries out on the other, and the machines
agree on what stands beside the statement that is reached. If that is a FIN, run-program ends on both after the same
number of clock cycles. If the program goes on for ever on the first, it does on both. -/
theorem C108_live (text : Str) (prog : List Stmt) (hs : Source text prog) (hne : prog ≠ []) (hv : Valid prog)
    (ha : LabelsAreAddresses prog) (hsz : sizeOf prog < 65536) (X : Nat → ReadSet) (hX : LiveSets prog X)
    (actions actions' : List Action) (hcode : ∀ a ∈ actions, ∃ t, a = .code t) (hcode' : ∀ a ∈ actions', ∃ t, a = .code t)
    (ph ph' : Phase) (h g : H) (p q : P) (r : Reach ph h) (r' : Reach ph' g) (on : ph.on = true) (on' : ph'.on = true)
    (ui : ph.ui = true) (ui' : ph'.ui = true) (s : Shows h p) (s' : Shows g q) (agree : AgreeOn (X 0) (sizeOf prog) p q) :
    ∃ e e' vs vs' h1 g1 bss m m', Editor.start.acts (actions ++ [.code text]) = some e ∧
      Editor.start.acts (actions' ++ [.code text]) = some e' ∧
      execAll (e.saveCalls ++ e.pcCalls) h = some (vs, h1) ∧ execAll (e'.saveCalls ++ e'.pcCalls) g = some (vs', g1) ∧
      Code prog bss ∧ Written p.mem 0 bss.flatten m ∧ Written q.mem 0 bss.flatten m' ∧
      ∀ u, (∀ k x, (Src.start p m).run prog k = some x → ∃ y h2 g2, (Src.start q m').run prog k = some y ∧
          RunInstructions u k h1 h2 ∧ RunInstructions u k g1 g2 ∧ Ready h2 (x.machine prog p.errs) ∧
          Ready g2 (y.machine prog q.errs) ∧ AlikeOn (X x.pos) x y ∧
          ∀ st, prog[x.pos]? = some st → st.instr = .fin → ∃ n h3 g3, RunProgram u n h1 h3 ∧ RunProgram u n g1 g3 ∧
            Ready h3 ({ x with pos := x.pos + 1 }.machine prog p.errs) ∧
            Ready g3 ({ y with pos := y.pos + 1 }.machine prog q.errs)) ∧
        ((∀ k, (Src.start p m).run prog k ≠ none) → ∀ n h3, ¬ RunProgram u n h1 h3 ∧ ¬ RunProgram u n g1 h3) := by
  obtain ⟨e, vs, h1, bss, m, a1, -, a3, a4, a5, o⟩ :=
    saved_timed text prog hs hne hv ha hsz actions hcode ph h p r on ui s
  obtain ⟨e', vs', g1, bss', m', b1, -, b3, b4, b5, o'⟩ :=
    saved_timed text prog hs hne hv ha hsz actions' hcode' ph' g q r' on' ui' s'
  cases (C37_unique _ _ _ hs hs _ _ a4 b4).2
  have al := agree.start a4 a5 b5
  refine ⟨e, e', vs, vs', h1, g1, bss, m, m', a1, b1, a3, b3, a4, a5, b5, fun u => ⟨fun k x hx => ?_, fun hk n h3 => ?_⟩⟩
  · obtain ⟨y, hy, al', hcyc⟩ := AlikeOn.run (X := X) al hX hx
    obtain ⟨h2, c1, c2⟩ := (o u).1.instructions k x hx
    obtain ⟨g2, d1, d2⟩ := (o' u).1.instructions k y hy
    refine ⟨y, h2, g2, hy, c1, d1, c2, d2, al', fun st hst hi => ?_⟩
    obtain ⟨n, h3, c3, c4⟩ := (o u).1.ends k x st hx hst hi
    obtain ⟨n', g3, d3, d4⟩ := (o' u).1.ends k y st hy (al'.pos ▸ hst) hi
    have e1 := (o u).2 k x st hx hst hi n h3 c3
    have e2 := (o' u).2 k y st hy (al'.pos ▸ hst) hi n' g3 d3
    have : n' = n := by omega
    subst this
    exact ⟨n', h3, g3, c3, d3, c4, d4⟩
  · refine ⟨(o u).1.never hk n h3, (o' u).1.never (fun k hn => ?_) n h3⟩
    obtain ⟨x, hx⟩ := Option.ne_none_iff_exists'.1 (hk k)
    obtain ⟨y, hy, -⟩ := AlikeOn.run (X := X) al hX hx
    rw [hy] at hn
    cases hn

/-- LDA, MOV, ADD, STA, FIN: twice the cell 1000h is stored at 1001h. -/
def doubleProg : List Stmt :=
  [⟨none, .lda, .num 0x1000⟩, ⟨none, .mov .ac (.reg .b), .none⟩, ⟨none, .alu .add (.reg .b), .none⟩,
    ⟨none, .sta, .num 0x1001⟩, ⟨none, .fin, .none⟩]

/-- What stands beside its statements: at first only the cell 1000h. -/
def doubleLive : Nat → ReadSet
  | 0 => ⟨False, fun _ => False, False, False, False, fun a => a = 0x1000⟩
  | 1 => ⟨True, fun _ => False, False, False, False, fun a => a = 0x1000⟩
  | 2 => ⟨True, fun g => g = .b, False, False, False, fun a => a = 0x1000⟩
  | 3 => ⟨True, fun g => g = .b, True, True, False, fun a => a = 0x1000⟩
  | _ => ⟨True, fun g => g = .b, True, True, False, fun a => a = 0x1000 ∨ a = 0x1001⟩

theorem double_live : LiveSets doubleProg doubleLive := by
  intro i st hst
  match i, hst with
  | 0, hst =>
    cases hst
    refine ⟨fun a h => (Option.some.inj h).symm, fun j hj => ?_⟩
    cases (show j = 1 from hj)
    exact ⟨fun _ => trivial, fun _ => False.elim, False.elim, False.elim, False.elim, fun _ => id⟩
  | 1, hst =>
    cases hst
    refine ⟨trivial, fun j hj => ?_⟩
    cases (show j = 2 from hj)
    exact ⟨id, fun _ => .inr, False.elim, False.elim, False.elim, fun _ => id⟩
  | 2, hst =>
    cases hst
    refine ⟨⟨trivial, rfl⟩, fun j hj => ?_⟩
    cases (show j = 3 from hj)
    exact ⟨id, fun _ => id, id, id, id, fun _ => id⟩
  | 3, hst =>
    cases hst
    refine ⟨trivial, fun j hj => ?_⟩
    cases (show j = 4 from hj)
    exact ⟨id, fun _ => id, id, id, id, fun a h => h.imp_right fun e => congrArg some e.symm⟩
  | 4, hst =>
    cases hst
    exact ⟨trivial, fun j hj => hj.elim⟩
  | i + 5, hst => cases hst

/-- **C108.** An instance: on machines that agree on the cell 1000h alone, this program ends after the same time with the
same AC, B, flags and cell 1001h. -/
theorem C108_double (text : Str) (hs : Source text doubleProg)
    (actions actions' : List Action) (hcode : ∀ a ∈ actions, ∃ t, a = .code t) (hcode' : ∀ a ∈ actions', ∃ t, a = .code t)
    (ph ph' : Phase) (h g : H) (p q : P) (r : Reach ph h) (r' : Reach ph' g) (on : ph.on = true) (on' : ph'.on = true)
    (ui : ph.ui = true) (ui' : ph'.ui = true) (s : Shows h p) (s' : Shows g q) (agree : p.mem 0x1000 = q.mem 0x1000) :
    ∃ e e' vs vs' h1 g1, Editor.start.acts (actions ++ [.code text]) = some e ∧
      Editor.start.acts (actions' ++ [.code text]) = some e' ∧
      execAll (e.saveCalls ++ e.pcCalls) h = some (vs, h1) ∧ execAll (e'.saveCalls ++ e'.pcCalls) g = some (vs', g1) ∧
      ∀ u, ∃ n h2 g2 p' q', RunProgram u n h1 h2 ∧ RunProgram u n g1 g2 ∧ Ready h2 p' ∧ Ready g2 q' ∧ p'.ac = q'.ac ∧
        p'.b = q'.b ∧ p'.fc = q'.fc ∧ p'.fz = q'.fz ∧ p'.mem 0x1001 = q'.mem 0x1001 := by
  obtain ⟨e, e', vs, vs', h1, g1, bss, m, m', a1, a2, a3, a4, -, -, -, o⟩ :=
    C108_live text doubleProg hs (by simp [doubleProg]) (by decide +kernel) (by decide +kernel) (by decide) doubleLive
      double_live actions actions' hcode hcode' ph ph' h g p q r r' on on' ui ui' s s'
      ⟨False.elim, False.elim, False.elim, False.elim, False.elim, False.elim, False.elim, False.elim,
        fun a ha _ => by rw [show a = 0x1000 from ha]; exact agree⟩
  refine ⟨e, e', vs, vs', h1, g1, a1, a2, a3, a4, fun u => ?_⟩
  obtain ⟨y, h2, g2, -, -, -, -, -, al, f⟩ := (o u).1 4 _ rfl
  obtain ⟨n, h3, g3, b1, b2, b3, b4⟩ := f _ rfl rfl
  exact ⟨n, h3, g3, _, _, b1, b2, b3, b4, al.ac trivial, al.reg .b rfl, al.fc trivial, al.fz trivial, al.mem _ (.inr rfl)⟩

/-- There is a text of this program. -/
example : ∃ text, Source text doubleProg := by
  refine C92_text _ (by simp [doubleProg]) fun st h => ?_
  simp only [doubleProg, List.mem_cons, List.not_mem_nil, or_false] at h
  rcases h with rfl | rfl | rfl | rfl | rfl
  all_goals
    refine ⟨fun l hl => ?_, ?_⟩
    · cases hl
    · decide

/-- **C108.** What a statement reads does matter, be it only for the time: machines that agree on everything but the
flag Z need not take the same time for the same program. -/
theorem C108_time_wrong : ¬ ∀ (prog : List Stmt) (s t : Src),
    AlikeOn ⟨True, fun _ => True, True, False, True, fun _ => True⟩ s t → ∀ k x y, s.run prog k = some x →
    t.run prog k = some y → s.cycles prog k = t.cycles prog k := by
  intro h
  have := h [⟨none, .beq, .label "T1".toList⟩, ⟨some "T1".toList, .fin, .none⟩]
    ⟨0, 0, 0, 0, 0, 0, 0, false, false, fun _ => 0⟩ ⟨0, 0, 0, 0, 0, 0, 0, false, true, fun _ => 0⟩
    ⟨rfl, fun _ => rfl, fun g _ => by cases g <;> rfl, fun _ => rfl, False.elim, fun _ => rfl, fun _ _ => rfl⟩ 1 _ _ rfl rfl
  revert this
  decide

end Mpp.Front
