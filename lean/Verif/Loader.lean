import Verif.RunSim
/-!
# Every programmer's state is reachable

Used to show that the hypotheses of the property theorems can be met: any register, flag and
memory contents can be brought about through the API.
-/
namespace Mpp

theorem Ready.setMem {h : H} {p : P} (r : Ready h p) (i : BitVec 16) (x : BitVec 8) :
    ∃ h', exec (.setMemoryValue (i.setWidth 32) (x.setWidth 32)) h = some (0, h') ∧
      Ready h' (p.store i x) := by
  obtain ⟨ph, r, on, ui, b, s⟩ := r
  obtain ⟨a, o⟩ := r.on on
  obtain ⟨h', e, o', _⟩ := o.setMemory (r.inv.ui.trans ui) i x
  have hp : a.view.prog = p := o.at.shows.unique s
  have hb : a.dd = 0 := (o.at.boundary).1 b
  refine ⟨h', e, ph, ?_, on, ui, (o'.at.boundary).2 hb, ?_⟩
  · refine r.step (c := .setMemoryValue (i.setWidth 32) (x.setWidth 32)) ⟨on, ui, ?_, ?_⟩ e
    · have := i.isLt
      unfold IsAddr
      rw [BitVec.toInt_eq_toNat_cond, BitVec.toNat_setWidth]
      split <;> omega
    · have := x.isLt
      unfold IsByte
      rw [BitVec.toInt_eq_toNat_cond, BitVec.toNat_setWidth]
      split <;> omega
  · have := o'.at.shows
    rw [← hp]
    exact this

theorem Ready.setPc {h : H} {p : P} (r : Ready h p) (x : BitVec 16) :
    ∃ h', exec (.setRegisterPc (x.setWidth 32)) h = some (0, h') ∧
      Ready h' { p with pc := x } := by
  obtain ⟨ph, r, on, ui, b, s⟩ := r
  obtain ⟨a, o⟩ := r.on on
  obtain ⟨h', e, o', _⟩ := o.setPc (r.inv.ui.trans ui) x
  have hp : a.view.prog = p := o.at.shows.unique s
  have hb : a.dd = 0 := (o.at.boundary).1 b
  refine ⟨h', e, ph, ?_, on, ui, (o'.at.boundary).2 hb, ?_⟩
  · refine r.step (c := .setRegisterPc (x.setWidth 32)) ⟨on, ui, ?_⟩ e
    have := x.isLt
    unfold IsAddr
    rw [BitVec.toInt_eq_toNat_cond, BitVec.toNat_setWidth]
    split <;> omega
  · have := o'.at.shows
    rw [← hp]
    exact this

/-- The host can fill the first `n` cells. -/
theorem Ready.fill {h : H} {p : P} (r : Ready h p) (m : BitVec 16 → BitVec 8) (n : Nat)
    (hn : n ≤ 65536) :
    ∃ h', Ready h' { p with mem := fun i => if i.toNat < n then m i else p.mem i } := by
  induction n with
  | zero => exact ⟨h, by simpa using r⟩
  | succ n ih =>
    obtain ⟨h1, r1⟩ := ih (by omega)
    obtain ⟨h2, _, r2⟩ := r1.setMem (BitVec.ofNat 16 n) (m (BitVec.ofNat 16 n))
    refine ⟨h2, ?_⟩
    have e : (fun i : BitVec 16 => if i.toNat < n + 1 then m i else p.mem i) =
        fun i => if i = BitVec.ofNat 16 n then m (BitVec.ofNat 16 n) else
          if i.toNat < n then m i else p.mem i := by
      funext i
      by_cases hi : i = BitVec.ofNat 16 n
      · subst hi
        rw [if_pos rfl, if_pos (by simp only [BitVec.toNat_ofNat]; omega)]
      · rw [if_neg hi]
        have : i.toNat ≠ n := fun h => hi (BitVec.eq_of_toNat_eq (by
          rw [h, BitVec.toNat_ofNat, Nat.mod_eq_of_lt (by omega)]))
        by_cases h2 : i.toNat < n
        · rw [if_pos h2, if_pos (by omega)]
        · rw [if_neg h2, if_neg (by omega)]
    rw [e]
    exact r2

/-- The host can set all of memory. -/
theorem Ready.load {h : H} {p : P} (r : Ready h p) (m : BitVec 16 → BitVec 8) :
    ∃ h', Ready h' { p with mem := m } := by
  obtain ⟨h', r'⟩ := r.fill m 65536 (by omega)
  refine ⟨h', ?_⟩
  have : (fun i : BitVec 16 => if i.toNat < 65536 then m i else p.mem i) = m := by
    funext i; rw [if_pos i.isLt]
  rw [this] at r'
  exact r'

/-- A machine after `init` and with a callback installed. -/
theorem ready_fresh (rand : Nat → Nat) :
    ∃ h, Ready h (A.fresh rand []).view.prog := by
  obtain ⟨h, e, o, e1, e2, _⟩ := (Inv.start.off rfl).init rand (by decide)
  refine ⟨{ h with ui := true }, ⟨true, true, 1, 1⟩, ⟨[.init rand, .setUpdateUi true], [0, 0],
    ⟨(by decide : (0 : Nat) < 27183337), trivial, rfl⟩, ?_⟩, rfl, rfl, ?_, ?_⟩
  · simp only [execAll, e, Option.bind_some, Option.map_some]; rfl
  · exact ((o.setUi true).at.boundary).2 rfl
  · exact (o.setUi true).at.shows

/-- Bytes of a loader that sets all registers and flags. -/
def loader (p : P) : List (BitVec 8) :=
  [0x64, (if p.fc then 0x80 else 0) ||| (if p.fz then 1 else 0), 0x82,
    0x60, p.b, 0x61, p.c, 0x62, p.d, 0x63, p.e,
    0xC3, p.sp.extractLsb' 8 8, p.sp.extractLsb' 0 8, 0x64, p.ac]

/-- Memory holding a list of bytes from address 0. -/
def image (l : List (BitVec 8)) (i : BitVec 16) : BitVec 8 := l.getD i.toNat 0

theorem flags_back (fc fz : Bool) :
    ((if fc then (0x80 : BitVec 8) else 0) ||| (if fz then 1 else 0)).getLsbD 7 = fc ∧
    ((if fc then (0x80 : BitVec 8) else 0) ||| (if fz then 1 else 0)).getLsbD 0 = fz := by
  cases fc <;> cases fz <;> decide

theorem Ready.go {h : H} {p p' : P} (r : Ready h p) (i : Instr) (hd : decode (p.mem p.pc) = some i)
    (hc : i ≠ .call) (e : p.instr i = p') : ∃ h', Ready h' p' := by
  obtain ⟨n, h', _, r'⟩ := r.instr true hd (fun e => absurd e hc)
  exact ⟨h', e ▸ r'⟩

/-- Every state of the programmer's view, with no error reported, can be reached. -/
theorem ready_all (p : P) (he : p.errs = []) : ∃ h, Ready h p := by
  obtain ⟨h0, r0⟩ := ready_fresh fun _ => 0
  obtain ⟨h1, r1⟩ := r0.load (image (loader p))
  obtain ⟨h2, r2⟩ := r1.go (p' := ⟨(if p.fc then 0x80 else 0) ||| (if p.fz then 1 else 0), 0, 0, 0, 0, 2, 0, false,
    false, image (loader p), []⟩) (.mov .imm .ac) (by rfl) (by decide) (by rfl)
  obtain ⟨h3, r3⟩ := r2.go (p' := ⟨(if p.fc then 0x80 else 0) ||| (if p.fz then 1 else 0), 0, 0, 0, 0, 3, 0, p.fc,
    p.fz, image (loader p), []⟩) .sfa (by rfl) (by decide) (by
      obtain ⟨f1, f2⟩ := flags_back p.fc p.fz
      refine Eq.trans (b := P.mk ((if p.fc then 0x80 else 0) ||| (if p.fz then 1 else 0)) 0 0 0 0 3 0
        (((if p.fc then (0x80 : BitVec 8) else 0) ||| (if p.fz then 1 else 0)).getLsbD 7)
        (((if p.fc then (0x80 : BitVec 8) else 0) ||| (if p.fz then 1 else 0)).getLsbD 0)
        (image (loader p)) []) rfl ?_
      rw [f1, f2])
  obtain ⟨h4, r4⟩ := r3.go (p' := ⟨(if p.fc then 0x80 else 0) ||| (if p.fz then 1 else 0), p.b, 0, 0, 0, 5, 0, p.fc,
    p.fz, image (loader p), []⟩) (.mov .imm (.reg .b)) (by rfl) (by decide) (by rfl)
  obtain ⟨h5, r5⟩ := r4.go (p' := ⟨(if p.fc then 0x80 else 0) ||| (if p.fz then 1 else 0), p.b, p.c, 0, 0, 7, 0, p.fc,
    p.fz, image (loader p), []⟩) (.mov .imm (.reg .c)) (by rfl) (by decide) (by rfl)
  obtain ⟨h6, r6⟩ := r5.go (p' := ⟨(if p.fc then 0x80 else 0) ||| (if p.fz then 1 else 0), p.b, p.c, p.d, 0, 9, 0,
    p.fc, p.fz, image (loader p), []⟩) (.mov .imm (.reg .d)) (by rfl) (by decide) (by rfl)
  obtain ⟨h7, r7⟩ := r6.go (p' := ⟨(if p.fc then 0x80 else 0) ||| (if p.fz then 1 else 0), p.b, p.c, p.d, p.e, 11, 0,
    p.fc, p.fz, image (loader p), []⟩) (.mov .imm (.reg .e)) (by rfl) (by decide) (by rfl)
  obtain ⟨h8, r8⟩ := r7.go (p' := ⟨(if p.fc then 0x80 else 0) ||| (if p.fz then 1 else 0), p.b, p.c, p.d, p.e, 14,
    p.sp, p.fc, p.fz, image (loader p), []⟩) .inisp (by rfl) (by decide) (by
      have : p.sp = V.hi p.sp ++ V.lo p.sp := (hi_lo p.sp).symm
      rw [show (P.mk _ _ _ _ _ _ p.sp _ _ _ _) = P.mk _ _ _ _ _ _ (V.hi p.sp ++ V.lo p.sp) _ _ _ _ by rw [← this]]
      rfl)
  obtain ⟨h9, r9⟩ := r8.go (p' := ⟨p.ac, p.b, p.c, p.d, p.e, 16,
    p.sp, p.fc, p.fz, image (loader p), []⟩) (.mov .imm .ac) (by rfl) (by decide) (by rfl)
  obtain ⟨h10, r10⟩ := r9.load p.mem
  obtain ⟨h11, _, r11⟩ := r10.setPc p.pc
  refine ⟨h11, ?_⟩
  cases p
  cases he
  exact r11
end Mpp
