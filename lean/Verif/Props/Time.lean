import Verif.Props.Source
import Verif.Props.Examples
/-!
# C91: how many clock cycles programs take
-/
namespace Mpp.Front

/-- The clock cycles of an instruction: the number of rows of its microprogram in
`docs/src/pages/es/instructions/*.mdx`. BEQ and BC have two microprograms (`docs/src/pages/es/instructions/BEQ.mdx:18-37`,
`docs/src/pages/es/instructions/BC.mdx:18-37`). The page of FIN has no table and IRET has no page
(`docs/src/pages/es/instructions/FIN.mdx:1-13`): 2 and 9 are what the code does. -/
def clockCycles (fc fz : Bool) : Instr → Nat
  | .mov _ _ => 4
  | .alu _ _ => 4
  | .inc _ => 4
  | .cma => 3
  | .lfa => 3
  | .sfa => 3
  | .lda => 6
  | .sta => 6
  | .ldax => 6
  | .stax => 6
  | .jmp => 5
  | .beq => if fz then 5 else 4
  | .bc => if fc then 5 else 4
  | .inisp => 5
  | .push => 4
  | .pop => 4
  | .call => 9
  | .ret => 6
  | .iret => 9
  | .fin => 2

theorem path_cycles (fc fz : Bool) (i : Instr) : (i.path fc fz).length + 1 = clockCycles fc fz i := by
  cases i with
  | mov src dst => rcases src with _ | _ | _ <;> rcases dst with _ | _ <;> rfl
  | inc dst => rcases dst with _ | _ <;> rfl
  | beq => cases fz <;> rfl
  | bc => cases fc <;> rfl
  | _ => rfl

/-- **C91.** Every instruction takes the documented number of clock cycles, no more and no less. -/
theorem C91_instruction (u : Bool) (h : H) (p : P) (i : Instr) (r : Ready h p)
    (hd : decode (p.mem p.pc) = some i) :
    (∃ h', RunInstruction u (clockCycles p.fc p.fz i) h h') ∧
      ∀ n h', RunInstruction u n h h' → n = clockCycles p.fc p.fz i := by
  obtain ⟨v, t, rfl⟩ := r.at
  obtain ⟨h', e1, _, _⟩ := r.run t u
  have hd' : decode (v.mem v.pc) = some i := hd
  have hp : pathOf (v.mem v.pc) v.fc v.fz = i.path v.fc v.fz := by
    unfold pathOf; rw [hd']
  rw [hp, path_cycles] at e1
  exact ⟨⟨h', e1⟩, fun n h2 e => (e.det e1).1⟩

/-- The clock cycles of the statements carried out: `k` of them, beginning in the state `s`. -/
def Src.cycles (prog : List Stmt) : Nat → Src → Nat
  | 0, _ => 0
  | k + 1, s =>
    match prog[s.pos]?, s.step prog with
    | some st, some s' => clockCycles s.fc s.fz st.instr + s'.cycles prog k
    | _, _ => 0

theorem Src.cycles_add (prog : List Stmt) {j : Nat} (k : Nat) {s s' : Src} (h : s.run prog j = some s') :
    s.cycles prog (j + k) = s.cycles prog j + s'.cycles prog k := by
  induction j generalizing s with
  | zero => cases h; simp [Src.cycles]
  | succ j ih =>
    obtain ⟨t, h1, h2⟩ := Option.bind_eq_some_iff.1 h
    obtain ⟨st, hst, _⟩ := Option.bind_eq_some_iff.1 (show prog[s.pos]?.bind _ = some t from h1)
    rw [show j + 1 + k = (j + k) + 1 by omega]
    simp only [Src.cycles, hst, h1]
    rw [ih h2]
    omega

theorem Src.run_add (prog : List Stmt) {j : Nat} (k : Nat) {s s' : Src} (h : s.run prog j = some s') :
    s.run prog (j + k) = s'.run prog k := by
  induction j generalizing s with
  | zero => cases h; simp
  | succ j ih =>
    obtain ⟨t, h1, h2⟩ := Option.bind_eq_some_iff.1 h
    rw [show j + 1 + k = (j + k) + 1 by omega, Src.run, h1]
    exact ih h2

theorem Src.timed {prog : List Stmt} {bss : List (List (BitVec 8))} (hc : Code prog bss) (hsz : sizeOf prog < 65536)
    {k : Nat} {s s' : Src} {errs : List Err} {h : H} (hm : Loaded bss s.mem) (r : Ready h (s.machine prog errs))
    (hk : s.run prog k = some s') (u : Bool) :
    ∃ h', NoFin u (s.cycles prog k) h h' ∧ Ready h' (s'.machine prog errs) := by
  induction k generalizing s h with
  | zero => cases hk; exact ⟨h, .none, r⟩
  | succ k ih =>
    obtain ⟨t, h1, h2⟩ := Option.bind_eq_some_iff.1 hk
    obtain ⟨st, hst, hx⟩ := Option.bind_eq_some_iff.1 (show prog[s.pos]?.bind _ = some t from h1)
    have f := fetches hc (p := s.machine prog errs) hm hst
    obtain ⟨ne, n, h3, i3, r3⟩ := r.step (u := u) (Src.sim hc hsz errs hm h1)
    have hn := (C91_instruction u h _ st.instr r f.op).2 _ _ i3
    obtain ⟨h4, i4, r4⟩ := ih (Src.step_loaded (flatten_size hc) hsz hm h1) r3 h2
    refine ⟨h4, ?_, r4⟩
    simp only [Src.cycles, hst, h1]
    have := NoFin.step r ne i3 i4
    rwa [hn] at this

/-- **C91.** A text is typed and saved and PC is set to its beginning. If the statements lead to a FIN, run-program
takes the sum of their clock cycles and two for the FIN. -/
theorem C91_program (text : Str) (prog : List Stmt) (hs : Source text prog) (hne : prog ≠ []) (hv : Valid prog)
    (ha : LabelsAreAddresses prog) (hsz : sizeOf prog < 65536) (actions : List Action)
    (hcode : ∀ a ∈ actions, ∃ t, a = .code t) (ph : Phase) (h : H) (p : P) (r : Reach ph h) (on : ph.on = true)
    (ui : ph.ui = true) (s : Shows h p) :
    ∃ e vs h1 bss m, Editor.start.acts (actions ++ [.code text]) = some e ∧ e.canSave = true ∧
      execAll (e.saveCalls ++ e.pcCalls) h = some (vs, h1) ∧ Code prog bss ∧ Written p.mem 0 bss.flatten m ∧
      ∀ u k s' st, (Src.start p m).run prog k = some s' → prog[s'.pos]? = some st → st.instr = .fin →
        (∃ h2, RunProgram u ((Src.start p m).cycles prog k + 2) h1 h2) ∧
        ∀ n h2, RunProgram u n h1 h2 → n = (Src.start p m).cycles prog k + 2 := by
  obtain ⟨_, bss, _, hc, _⟩ := C37_code text prog hs hne hv ha (by omega)
  have hl := flatten_size hc
  obtain ⟨e, he, hcan, vs, h1, m, e1, r1, w⟩ := saved hs hne hv ha hc (by omega) hcode r on ui s
  refine ⟨e, vs, h1, bss, m, he, hcan, e1, hc, w, fun u k s' st hk hst hi => ?_⟩
  have r1' : Ready h1 ((Src.start p m).machine prog p.errs) := r1
  obtain ⟨h3, nf, r3⟩ := Src.timed hc hsz w.loaded r1' hk u
  have hm' := (Src.run_loaded hc hsz p.errs (s := Src.start p m) w.loaded hk).1
  have f := fetches hc (p := s'.machine prog p.errs) hm' hst
  have hd : decode ((s'.machine prog p.errs).mem (s'.machine prog p.errs).pc) = some .fin := by
    rw [← hi]; exact f.op
  obtain ⟨h2, run, _⟩ := C18_stops u h1 h3 _ _ nf r3 (decode_code _ _ hd)
  exact ⟨⟨h2, run⟩, fun n h2' run' => (C18_deterministic u h1 _ _ _ _ run' run).1⟩

/-! ## The samples -/

/-- The statements from `s` to `s'` take `n` clock cycles. -/
def Src.Takes (prog : List Stmt) (n : Nat) (s s' : Src) : Prop :=
  ∃ k, s.run prog k = some s' ∧ s.cycles prog k = n

theorem Src.Takes.trans {prog : List Stmt} {n m : Nat} {s t w : Src} (a : s.Takes prog n t) (b : t.Takes prog m w) :
    s.Takes prog (n + m) w := by
  obtain ⟨j, hj, cj⟩ := a
  obtain ⟨k, hk, ck⟩ := b
  exact ⟨j + k, by rw [Src.run_add prog k hj, hk], by rw [Src.cycles_add prog k hj, cj, ck]⟩

theorem Src.Takes.done (prog : List Stmt) (s : Src) {n : Nat} (h : n = 0) : s.Takes prog n s := ⟨0, rfl, h.symm⟩

theorem Src.Takes.next {prog : List Stmt} {n : Nat} {s t w : Src} {st : Stmt} (hst : prog[s.pos]? = some st)
    (h : s.step prog = some t) (hn : Nat.ble (clockCycles s.fc s.fz st.instr) n = true)
    (b : t.Takes prog (n - clockCycles s.fc s.fz st.instr) w) : s.Takes prog n w := by
  have hn := Nat.le_of_ble_eq_true hn
  rw [show n = clockCycles s.fc s.fz st.instr + (n - clockCycles s.fc s.fz st.instr) by omega]
  refine Src.Takes.trans (t := t) ⟨1, by rw [Src.run, h]; rfl, ?_⟩ b
  simp only [Src.cycles, hst, h, Nat.add_zero]

/-- The state of the multiplication before `TSTART`: the product so far in the cell 0x1233. -/
def Src.inLoop (pos : Nat) (ac x c d e : BitVec 8) (fc fz : Bool) (m : BitVec 16 → BitVec 8) : Src :=
  ⟨pos, ac, x, c, d, e, 0x1233, fc, fz, m⟩

theorem product_size (x y : BitVec 8) : sizeOf (productProg x y) = 27 := by
  have h1 := flatten_size (product_code x y)
  have h2 : (productCode x y).flatten.length = 27 := rfl
  omega

theorem product_push (x y ac b c d e : BitVec 8) (fc fz : Bool) (m : BitVec 16 → BitVec 8) (k : Nat)
    (hk : (productProg x y)[k]? = some ⟨none, .push, .none⟩) :
    Src.step (productProg x y) ⟨k, ac, b, c, d, e, 0x1234, fc, fz, m⟩ = some (Src.inLoop (k + 1) ac b c d e fc fz
      fun i => if i = 0x1233#16 then ac else m i) := by
  unfold Src.step
  rw [show (productProg x y)[Src.pos ⟨k, ac, b, c, d, e, 0x1234, fc, fz, m⟩]? = _ from hk]
  have q := Src.push_some (prog := productProg x y) (s := ⟨k + 1, ac, b, c, d, e, 0x1234, fc, fz, m⟩) ac (by
    rw [product_size x y]; show 27 + 1 ≤ (0x1234#16).toNat; decide)
  have e1 : (0x1234 : BitVec 16) - 1 = 0x1233#16 := by decide
  rw [Option.bind_some]
  show Src.push (productProg x y) ⟨k + 1, ac, b, c, d, e, 0x1234, fc, fz, m⟩ ac = _
  rw [q]
  simp only [e1, Src.inLoop]
  rfl

theorem product_round (x y ac c d e : BitVec 8) (fc fz : Bool) (m : BitVec 16 → BitVec 8) (hc : c ≠ 1) :
    ∃ fc' fz' m', (Src.inLoop 5 ac x c d e fc fz m).Takes (productProg x y) 41
      (Src.inLoop 5 (c - 1) x (c - 1) d e fc' fz' m') := by
  have hz : (c == 1#8) = false := by simpa using hc
  have t1 : (Src.inLoop 5 ac x c d e fc fz m).Takes (productProg x y) 8
      (Src.inLoop 7 c x c d e (decide (c < 1#8)) (c == 1#8) m) := by
      iterate 2 refine .next rfl rfl rfl ?_
      exact .done _ _ rfl
  rw [hz] at t1
  have t2 : (Src.inLoop 7 c x c d e (decide (c < 1#8)) false m).Takes (productProg x y) 33
      (Src.inLoop 5 (c - 1#8) x (c - 1#8) d e (decide (c < 1#8)) (c == 1#8)
        fun i => if i = 0x1233#16 then m 0x1233#16 + x else m i) := by
      iterate 3 refine .next rfl rfl rfl ?_
      refine .next rfl (product_push x y (m 0x1233#16 + x) x c d e _ _ m 10 rfl) rfl ?_
      iterate 4 refine .next rfl rfl rfl ?_
      exact .done _ _ rfl
  exact ⟨_, _, _, t1.trans t2⟩

theorem product_last (x y ac d e : BitVec 8) (fc fz : Bool) (m : BitVec 16 → BitVec 8) :
    ∃ s', (Src.inLoop 5 ac x 1 d e fc fz m).Takes (productProg x y) 17 s' ∧ s'.pos = 16 := by
  refine ⟨?_, ?_, ?_⟩
  rotate_left
  · iterate 4 refine .next rfl rfl rfl ?_
    exact .done _ _ rfl
  · rfl

theorem product_loop (x y : BitVec 8) (k : Nat) (c ac d e : BitVec 8) (fc fz : Bool) (m : BitVec 16 → BitVec 8)
    (hk : (c - 1).toNat = k) :
    ∃ s', (Src.inLoop 5 ac x c d e fc fz m).Takes (productProg x y) (41 * k + 17) s' ∧ s'.pos = 16 := by
  induction k generalizing c ac fc fz m with
  | zero =>
    have : c = 1 := by
      have h1 : c - 1 = 0 := BitVec.eq_of_toNat_eq hk
      bv_omega
    subst this
    simpa using product_last x y ac d e fc fz m
  | succ k ih =>
    have hc : c ≠ 1 := by rintro rfl; simp at hk
    obtain ⟨fc', fz', m', t1⟩ := product_round x y ac c d e fc fz m hc
    obtain ⟨s', t2, hs⟩ := ih (c - 1) (c - 1) fc' fz' m' (by bv_omega)
    refine ⟨s', ?_, hs⟩
    rw [show 41 * (k + 1) + 17 = 41 + (41 * k + 17) by omega]
    exact t1.trans t2

theorem product_takes (p : P) (m : BitVec 16 → BitVec 8) (x y : BitVec 8) :
    ∃ s', (Src.start p m).Takes (productProg x y) (41 * (y - 1).toNat + 38) s' ∧ s'.pos = 16 := by
  have t1 : ∃ m', (Src.start p m).Takes (productProg x y) 21
      (Src.inLoop 5 (BitVec.ofNat 8 x.toNat) (BitVec.ofNat 8 x.toNat) (BitVec.ofNat 8 y.toNat) p.d p.e p.fc p.fz m') :=
    by
      refine ⟨?_, ?_⟩
      rotate_left
      · iterate 4 refine .next rfl rfl rfl ?_
        refine .next rfl (product_push x y (BitVec.ofNat 8 x.toNat) _ (BitVec.ofNat 8 y.toNat) p.d p.e _ _ m 4 rfl) rfl ?_
        exact .done _ _ rfl
  obtain ⟨m', t1⟩ := t1
  simp only [BitVec.ofNat_toNat, BitVec.setWidth_eq] at t1
  obtain ⟨s', t2, hs⟩ := product_loop x y _ y x p.d p.e p.fc p.fz m' rfl
  refine ⟨s', ?_, hs⟩
  rw [show 41 * (y - 1).toNat + 38 = 21 + (41 * (y - 1).toNat + 17) by omega]
  exact t1.trans t2

/-- **C91.** MULTIPLICATION, with any numerals for `a` and `b`: run-program takes 41 clock cycles for each addition
but the first and 40 more, whatever `a` is. A `b` of zero counts as 256. -/
theorem C91_product (x y : Str) (a b : BitVec 8) (hx : HexValue x a.toNat) (hx' : ¬ SameName x acName)
    (hy : HexValue y b.toNat) (hy' : ¬ SameName y acName) (before : List Action)
    (hcode : ∀ a ∈ before, ∃ t, a = .code t) (ph : Phase) (h : H) (p : P) (r : Reach ph h)
    (on : ph.on = true) (ui : ph.ui = true) (s : Shows h p) :
    ∃ e vs h1, Editor.start.acts (before ++ [.code (productText x y)]) = some e ∧ e.canSave = true ∧
      execAll (e.saveCalls ++ e.pcCalls) h = some (vs, h1) ∧
      ∀ u, (∃ h2, RunProgram u (40 + 41 * ((if b = 0 then 256 else b.toNat) - 1)) h1 h2) ∧
        ∀ n h2, RunProgram u n h1 h2 → n = 40 + 41 * ((if b = 0 then 256 else b.toNat) - 1) := by
  obtain ⟨e, vs, h1, bss, m, e1, e2, e3, hc, _, run⟩ := C91_program _ _ (product_source ⟨hx, hx'⟩ ⟨hy, hy'⟩)
    (by simp [productProg]) (product_valid a b).1 (product_valid a b).2
    (by rw [product_size]; decide) before hcode ph h p r on ui s
  obtain ⟨s', ⟨k, hk, ck⟩, hs⟩ := product_takes p m a b
  refine ⟨e, vs, h1, e1, e2, e3, fun u => ?_⟩
  have := run u k s' ⟨none, .fin, .none⟩ hk (by rw [hs]; rfl) rfl
  have hb : 40 + 41 * ((if b = 0 then 256 else b.toNat) - 1) = 41 * (b - 1).toNat + 38 + 2 := by
    split
    · rename_i h0; subst h0; rfl
    · bv_omega
  rw [hb, ← ck]
  exact this

theorem count_takes (p : P) (m : BitVec 16 → BitVec 8) :
    ∃ s', (Src.start p m).Takes (countingProg.map (·.1)) 85 s' ∧ s'.pos = 5 := by
  refine ⟨?_, ?_, ?_⟩
  rotate_left
  · iterate 20 refine .next rfl rfl rfl ?_
    exact .done _ _ rfl
  · rfl

/-- **C91.** SUM ACC UNTIL AC=5 takes 87 clock cycles. -/
theorem C91_count (before : List Action) (hcode : ∀ a ∈ before, ∃ t, a = .code t) (ph : Phase) (h : H)
    (p : P) (r : Reach ph h) (on : ph.on = true) (ui : ph.ui = true) (s : Shows h p) :
    ∃ e vs h1, Editor.start.acts (before ++ [.code countingText]) = some e ∧ e.canSave = true ∧
      execAll (e.saveCalls ++ e.pcCalls) h = some (vs, h1) ∧
      ∀ u, (∃ h2, RunProgram u 87 h1 h2) ∧ ∀ n h2, RunProgram u n h1 h2 → n = 87 := by
  obtain ⟨e, vs, h1, bss, m, e1, e2, e3, hc, _, run⟩ := C91_program _ _ counting_source (by decide +kernel)
    (by decide +kernel) (by decide +kernel) (by decide +kernel) before hcode ph h p r on ui s
  obtain ⟨s', ⟨k, hk, ck⟩, hs⟩ := count_takes p m
  refine ⟨e, vs, h1, e1, e2, e3, fun u => ?_⟩
  have := run u k s' ⟨some "T1".toList, .fin, .none⟩ hk (by rw [hs]; rfl) rfl
  rw [ck] at this
  exact this

/-- MULTIPLICATION as it is offered, 5 by 3: 122 clock cycles. With the factors exchanged it would be 204. -/
example (ph : Phase) (h : H) (p : P) (r : Reach ph h) (on : ph.on = true) (ui : ph.ui = true) (s : Shows h p) :
    ∃ h1, ∀ u, ∃ h2, RunProgram u 122 h1 h2 := by
  obtain ⟨_, _, h1, _, _, _, run⟩ := C91_product "05".toList "03".toList 5 3 (by decide) (by decide) (by decide)
    (by decide) [] (by simp) _ h p r on ui s
  exact ⟨h1, fun u => (run u).1⟩
example : 40 + 41 * ((if (3 : BitVec 8) = 0 then 256 else (3 : BitVec 8).toNat) - 1) = 122 ∧
    40 + 41 * ((if (5 : BitVec 8) = 0 then 256 else (5 : BitVec 8).toNat) - 1) = 204 := by decide

/-- A machine at a BEQ that is not followed. -/
example (u : Bool) : ∃ h p, Ready h p ∧ decode (p.mem p.pc) = some .beq ∧ p.fz = false ∧
    (∃ h', RunInstruction u 4 h h') ∧ ¬ ∃ h', RunInstruction u 5 h h' := by
  obtain ⟨h, r⟩ := ready_all ⟨0, 0, 0, 0, 0, 0, 0, true, false, fun _ => 0x72, []⟩ rfl
  have hd : decode (0x72 : BitVec 8) = some .beq := by decide +kernel
  obtain ⟨e, only⟩ := C91_instruction u h _ .beq r hd
  exact ⟨h, _, r, hd, rfl, e, fun ⟨h', e'⟩ => absurd (only 5 h' e') (by decide)⟩

end Mpp.Front
