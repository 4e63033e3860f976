import Verif.Front.Samples2
/-!
# The example programs of the code drawer, from the text to the end of the run

Each theorem starts with any machine that a host can have brought about (switched on, with the
callbacks of the page registered, stopped anywhere, even inside an instruction), any text typed before
and any contents. The example is chosen (its text becomes the code), "Save to memory" and "Set PC" are
pressed, then "Run program".

`HexValue s n`: `s` consists of hexadecimal digits with the value `n`. The text `AC` is the only numeral
that the assembler takes for something else (C38), so it is left out.
-/
namespace Mpp.Front

/-- What is common to the four: the save and PC calls succeed, then run-program ends. -/
theorem example_ends {text : Str} {prog : List Stmt} {bss : List (List (BitVec 8))} (hs : Source text prog)
    (hne : prog ≠ []) (hv : Valid prog) (ha : LabelsAreAddresses prog) (hc : Code prog bss)
    (hsz : bss.flatten.length ≤ 65536) {actions : List Action}
    (hcode : ∀ a ∈ actions, ∃ t, a = .code t) {ph : Phase} {h : H} {p : P} (r : Reach ph h)
    (on : ph.on = true) (ui : ph.ui = true) (s : Shows h p) (u : Bool) {Final : P → Prop}
    (run : ∀ m, Written p.mem 0 bss.flatten m → ∃ q, Runs { p with mem := m, pc := 0 } q ∧
      decode (q.mem q.pc) = some .fin ∧ q.pc.toNat + 1 ≤ 65535 ∧ Final (q.skip 1)) :
    ∃ e vs h1 n h2 q, Editor.start.acts (actions ++ [.code text]) = some e ∧ e.canSave = true ∧
      execAll (e.saveCalls ++ e.pcCalls) h = some (vs, h1) ∧ RunProgram u n h1 h2 ∧ Ready h2 q ∧ Final q := by
  obtain ⟨e, he, hcan, vs, h1, m, e1, r1, w⟩ := saved hs hne hv ha hc hsz hcode r on ui s
  obtain ⟨q, ⟨k, hk⟩, hf, hpc, fin⟩ := run m w
  obtain ⟨n, h2, rp, r2⟩ := program_skip (u := u) r1 hk hf hpc
  exact ⟨e, vs, h1, n, h2, q.skip 1, he, hcan, e1, rp, r2, fin⟩

/-- **C42.** MULTIPLICATION, with any numerals `x` and `y` in place of `05` and `03`, ends with AC = a·b
(modulo 256). The first factor is in B and the second, counted down, in C; the only cells changed are
those of the program and the cell 0x1233 of its stack; no error is reported. -/
theorem C42_product (x y : Str) (a b : BitVec 8) (hx : HexValue x a.toNat) (hx' : ¬ SameName x acName)
    (hy : HexValue y b.toNat) (hy' : ¬ SameName y acName) (before : List Action)
    (hcode : ∀ a ∈ before, ∃ t, a = .code t) (ph : Phase) (h : H) (p : P) (r : Reach ph h)
    (on : ph.on = true) (ui : ph.ui = true) (s : Shows h p) (u : Bool) :
    ∃ e vs h1 n h2 q, Editor.start.acts (before ++ [.code (productText x y)]) = some e ∧
      e.canSave = true ∧ execAll (e.saveCalls ++ e.pcCalls) h = some (vs, h1) ∧ RunProgram u n h1 h2 ∧
      Ready h2 q ∧ q.ac = a * b ∧ q.b = a ∧ q.c = 1 ∧ q.d = p.d ∧ q.e = p.e ∧ q.fz = true ∧ q.fc = false ∧
      q.pc = 27 ∧ q.sp = 0x1234 ∧ q.errs = p.errs ∧ q.mem 0x1233 = a * b ∧
      (∀ i : BitVec 16, 27 ≤ i.toNat → i ≠ 0x1233 → q.mem i = p.mem i) := by
  refine example_ends (Final := fun q => q.ac = a * b ∧ q.b = a ∧ q.c = 1 ∧ q.d = p.d ∧ q.e = p.e ∧
      q.fz = true ∧ q.fc = false ∧ q.pc = 27 ∧ q.sp = 0x1234 ∧ q.errs = p.errs ∧ q.mem 0x1233 = a * b ∧
      (∀ i : BitVec 16, 27 ≤ i.toNat → i ≠ 0x1233 → q.mem i = p.mem i))
    (product_source ⟨hx, hx'⟩ ⟨hy, hy'⟩) (by simp [productProg]) (product_valid a b).1 (product_valid a b).2
    (product_code a b) (by simp [productCode]) hcode r on ui s u ?_
  intro m w
  refine ⟨_, product_runs w p, ?_, (show (_ : Nat) ≤ 65535 by simp), rfl, rfl, rfl, rfl, rfl, rfl, rfl, rfl, rfl, rfl, rfl, ?_⟩
  · have : withTop m (a * b) 0x1A#16 = 0xFF#8 := w.here 0x1A _ rfl
    show decode (withTop m (a * b) 0x1A#16) = _
    rw [this]
    decide +kernel
  · intro i h1 h2
    show withTop m (a * b) i = _
    rw [withTop_other h2]
    exact w.elsewhere i (.inr (by simpa [productCode] using h1))

/-- **C43.** SUM ACC UNTIL AC=5 ends with AC = 5; all else is as it was but the flags and the cells of the
program. -/
theorem C43_count (before : List Action) (hcode : ∀ a ∈ before, ∃ t, a = .code t) (ph : Phase) (h : H)
    (p : P) (r : Reach ph h) (on : ph.on = true) (ui : ph.ui = true) (s : Shows h p) (u : Bool) :
    ∃ e vs h1 n h2 m, Editor.start.acts (before ++ [.code countingText]) = some e ∧
      e.canSave = true ∧ execAll (e.saveCalls ++ e.pcCalls) h = some (vs, h1) ∧ RunProgram u n h1 h2 ∧
      Ready h2 { p with ac := 5, fz := true, fc := false, pc := 12, mem := m } ∧
      (∀ i : BitVec 16, 12 ≤ i.toNat → m i = p.mem i) := by
  obtain ⟨e, vs, h1, n, h2, q, e1, e2, e3, e4, e5, m, rfl, e6⟩ := example_ends
    (Final := fun q => ∃ m, q = { p with ac := 5, fz := true, fc := false, pc := 12, mem := m } ∧
      ∀ i : BitVec 16, 12 ≤ i.toNat → m i = p.mem i)
    counting_source (by decide +kernel) (by decide +kernel) (by decide +kernel) counting_code (by decide)
    hcode r on ui s u (by
      intro m w
      refine ⟨_, counting_runs w p, ?_, (show (_ : Nat) ≤ 65535 by simp), m, rfl, ?_⟩
      · have : m 11#16 = 0xFF#8 := w.here 11 _ rfl
        show decode (m 11#16) = _
        rw [this]
        decide +kernel
      · intro i h1
        exact w.elsewhere i (.inr (by simpa [sampleCode] using h1)))
  exact ⟨e, vs, h1, n, h2, m, e1, e2, e3, e4, e5, e6⟩

/-- **C48.** SEARCH IN BUFFER FOR '05' stores a 5 at 0x0102 and ends with D:E on the first cell from 0x00FE
on that holds a 5, and AC = 5. -/
theorem C48_search (before : List Action) (hcode : ∀ a ∈ before, ∃ t, a = .code t) (ph : Phase) (h : H)
    (p : P) (r : Reach ph h) (on : ph.on = true) (ui : ph.ui = true) (s : Shows h p) (u : Bool) :
    ∃ e vs h1 n h2 q, Editor.start.acts (before ++ [.code searchText]) = some e ∧
      e.canSave = true ∧ execAll (e.saveCalls ++ e.pcCalls) h = some (vs, h1) ∧ RunProgram u n h1 h2 ∧
      Ready h2 q ∧ q.ac = 5 ∧ q.mem (q.d ++ q.e) = 5 ∧ 0xFE ≤ (q.d ++ q.e).toNat ∧
      (∀ i : BitVec 16, 0xFE ≤ i.toNat → i.toNat < (q.d ++ q.e).toNat → q.mem i ≠ 5) ∧
      (∀ i : BitVec 16, 32 ≤ i.toNat → q.mem i = if i = 0x102 then 5 else p.mem i) ∧
      q.b = p.b ∧ q.c = p.c ∧ q.sp = p.sp ∧ q.fz = true ∧ q.fc = false ∧ q.pc = 32 ∧ q.errs = p.errs := by
  refine example_ends (Final := fun q => q.ac = 5 ∧ q.mem (q.d ++ q.e) = 5 ∧ 0xFE ≤ (q.d ++ q.e).toNat ∧
      (∀ i : BitVec 16, 0xFE ≤ i.toNat → i.toNat < (q.d ++ q.e).toNat → q.mem i ≠ 5) ∧
      (∀ i : BitVec 16, 32 ≤ i.toNat → q.mem i = if i = 0x102 then 5 else p.mem i) ∧
      q.b = p.b ∧ q.c = p.c ∧ q.sp = p.sp ∧ q.fz = true ∧ q.fc = false ∧ q.pc = 32 ∧ q.errs = p.errs)
    search_source (by decide +kernel) search_valid.1 search_valid.2 search_code (by decide) hcode r on ui s u ?_
  intro m w
  obtain ⟨d, e, h1, -, h2, h3, run⟩ := search_runs w p
  refine ⟨_, run, ?_, (show (_ : Nat) ≤ 65535 by simp), rfl, h2, h1, h3, ?_, rfl, rfl, rfl, rfl, rfl, rfl, rfl⟩
  · have : planted m 0x1F#16 = 0xFF#8 := w.here 0x1F _ rfl
    show decode (planted m 0x1F#16) = _
    rw [this]
    decide +kernel
  · intro i hi
    show (if i = 0x0102#16 then 5#8 else m i) = _
    rw [w.elsewhere i (.inr (by simpa [searchCode] using hi))]
    rfl

/-- **C49.** CALL FUNCTION, with any numerals in place of the two `02`, ends with D = AC = a + b (modulo
256), the stack pointer back at 0x0123 and the flags of the addition. -/
theorem C49_call (x y : Str) (a b : BitVec 8) (hx : HexValue x a.toNat) (hx' : ¬ SameName x acName)
    (hy : HexValue y b.toNat) (hy' : ¬ SameName y acName) (before : List Action)
    (hcode : ∀ a ∈ before, ∃ t, a = .code t) (ph : Phase) (h : H) (p : P) (r : Reach ph h)
    (on : ph.on = true) (ui : ph.ui = true) (s : Shows h p) (u : Bool) :
    ∃ e vs h1 n h2 q, Editor.start.acts (before ++ [.code (callText x y)]) = some e ∧
      e.canSave = true ∧ execAll (e.saveCalls ++ e.pcCalls) h = some (vs, h1) ∧ RunProgram u n h1 h2 ∧
      Ready h2 q ∧ q.d = a + b ∧ q.ac = a + b ∧ q.b = a ∧ q.c = b ∧ q.e = 0xFD ∧
      q.fc = decide (a.toNat + b.toNat ≥ 256) ∧ q.fz = decide (a + b = 0) ∧ q.pc = 30 ∧ q.sp = 0x0123 ∧
      q.errs = p.errs ∧
      (∀ i : BitVec 16, 30 ≤ i.toNat → i ∉ [0x0121, 0x0122, 0xFFFA, 0xFFFB, 0xFFFC, 0xFFFD] →
        q.mem i = p.mem i) := by
  refine example_ends (Final := fun q => q.d = a + b ∧ q.ac = a + b ∧ q.b = a ∧ q.c = b ∧ q.e = 0xFD ∧
      q.fc = decide (a.toNat + b.toNat ≥ 256) ∧ q.fz = decide (a + b = 0) ∧ q.pc = 30 ∧ q.sp = 0x0123 ∧
      q.errs = p.errs ∧
      (∀ i : BitVec 16, 30 ≤ i.toNat → i ∉ [0x0121, 0x0122, 0xFFFA, 0xFFFB, 0xFFFC, 0xFFFD] →
        q.mem i = p.mem i))
    (call_source ⟨hx, hx'⟩ ⟨hy, hy'⟩) (by simp [callProg]) (call_valid a b).1 (call_valid a b).2
    (call_code a b) (by simp [callCode]) hcode r on ui s u ?_
  intro m w
  refine ⟨_, call_runs w p, ?_, (show (_ : Nat) ≤ 65535 by simp), rfl, rfl, rfl, rfl, rfl, rfl, rfl, rfl, rfl, rfl, ?_⟩
  · have : withFunction m 0x1D#16 = 0xFF#8 := w.here 0x1D _ rfl
    show decode (withFunction m 0x1D#16) = _
    rw [this]
    decide +kernel
  · intro i h1 h2
    simp only [List.mem_cons, List.not_mem_nil, or_false, not_or] at h2
    show withFunction m i = _
    unfold withFunction
    have e (k : Nat) : (OfNat.ofNat k : BitVec 16) = BitVec.ofNat 16 k := rfl
    simp only [e] at h2
    rw [if_neg h2.1, if_neg h2.2.1, if_neg h2.2.2.2.2.2, if_neg h2.2.2.2.2.1, if_neg h2.2.2.2.1,
      if_neg h2.2.2.1]
    exact w.elsewhere i (.inr (by simpa [callCode] using h1))

/-- A machine in a state of one's choice, and the factors 0x64 and 0x1F, written `64` and `01f`: the
theorems apply, and 100·31 = 3100 = 0x1C modulo 256. -/
example : ∃ ph h p, Reach ph h ∧ ph.on = true ∧ ph.ui = true ∧ Shows h p ∧ p.ac = 0x77 ∧ p.pc = 0x1234 ∧
    p.mem 0x0100 = 5 ∧ HexValue "64".toList (0x64#8).toNat ∧ ¬ SameName "64".toList acName ∧
    HexValue "01f".toList (0x1F#8).toNat ∧ ¬ SameName "01f".toList acName ∧ 0x64#8 * 0x1F#8 = 0x1C#8 := by
  obtain ⟨h, ph, r, on, ui, _, s⟩ := ready_all
    ⟨0x77, 1, 2, 3, 4, 0x1234, 0x4321, true, false, fun i => if i = 0x0100 then 5 else 0xAB, []⟩ rfl
  exact ⟨ph, h, _, r, on, ui, s, rfl, rfl, rfl, by decide +kernel, by decide +kernel, by decide +kernel,
    by decide +kernel, by decide⟩

end Mpp.Front
