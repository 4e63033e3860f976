import Verif.Front.Stored
import Verif.Props.Assembler
/-!
# Properties C57 and C58: the code in the address of the page, and what is kept between visits
-/
namespace Mpp.Front

/-! ## C57 -/

/-- The statement `FIN`. -/
def finStmt : Stmt := ⟨none, .fin, .none⟩

theorem reads_fin : Reads "FIN".toList finStmt :=
  ⟨[], "FIN".toList, .none rfl rfl, trivial, rfl⟩

theorem fin_clean : clean "FIN".toList = "FIN".toList := by decide +kernel

theorem cleanLines_fin (text : Str) :
    cleanLines (text ++ "\nFIN".toList) = cleanLines text ++ ["FIN".toList] := by
  have h := lines_split text
  have : split '\n' (text ++ "\nFIN".toList) = split '\n' text ++ ["FIN".toList] := by
    generalize split '\n' text = ls at h
    show split '\n' (text ++ '\n' :: "FIN".toList) = _
    induction h with
    | last h => rw [split_append h, split_none (by decide)]; rfl
    | cons h _ ih => rw [List.append_assoc, List.cons_append, split_append h, ih]; rfl
  rw [cleanLines_eq, cleanLines_eq, this, List.map_append, List.map_singleton, fin_clean]

theorem source_fin {text : Str} {prog : List Stmt} (h : Source text prog) :
    Source (text ++ "\nFIN".toList) (prog ++ [finStmt]) := by
  obtain ⟨h1, h2⟩ := (source_iff _ _).1 h
  rw [source_iff, cleanLines_fin]
  constructor
  · intro l hl
    rcases List.mem_append.1 hl with hl | hl
    · exact h1 l hl
    · rw [List.mem_singleton.1 hl]
      intro c hc
      revert c
      decide
  · rw [List.filter_append]
    refine List.rel_append h2 ?_
    rw [List.filter_cons_of_pos (by decide)]
    exact .cons reads_fin .nil

theorem valid_fin {prog : List Stmt} (h : Valid prog) : Valid (prog ++ [finStmt]) := by
  intro st hst
  rcases List.mem_append.1 hst with hst | hst
  · have := h st hst
    cases ha : st.arg with
    | none => trivial
    | num n => rw [ha] at this; exact this
    | label l =>
      rw [ha] at this
      obtain ⟨s, h1, h2⟩ := this
      exact ⟨s, by simp [h1], h2⟩
  · rw [List.mem_singleton.1 hst]
    trivial

theorem LabelAt.append {prog : List Stmt} {l : Str} {a : Nat} (h : LabelAt prog l a)
    (more : List Stmt) : LabelAt (prog ++ more) l a := by
  obtain ⟨b, st, c, rfl, h1, h2, h3⟩ := h
  exact ⟨b, st, c ++ more, by simp, h1, h2, h3⟩

theorem labelAt_exists {prog : List Stmt} {l : Str} {x : Stmt} (hx : x ∈ prog)
    (hxl : x.label = some l) : ∃ a, LabelAt prog l a := by
  induction prog with
  | nil => simp at hx
  | cons y prog ih =>
    by_cases hy : y.label = some l
    · exact ⟨0, [], y, prog, rfl, hy, by simp, rfl⟩
    · rcases List.mem_cons.1 hx with rfl | hx
      · exact absurd hxl hy
      · obtain ⟨a, h⟩ := ih hx
        exact ⟨_, h.cons hy⟩

theorem endsFin_iff (s : Str) : endsFin s = true ↔
    ∃ a f w, s = a ++ f ++ [w] ∧ SameName f "FIN".toList ∧ Blank w := by
  have e : s = s.reverse.reverse := by simp
  constructor
  · intro h
    unfold endsFin at h
    split at h
    · rename_i w n i f r hr
      simp only [Bool.and_eq_true] at h
      obtain ⟨⟨⟨h1, h2⟩, h3⟩, h4⟩ := h
      refine ⟨r.reverse, [f, i, n], w, ?_, ?_, (isWs_iff w).1 h1⟩
      · rw [e, hr]; simp
      · simp only [eqCI, beq_iff_eq] at h2 h3 h4
        simp [SameName, ← h2, ← h3, ← h4]
    · simp at h
  · rintro ⟨a, f, w, rfl, h1, h2⟩
    have hl : f.length = 3 := by simpa using congrArg List.length h1
    match f, hl with
    | [x, y, z], _ =>
      simp only [SameName, List.map_cons, List.map_nil, String.toList] at h1
      have h1 : [x.toUpper, y.toUpper, z.toUpper] = ['F', 'I', 'N'].map Char.toUpper := h1
      simp only [List.map_cons, List.map_nil, List.cons.injEq, and_true] at h1
      simp [endsFin, eqCI, (isWs_iff w).2 h2, h1]

/-- With code in the address of the page the editor shows this code. The note that a `FIN` was added is
shown exactly when the code does not end in `FIN` and one blank. -/
theorem C57_note (s : Store) (u : Str) (hu : u ≠ []) :
    ((load s (some u)).appended = false ↔
      ∃ a f w, u = a ++ f ++ [w] ∧ SameName f "FIN".toList ∧ Blank w) ∧
    (load s (some u)).code = if (load s (some u)).appended then u ++ "\nFIN".toList else u := by
  have key : ∀ s : Store, startCode s (some u) =
      if endsFin u then (u, false) else (u ++ "\nFIN".toList, true) := by
    intro s
    unfold startCode
    simp only [Option.getD_some]
    rw [if_pos (List.length_pos_iff.2 hu)]
  rw [← endsFin_iff]
  unfold load
  simp only [key]
  by_cases h : endsFin u = true
  · simp [h]
  · rw [Bool.not_eq_true] at h
    simp [h]

/-- When the note is shown, the program in the editor is the one in the address followed by `FIN`, and
its machine code is that of the program in the address, with all label addresses unchanged, followed
by the byte FF. -/
theorem C57_code (s : Store) (u : Str) (prog : List Stmt) (hs : Source u prog) (hu : u ≠ [])
    (hv : Valid prog) (ha : LabelsAreAddresses prog) (hsz : sizeOf prog < 65536)
    (hap : (load s (some u)).appended = true) :
    Source (load s (some u)).code (prog ++ [finStmt]) ∧
    ∃ slots bss, translation (load s (some u)).code = some (some slots) ∧ Code prog bss ∧
      List.Forall₂ HexByte slots (bss.flatten ++ [0xFF]) := by
  have e : (load s (some u)).code = u ++ "\nFIN".toList := by rw [(C57_note s u hu).2, hap]; rfl
  rw [e]
  have h1 := source_fin hs
  refine ⟨h1, ?_⟩
  have hsz' : sizeOf (prog ++ [finStmt]) ≤ 65536 := by
    simp only [sizeOf, List.map_append, List.sum_append] at hsz ⊢
    have : ([finStmt].map fun s => s.instr.size).sum = 1 := by decide
    omega
  have ha' : LabelsAreAddresses (prog ++ [finStmt]) := by
    intro st hst l hl
    rcases List.mem_append.1 hst with hst | hst
    · exact ha st hst l hl
    · rw [List.mem_singleton.1 hst] at hl
      simp [finStmt] at hl
  obtain ⟨slots, bss, g1, g2, g3⟩ := translation_code h1 (by simp) (valid_fin hv) ha' hsz'
  -- the code of the longer program is the code of the shorter one and FF
  obtain ⟨b1, b2, eb, f1, f2⟩ : ∃ b1 b2, bss = b1 ++ b2 ∧
      List.Forall₂ (StmtCode (prog ++ [finStmt])) prog b1 ∧
      List.Forall₂ (StmtCode (prog ++ [finStmt])) [finStmt] b2 := by
    have : ∀ (p q : List Stmt) (b : List (List (BitVec 8))) (R : Stmt → List (BitVec 8) → Prop),
        List.Forall₂ R (p ++ q) b → ∃ b1 b2, b = b1 ++ b2 ∧ List.Forall₂ R p b1 ∧ List.Forall₂ R q b2 := by
      intro p
      induction p with
      | nil => intro q b R h; exact ⟨[], b, rfl, .nil, h⟩
      | cons x p ih =>
        intro q b R h
        cases h with
        | @cons _ y _ b hx hr =>
          obtain ⟨b1, b2, rfl, h1, h2⟩ := ih q b R hr
          exact ⟨y :: b1, b2, rfl, .cons hx h1, h2⟩
    exact this prog [finStmt] bss _ g2
  have last : b2.flatten = [0xFF] := by
    cases f2 with
    | @cons _ y _ b h hr =>
      cases hr
      obtain ⟨op, rest, v, rfl, hd, _, hk⟩ := h
      have hk : rest = [] := hk
      have hop : op = 0xFF := by
        have : ∀ op : BitVec 8, decode op = some .fin → op = 0xFF := by decide +kernel
        exact this op hd
      rw [hk, hop]
      rfl
  have code : Code prog b1 := by
    have : ∀ ps bs, (∀ st ∈ ps, st ∈ prog) → List.Forall₂ (StmtCode (prog ++ [finStmt])) ps bs →
        List.Forall₂ (StmtCode prog) ps bs := by
      intro ps bs hm h
      induction h with
      | nil => exact .nil
      | @cons st b ps bs h _ ih =>
        refine .cons ?_ (ih fun x hx => hm x (by simp [hx]))
        obtain ⟨op, rest, v, h1, h2, h3, h4⟩ := h
        refine ⟨op, rest, v, h1, h2, ?_, h4⟩
        cases hst : st.arg with
        | none => trivial
        | num n => rw [hst] at h3; exact h3
        | label l =>
          rw [hst] at h3
          have hd := hv st (hm st (by simp))
          rw [hst] at hd
          have hex : ∃ a, LabelAt prog l a := by
            obtain ⟨x, hx, hxl⟩ := hd
            exact labelAt_exists hx hxl
          obtain ⟨a, hla⟩ := hex
          show LabelAt prog l v
          rw [LabelAt.unique h3 (hla.append [finStmt])]
          exact hla
    exact this prog b1 (fun _ h => h) f1
  refine ⟨slots, b1, g1, code, ?_⟩
  rw [eb, List.flatten_append, last] at g3
  exact g3

/-- What is in the editor is what comes back on the next visit without code in the address. -/
theorem C57_kept (s : Store) (url : Option Str) (cs : List Change) :
    (((load s url).steps cs).step (.reload none)).code = ((load s url).steps cs).code := by
  have inv : ∀ p : Page, p.store .code = some (.str p.code) → ∀ cs : List Change,
      (p.steps cs).store .code = some (.str (p.steps cs).code) := by
    intro p h cs
    have hload : ∀ s url, (load s url).store .code = some (.str (load s url).code) := by
      intro s url; simp [load, Store.set, Value.stored]
    induction cs generalizing p with
    | nil => exact h
    | cons c cs ih =>
      apply ih
      cases c with
      | edit t => simp [Page.step, Store.set, Value.stored]
      | cycle v =>
        cases v with
        | none => simpa [Page.step, Store.set] using h
        | some n =>
          unfold Page.step
          simp only
          split
          · exact h
          · split
            · exact h
            · simpa [Store.set] using h
      | tour b => cases b <;> simpa [Page.step, Store.set] using h
      | run =>
        show (p.store.get .cycleTime (.int 500)).2 .code = some (.str p.code)
        unfold Store.get
        simp only
        split
        · simpa [Store.set] using h
        · exact h
      | reload url => exact hload _ _
  have h := inv (load s url) (by simp [load, Store.set, Value.stored]) cs
  generalize (load s url).steps cs = p at h
  have other : ∀ (s : Store) (k : Key) (d : Value), k ≠ .code → (s.get k d).2 .code = s .code := by
    intro s k d hk
    unfold Store.get
    simp only
    split
    · simp [Store.set, Ne.symm hk]
    · rfl
  have h1 : ∀ s : Store, s .code = some (.str p.code) → (startCode s none).1 = p.code := by
    intro s h
    simp [startCode, Store.get, h]
  unfold Page.step load
  simp only
  apply h1
  have h2 : ((p.store.get .cycleTime (.int 500)).2.get .onboarding (.int 1)).2 .code =
      some (.str p.code) := by
    rw [other _ _ _ (by simp), other _ _ _ (by simp), h]
  split
  · simp only [Store.set, reduceCtorEq, if_false]
    rw [other _ _ _ (by simp), h2]
  · rw [other _ _ _ (by simp), h2]

/-- Loading the page again with code in the address gives this code again: what was written in the
editor is gone. -/
theorem C57_reload (s : Store) (url : Option Str) (cs : List Change) (u : Str) (hu : u ≠ []) :
    (((load s url).steps cs).step (.reload (some u))).code = (load s (some u)).code ∧
    (((load s url).steps cs).step (.reload (some u))).appended = (load s (some u)).appended := by
  have : ∀ s' : Store, (load s' (some u)).code = (load s (some u)).code ∧
      (load s' (some u)).appended = (load s (some u)).appended := by
    intro s'
    obtain ⟨a1, a2⟩ := C57_note s' u hu
    obtain ⟨b1, b2⟩ := C57_note s u hu
    have e : (load s' (some u)).appended = (load s (some u)).appended := by
      have := a1.trans b1.symm
      cases h1 : (load s' (some u)).appended <;> cases h2 : (load s (some u)).appended <;> simp_all
    exact ⟨by rw [a2, b2, e], e⟩
  exact this _

/-- The storage of a new visitor. -/
def emptyStore : Store := fun _ => none

/-- Non-vacuity: a program without `FIN` in the address, and its code. -/
example : (load emptyStore (some "T1 ADD 1\nJMP T1".toList)).appended = true ∧
    translation (load emptyStore (some "T1 ADD 1\nJMP T1".toList)).code =
      some (some (["65", "01", "74", "00", "00", "FF"].map String.toList)) := by
  refine ⟨by decide +kernel, ?_⟩
  rw [show (load emptyStore (some "T1 ADD 1\nJMP T1".toList)).code = "T1 ADD 1\nJMP T1\nFIN".toList by
    decide +kernel]
  decide +kernel

example : Source "T1 ADD 1\nJMP T1".toList [⟨some "T1".toList, .alu .add .imm, .num 1⟩,
    ⟨none, .jmp, .label "T1".toList⟩] := source_of
  [(⟨some "T1".toList, .alu .add .imm, .num 1⟩, "1".toList),
    (⟨none, .jmp, .label "T1".toList⟩, "T1".toList)]
  (by decide +kernel) (by decide +kernel) (by decide +kernel)

/-- It is not so that the program in the editor always ends with `FIN`: a comment or a label operand
that ends in the letters FIN is taken for one. -/
theorem C57_missing_wrong :
    ((load emptyStore (some "INC AC # FIN ".toList)).appended = false ∧
      translation (load emptyStore (some "INC AC # FIN ".toList)).code =
        some (some (["4B"].map String.toList))) ∧
    ((load emptyStore (some "TFIN INC AC\nJMP TFIN\n".toList)).appended = false ∧
      translation (load emptyStore (some "TFIN INC AC\nJMP TFIN\n".toList)).code =
        some (some (["4B", "74", "00", "00"].map String.toList))) := by
  refine ⟨⟨by decide +kernel, ?_⟩, by decide +kernel, ?_⟩
  · rw [show (load emptyStore (some "INC AC # FIN ".toList)).code = "INC AC # FIN ".toList by
      decide +kernel]
    decide +kernel
  · rw [show (load emptyStore (some "TFIN INC AC\nJMP TFIN\n".toList)).code =
      "TFIN INC AC\nJMP TFIN\n".toList by decide +kernel]
    decide +kernel

/-- And a program that ends with `FIN`, with no blank or two blanks after it, gets another one. -/
theorem C57_twice : translation (load emptyStore (some "INC AC\nFIN".toList)).code =
      some (some (["4B", "FF", "FF"].map String.toList)) ∧
    translation (load emptyStore (some "INC AC\nFIN\n\n".toList)).code =
      some (some (["4B", "FF", "FF"].map String.toList)) := by
  rw [show (load emptyStore (some "INC AC\nFIN".toList)).code = "INC AC\nFIN\nFIN".toList by
      decide +kernel,
    show (load emptyStore (some "INC AC\nFIN\n\n".toList)).code = "INC AC\nFIN\n\n\nFIN".toList by
      decide +kernel]
  decide +kernel

/-! ## C58 -/

/-- What the storage may hold under the key of the cycle time: nothing, `null` or a number that the box
accepts. -/
def SaneTime (s : Store) : Prop :=
  s .cycleTime = none ∨ s .cycleTime = some .null ∨
    ∃ n : Int, 0 ≤ n ∧ n ≤ 5000 ∧ s .cycleTime = some (.int n)

theorem get_time {s : Store} (h : SaneTime s) : SaneTime (s.get .cycleTime (.int 500)).2 ∧
    ((s.get .cycleTime (.int 500)).2.get .cycleTime (.int 500)).1 = (s.get .cycleTime (.int 500)).1 ∧
    ∃ n : Int, 0 ≤ n ∧ n ≤ 5000 ∧ (s.get .cycleTime (.int 500)).1 = .int n := by
  rcases h with h | h | ⟨n, h1, h2, h⟩
  · have e : (s.get .cycleTime (.int 500)) = (.int 500, s.set .cycleTime (.int 500)) := by
      simp [Store.get, h]
    rw [e]
    exact ⟨.inr (.inr ⟨500, by decide, by decide, by simp [Store.set, Value.stored]⟩),
      by simp [Store.get, Store.set, Value.stored], 500, by decide, by decide, rfl⟩
  · have e : (s.get .cycleTime (.int 500)) = (.int 500, s.set .cycleTime (.int 500)) := by
      simp [Store.get, h]
    rw [e]
    exact ⟨.inr (.inr ⟨500, by decide, by decide, by simp [Store.set, Value.stored]⟩),
      by simp [Store.get, Store.set, Value.stored], 500, by decide, by decide, rfl⟩
  · have e : (s.get .cycleTime (.int 500)) = (.int n, s) := by
      simp [Store.get, h]
    rw [e]
    exact ⟨.inr (.inr ⟨n, h1, h2, h⟩), by rw [e], n, h1, h2, rfl⟩

/-- The parts of the page that have to do with the cycle time. -/
structure TimeInv (p : Page) : Prop where
  sane : SaneTime p.store
  immediate : p.immediate = decide (p.cycleTime = .int 0)
  box : p.cycleBox = p.cycleTime ∨ p.cycleBox = .nan ∧ p.cycleTime = .int 500

theorem time_other {s t : Store} (h : t .cycleTime = s .cycleTime) :
    (t.get .cycleTime (.int 500)).1 = (s.get .cycleTime (.int 500)).1 ∧ (SaneTime s → SaneTime t) := by
  refine ⟨by simp [Store.get, h], fun hs => ?_⟩
  unfold SaneTime at hs ⊢
  rw [h]
  exact hs

theorem TimeInv.other {p q : Page} (h : TimeInv p) (e1 : q.store .cycleTime = p.store .cycleTime)
    (e2 : q.immediate = p.immediate) (e3 : q.cycleBox = p.cycleBox) : TimeInv q := by
  obtain ⟨t1, t2⟩ := time_other e1
  have e : q.cycleTime = p.cycleTime := t1
  exact ⟨t2 h.sane, by rw [e2, e, h.immediate], by rw [e3, e]; exact h.box⟩

theorem load_time {s : Store} (h : SaneTime s) (url : Option Str) : TimeInv (load s url) ∧
    (load s url).cycleTime = (s.get .cycleTime (.int 500)).1 := by
  obtain ⟨h1, h2, _⟩ := get_time h
  have hs : (load s url).store .cycleTime = (s.get .cycleTime (.int 500)).2 .cycleTime := by
    have other : ∀ (s : Store) (k : Key) (d : Value), k ≠ .cycleTime →
        (s.get k d).2 .cycleTime = s .cycleTime := by
      intro s k d hk
      unfold Store.get
      simp only
      split
      · simp [Store.set, Ne.symm hk]
      · rfl
    unfold load
    simp only
    rw [Store.set, if_neg (by simp), other _ _ _ (by simp)]
    split
    · rw [Store.set, if_neg (by simp), other _ _ _ (by simp), other _ _ _ (by simp)]
    · rw [other _ _ _ (by simp), other _ _ _ (by simp)]
  obtain ⟨t1, t2⟩ := time_other hs
  have e : (load s url).cycleTime = (s.get .cycleTime (.int 500)).1 := by
    rw [← h2]; exact t1
  refine ⟨⟨t2 h1, ?_, .inl ?_⟩, e⟩
  · rw [e]; unfold load; simp only
  · rw [e]; unfold load; simp only

theorem cycle_set (p : Page) {n : Int} (h0 : 0 ≤ n) (h1 : n ≤ 5000) :
    (p.step (.cycle (some n))).store .cycleTime = some (.int n) ∧
    (p.step (.cycle (some n))).cycleBox = .int n ∧
    (p.step (.cycle (some n))).immediate = decide (n = 0) ∧
    (p.step (.cycle (some n))).cycleTime = .int n := by
  have a1 : ¬ n > 5000 := by omega
  have a2 : ¬ n < 0 := by omega
  simp [Page.step, a1, a2, Page.cycleTime, Store.get, Store.set, Value.stored]

theorem step_time {p : Page} (h : TimeInv p) (c : Change) : TimeInv (p.step c) := by
  cases c with
  | edit t => exact h.other (by simp [Page.step, Store.set]) rfl rfl
  | cycle v =>
    cases v with
    | none =>
      have e : (p.step (.cycle none)).store .cycleTime = some .null := by
        simp [Page.step, Store.set, Value.stored]
      have e2 : (p.step (.cycle none)).cycleTime = .int 500 := by
        simp [Page.cycleTime, Store.get, e]
      exact ⟨.inr (.inl e), by rw [e2]; rfl, .inr ⟨rfl, e2⟩⟩
    | some n =>
      by_cases h1 : n > 5000
      · have : p.step (.cycle (some n)) = p := by simp [Page.step, h1]
        rw [this]; exact h
      · by_cases h2 : n < 0
        · have : p.step (.cycle (some n)) = p := by simp [Page.step, h2]
          rw [this]; exact h
        · obtain ⟨e1, e2, e3, e4⟩ := cycle_set p (n := n) (by omega) (by omega)
          refine ⟨.inr (.inr ⟨n, by omega, by omega, e1⟩), ?_, .inl ?_⟩
          · rw [e3, e4]; simp
          · rw [e2, e4]
  | tour b => exact h.other (by cases b <;> simp [Page.step, Store.set]) rfl rfl
  | run =>
    obtain ⟨h1, h2, _⟩ := get_time h.sane
    have e : (p.step .run).cycleTime = p.cycleTime := h2
    exact ⟨h1, by rw [e]; exact h.immediate, by rw [e]; exact h.box⟩
  | reload url => exact (load_time h.sane url).1

theorem steps_time {p : Page} (h : TimeInv p) (cs : List Change) : TimeInv (p.steps cs) := by
  induction cs generalizing p with
  | nil => exact h
  | cons c cs ih => exact ih (step_time h c)

/-- After any changes the run buttons run without updates (`isRuningInmediate`) exactly when the cycle
time that they read is zero, and this time is always between 0 and 5000. -/
theorem C58_immediate (s : Store) (hs : SaneTime s) (url : Option Str) (cs : List Change) :
    ∃ n : Int, 0 ≤ n ∧ n ≤ 5000 ∧ ((load s url).steps cs).cycleTime = .int n ∧
      ((load s url).steps cs).immediate = decide (n = 0) := by
  have h := steps_time (load_time hs url).1 cs
  obtain ⟨_, _, n, h1, h2, h3⟩ := get_time h.sane
  have h3 : ((load s url).steps cs).cycleTime = .int n := h3
  refine ⟨n, h1, h2, h3, ?_⟩
  rw [h.immediate, h3]
  simp

/-- The box of the settings shows the cycle time in use, or is empty; then 500 is in use. -/
theorem C58_box (s : Store) (hs : SaneTime s) (url : Option Str) (cs : List Change) :
    ((load s url).steps cs).cycleBox = ((load s url).steps cs).cycleTime ∨
      ((load s url).steps cs).cycleBox = .nan ∧ ((load s url).steps cs).cycleTime = .int 500 :=
  (steps_time (load_time hs url).1 cs).box

/-- The cycle time is kept: loading the page again gives the time that was in use. -/
theorem C58_kept (s : Store) (hs : SaneTime s) (url url' : Option Str) (cs : List Change) :
    (((load s url).steps cs).step (.reload url')).cycleTime = ((load s url).steps cs).cycleTime :=
  (load_time (steps_time (load_time hs url).1 cs).sane url').2

/-- The box sets the time to any number that it accepts. -/
theorem C58_set (s : Store) (url : Option Str) (cs : List Change) (n : Int) (h0 : 0 ≤ n)
    (h1 : n ≤ 5000) : (((load s url).steps cs).step (.cycle (some n))).cycleTime = .int n := by
  generalize (load s url).steps cs = p
  exact (cycle_set p h0 h1).2.2.2

/-- Non-vacuity: 0 is typed, the page is loaded again, the box is emptied. -/
example : ((load emptyStore none).steps [.cycle (some 0), .reload none]).immediate = true ∧
    ((load emptyStore none).steps [.cycle (some 0), .reload none, .cycle none]).immediate = false ∧
    ((load emptyStore none).steps [.cycle (some 0), .cycle none]).cycleTime = .int 500 := by decide +kernel

/-- Not always does the box show the time in use: when it is emptied, 500 is in use. -/
theorem C58_empty_wrong : SaneTime emptyStore ∧
    ((load emptyStore none).steps [.cycle (some 7), .cycle none]).cycleBox = .nan ∧
    ((load emptyStore none).steps [.cycle (some 7), .cycle none]).cycleTime = .int 500 :=
  ⟨.inl rfl, by decide +kernel, by decide +kernel⟩

/-- The values that count as false (ECMA-262, ToBoolean). -/
def Falsy (v : Value) : Prop := v = .null ∨ v = .nan ∨ v = .int 0 ∨ v = .bool false ∨ v = .str []

theorem truthy_false (v : Value) : v.truthy = false ↔ Falsy v := by
  cases v <;> simp [Value.truthy, Falsy]

theorem truthy_true (v : Value) : v.truthy = true ↔ ¬ Falsy v := by
  rw [← truthy_false]; simp

/-- A value under the key of the tour that does not open it. -/
def TourOff (s : Store) : Prop := ∃ v : Value, s .onboarding = some v ∧ v ≠ .null ∧ v.truthy = false

theorem tour_other (s : Store) (k : Key) (d : Value) (hk : k ≠ .onboarding) :
    (s.get k d).2 .onboarding = s .onboarding := by
  unfold Store.get
  simp only
  split
  · simp [Store.set, Ne.symm hk]
  · rfl

theorem load_tour (s : Store) (url : Option Str) : ∃ s1 s2 : Store,
    s1 .onboarding = s .onboarding ∧ s2 = (s1.get .onboarding (.int 1)).2 ∧
    (load s url).tour = (s2.get .onboarding (.int 1)).1.truthy ∧
    (load s url).store .onboarding =
      (if (s2.get .onboarding (.int 1)).1.truthy then
        (s2.get .onboarding (.int 1)).2.set .onboarding (s2.get .onboarding (.int 1)).1.not
      else (s2.get .onboarding (.int 1)).2) .onboarding := by
  refine ⟨(s.get .cycleTime (.int 500)).2, _, tour_other _ _ _ (by simp), rfl, rfl, ?_⟩
  unfold load
  simp only
  rw [Store.set, if_neg (by simp), tour_other _ _ _ (by simp)]

theorem load_tourOff (s : Store) (url : Option Str) : TourOff (load s url).store := by
  obtain ⟨s1, s2, _, e2, _, h⟩ := load_tour s url
  have hs2 : ∃ v, s2 .onboarding = some v ∧ v ≠ .null := by
    rw [e2]
    unfold Store.get
    simp only
    by_cases hv : (s1 .onboarding).getD .null = .null
    · rw [if_pos hv]; exact ⟨.int 1, by simp [Store.set, Value.stored], by simp⟩
    · rw [if_neg hv]
      cases h1 : s1 .onboarding with
      | none => rw [h1] at hv; exact absurd rfl hv
      | some v => rw [h1] at hv; exact ⟨v, rfl, hv⟩
  obtain ⟨v, h1, h2⟩ := hs2
  have e : s2.get .onboarding (.int 1) = (v, s2) := by simp [Store.get, h1, h2]
  rw [e] at h
  by_cases hv : v.truthy = true
  · rw [if_pos hv] at h
    exact ⟨.bool false, by rw [h]; simp [Store.set, Value.not, hv, Value.stored], by simp, rfl⟩
  · rw [if_neg hv] at h
    exact ⟨v, by rw [h]; exact h1, h2, by simpa using hv⟩

theorem tourOff_load {s : Store} (h : TourOff s) (url : Option Str) :
    (load s url).tour = false ∧ TourOff (load s url).store := by
  refine ⟨?_, load_tourOff s url⟩
  obtain ⟨v, h1, h2, h3⟩ := h
  obtain ⟨s1, s2, e1, e2, e3, _⟩ := load_tour s url
  rw [h1] at e1
  have e : s1.get .onboarding (.int 1) = (v, s1) := by simp [Store.get, e1, h2]
  rw [e] at e2
  rw [e3, e2, e]
  exact h3

theorem tourOff_steps {p : Page} (h : TourOff p.store) (cs : List Change) :
    TourOff (p.steps cs).store := by
  induction cs generalizing p with
  | nil => exact h
  | cons c cs ih =>
    apply ih
    obtain ⟨v, h1, h2, h3⟩ := h
    cases c with
    | edit t => exact ⟨v, by simpa [Page.step, Store.set] using h1, h2, h3⟩
    | cycle n =>
      cases n with
      | none => exact ⟨v, by simpa [Page.step, Store.set] using h1, h2, h3⟩
      | some n =>
        refine ⟨v, ?_, h2, h3⟩
        unfold Page.step
        simp only
        split
        · exact h1
        · split
          · exact h1
          · simpa [Store.set] using h1
    | tour b =>
      cases b
      · exact ⟨.bool false, by simp [Page.step, Store.set, Value.stored], by simp, rfl⟩
      · exact ⟨.bool false, by simp [Page.step, Store.set, Value.stored], by simp, rfl⟩
    | run => exact ⟨v, by rw [← h1]; exact tour_other _ _ _ (by simp), h2, h3⟩
    | reload url => exact load_tourOff _ _

/-- The tour opens by itself on the first visit, that is, if nothing is stored or something that does not count as
false, and never again, whatever is done with its switch. -/
theorem C58_tour (s : Store) (url url' : Option Str) (cs : List Change) :
    ((load s url).tour = true ↔ ∀ v, s .onboarding = some v → v = .null ∨ ¬ Falsy v) ∧
    (((load s url).steps cs).step (.reload url')).tour = false := by
  refine ⟨?_, (tourOff_load (tourOff_steps (load_tourOff s url) cs) url').1⟩
  obtain ⟨s1, s2, e1, e2, e3, _⟩ := load_tour s url
  have one : (Value.int 1).truthy = true := (truthy_true _).2 (by simp [Falsy])
  rw [e3, e2]
  cases h : s .onboarding with
  | none =>
    rw [h] at e1
    simp [Store.get, e1, Store.set, Value.stored, one]
  | some v =>
    rw [h] at e1
    by_cases hv : v = .null
    · subst hv
      simp [Store.get, e1, Store.set, Value.stored, one]
    · simp [Store.get, e1, hv, truthy_true]

end Mpp.Front
