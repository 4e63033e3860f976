import Verif.Front.Post
/-!
# A whole program

The assembler against the specification in `AsmSpec`.
-/
namespace Mpp.Front

theorem Instr.size_pos (i : Instr) : 0 < i.size := by
  cases i with
  | mov s d => cases s <;> simp [Instr.size, Operand.size]
  | alu o s => cases s <;> simp [Instr.size, Operand.size]
  | _ => simp [Instr.size]

theorem Forall₂.of_left {α β : Type} {R : α → β → Prop} {l : List α} {m : List β}
    (h : List.Forall₂ R l m) {a : α} (ha : a ∈ l) : ∃ b ∈ m, R a b := by
  induction h with
  | nil => simp at ha
  | cons h1 _ ih =>
    rcases List.mem_cons.1 ha with rfl | ha
    · exact ⟨_, by simp, h1⟩
    · obtain ⟨b, hb, hr⟩ := ih ha
      exact ⟨b, by simp [hb], hr⟩

theorem Forall₂.of_right {α β : Type} {R : α → β → Prop} {l : List α} {m : List β}
    (h : List.Forall₂ R l m) {b : β} (hb : b ∈ m) : ∃ a ∈ l, R a b :=
  Forall₂.of_left h.flip hb

/-- The operand is in range, or a label of the list. -/
def Good (labels : List Str) (i : Instr) : Arg → Prop
  | .none => True
  | .num n => n < 256 ^ (i.size - 1)
  | .label l => l ∈ labels

theorem Codes.ne_nil {labels : List Str} {r : Operation × BitVec 8 × Instr} {a : Arg}
    {codes : List Str} (h : Codes labels r a codes) : codes ≠ [] ↔ Good labels r.2.2 a := by
  cases a with
  | none =>
    have : codes = [r.1.HEX] := h
    simp [this, Good]
  | num n =>
    simp only [Codes] at h
    simp only [Good]
    split at h
    · rename_i hn
      simp only [hn, iff_true]
      cases hk : kindOf r.2.2 with
      | none => rw [hk] at h; exact h.elim
      | byte => rw [hk] at h; obtain ⟨x, rfl, _⟩ := h; simp
      | addr => rw [hk] at h; obtain ⟨x, y, rfl, _⟩ := h; simp
    · rename_i hn
      simp [h, hn]
  | label l =>
    simp only [Codes] at h
    simp only [Good]
    split at h <;> simp_all

/-- The result of the first pass for a statement. -/
structure Kept (labels : List Str) (x : Result) (st : Stmt) : Prop where
  row : ∃ r ∈ rows, r.2.2 = st.instr ∧ x.instruction = r.1 ∧ Codes labels r st.arg x.result
  ne : x.result ≠ []
  eti : x.eti = st.label.getD []
  lab : ∀ l, st.label = some l → IsLabel l
  arg : ∀ l, st.arg = .label l → IsLabel l
  kind : st.arg = .none → kindOf st.instr = .none

theorem Reads.labels {line : Str} {st : Stmt} (h : Reads line st) :
    (∀ l, st.label = some l → IsLabel l) ∧ (∀ l, st.arg = .label l → IsLabel l) ∧
      (st.arg = .none → kindOf st.instr = .none) := by
  obtain ⟨w, s, _, ha, hl⟩ := h
  refine ⟨?_, ?_, ?_⟩
  · intro l e
    rw [e] at hl
    exact hl.1
  · intro l e
    rw [e] at ha
    unfold ArgText at ha
    split at ha <;> simp_all
  · intro e
    rw [e] at ha
    unfold ArgText at ha
    split at ha <;> simp_all

theorem parseLines_ok {labels : List Str} {lines : List Str} {prog : List Stmt} (i : Nat)
    (hn : ∀ l ∈ lines, NoTerm l)
    (h : List.Forall₂ Reads (lines.filter fun c => c ≠ []) prog)
    (hg : ∀ st ∈ prog, Good labels st.instr st.arg) :
    (parseLines labels i lines).1 = [] ∧
      List.Forall₂ (Kept labels) (parseLines labels i lines).2 prog := by
  induction lines generalizing i prog with
  | nil =>
    rw [List.filter_nil] at h
    cases h
    exact ⟨rfl, .nil⟩
  | cons l ls ih =>
    have hn' : ∀ l ∈ ls, NoTerm l := fun x hx => hn x (by simp [hx])
    rw [parseLines]
    by_cases hl : l = []
    · rw [if_pos hl]
      rw [List.filter_cons_of_neg (by simp [hl])] at h
      exact ih (i + 1) hn' h hg
    · rw [if_neg hl]
      rw [List.filter_cons_of_pos (by simpa using hl)] at h
      cases h with
      | @cons _ st _ prog h1 h2 =>
        obtain ⟨r, hr, e, codes, h3, h4⟩ := h1.exec (hn l (by simp)) labels
        have hne : codes ≠ [] := h4.ne_nil.2 (by rw [e]; exact hg st (by simp))
        obtain ⟨i1, i2⟩ := ih (i + 1) hn' h2 fun x hx => hg x (by simp [hx])
        rw [h3]
        simp only
        rw [if_neg hne]
        exact ⟨i1, .cons ⟨⟨r, hr, e, rfl, h4⟩, hne, rfl, h1.labels.1, h1.labels.2.1, h1.labels.2.2⟩ i2⟩

theorem parseLines_inv {labels : List Str} {lines : List Str} (i : Nat)
    (hn : ∀ l ∈ lines, NoTerm l) (h : (parseLines labels i lines).1 = []) :
    ∃ prog, List.Forall₂ Reads (lines.filter fun c => c ≠ []) prog ∧
      ∀ st ∈ prog, Good labels st.instr st.arg := by
  induction lines generalizing i with
  | nil => exact ⟨[], .nil, by simp⟩
  | cons l ls ih =>
    have hn' : ∀ l ∈ ls, NoTerm l := fun x hx => hn x (by simp [hx])
    rw [parseLines] at h
    by_cases hl : l = []
    · rw [if_pos hl] at h
      obtain ⟨prog, h1, h2⟩ := ih (i + 1) hn' h
      refine ⟨prog, ?_, h2⟩
      rw [List.filter_cons_of_neg (by simp [hl])]
      exact h1
    · rw [if_neg hl] at h
      split at h
      · simp at h
      · rename_i codes eti op he
        split at h
        · simp at h
        · rename_i hc
          obtain ⟨prog, h1, h2⟩ := ih (i + 1) hn' h
          obtain ⟨st, hst⟩ := exec_reads (hn l (by simp)) he hc
          refine ⟨st :: prog, ?_, ?_⟩
          · rw [List.filter_cons_of_pos (by simpa using hl)]
            exact .cons hst h1
          · intro x hx
            rcases List.mem_cons.1 hx with rfl | hx
            · obtain ⟨r, hr, e, codes', h3, h4⟩ := hst.exec (hn l (by simp)) labels
              rw [he] at h3
              cases h3
              rw [← e]
              exact h4.ne_nil.1 hc
            · exact h2 x hx

/-! ## Labels -/

theorem mem_pre {lines : List Str} {l : Str} : l ∈ pre lines ↔
    ∃ line ∈ lines, l = firstWord line ∧ ∃ r ∈ rows, (regexExec r.1.REGEX (restWords line)).isSome := by
  simp only [pre, List.mem_flatMap, List.mem_map, List.mem_filter]
  constructor
  · rintro ⟨line, h1, op, ⟨h2, h3⟩, rfl⟩
    refine ⟨line, h1, rfl, ?_⟩
    rw [← rows_fst] at h2
    obtain ⟨r, hr, rfl⟩ := List.mem_map.1 h2
    refine ⟨r, hr, ?_⟩
    split at h3 <;> simp_all
  · rintro ⟨line, h1, rfl, r, hr, h2⟩
    refine ⟨line, h1, r.1, ⟨?_, ?_⟩, rfl⟩
    · rw [← rows_fst]
      exact List.mem_map.2 ⟨r, hr, rfl⟩
    · obtain ⟨caps, hc⟩ := Option.isSome_iff_exists.1 h2
      rw [hc]
      have := Row.caps hr hc
      simp
      omega

theorem Reads.no_label_T {line : Str} {st : Stmt} (h : Reads line st)
    (hl : st.label = none) : startsT line = false := by
  obtain ⟨w, s, hs, ha, he⟩ := h
  rw [hl] at he
  subst he
  obtain ⟨r, hr, e⟩ := instr_row st.instr
  rw [← e] at hs ha
  obtain ⟨ts, h1, h2, _⟩ := hs.fit hr fun hk => (ha.harmless hk).2
  rw [Bool.eq_false_iff]
  intro ht
  exact T_line ht ts h1 r hr h2

theorem pre_label {lines : List Str} {prog : List Stmt} (hn : ∀ l ∈ lines, NoTerm l)
    (h : List.Forall₂ Reads (lines.filter fun c => c ≠ []) prog) {l : Str} (hl : startsT l = true) :
    l ∈ pre lines ↔ ∃ st ∈ prog, st.label = some l := by
  rw [mem_pre]
  constructor
  · rintro ⟨line, h1, rfl, r, hr, h2⟩
    have hne : line ≠ [] := by
      rintro rfl
      exact absurd hl (by decide)
    obtain ⟨st, hst, hread⟩ := Forall₂.of_left h (a := line) (by
      rw [List.mem_filter]; exact ⟨h1, by simpa using hne⟩)
    refine ⟨st, hst, ?_⟩
    have hT : startsT line = true := by
      rcases words_cases line with ⟨_, e, _⟩ | ⟨e, _⟩
      · rwa [e] at hl
      · rw [e]
        cases hf : firstWord line with
        | nil => rw [hf] at hl; simp [startsT] at hl
        | cons c f => rw [hf] at hl; simpa [startsT] using hl
    cases hlab : st.label with
    | none =>
      rw [hread.no_label_T hlab] at hT
      simp at hT
    | some l' =>
      obtain ⟨w, s, _, _, hh⟩ := hread
      rw [hlab] at hh
      obtain ⟨⟨_, h3⟩, rfl⟩ := hh
      rw [firstWord_append h3]
  · rintro ⟨st, hst, hlab⟩
    obtain ⟨line, hm, hread⟩ := Forall₂.of_right h hst
    have hm := (List.mem_filter.1 hm).1
    refine ⟨_, hm, ?_⟩
    have hnt := hn _ hm
    obtain ⟨w, s, hs, ha, hh⟩ := hread
    rw [hlab] at hh
    obtain ⟨⟨_, h3⟩, he⟩ := hh
    rw [he, firstWord_append h3, restWords_append h3]
    refine ⟨rfl, ?_⟩
    obtain ⟨r, hr, e'⟩ := instr_row st.instr
    rw [← e'] at hs ha
    obtain ⟨ts, h1, h2, _⟩ := hs.fit hr fun hk => (ha.harmless hk).2
    refine ⟨r, hr, ?_⟩
    rw [(Row.exec_some hr _).2 ⟨h1, h2⟩]
    · rfl
    · intro c hc
      apply hnt
      rw [he]
      simp [hc]

theorem valid_iff {lines : List Str} {prog : List Stmt} (hn : ∀ l ∈ lines, NoTerm l)
    (h : List.Forall₂ Reads (lines.filter fun c => c ≠ []) prog) :
    Valid prog ↔ ∀ st ∈ prog, Good (pre lines) st.instr st.arg := by
  have hlab : ∀ st ∈ prog, ∀ l, st.arg = .label l → IsLabel l := by
    intro st hst
    obtain ⟨line, _, h⟩ := Forall₂.of_right h hst
    exact h.labels.2.1
  unfold Valid
  apply forall_congr'
  intro st
  apply forall_congr'
  intro hst
  cases ha : st.arg with
  | none => simp [Good]
  | num n => simp [Good]
  | label l =>
    simp only [Good]
    exact (pre_label hn h (by simpa [startsT] using (hlab st hst l ha).1)).symm

/-! ## Addresses of labels -/

theorem LabelAt.cons {prog : List Stmt} {l : Str} {a : Nat} (h : LabelAt prog l a) {st : Stmt}
    (hs : st.label ≠ some l) : LabelAt (st :: prog) l (st.instr.size + a) := by
  obtain ⟨b, x, c, rfl, h1, h2, rfl⟩ := h
  refine ⟨st :: b, x, c, rfl, h1, ?_, ?_⟩
  · intro y hy
    rcases List.mem_cons.1 hy with rfl | hy
    · exact hs
    · exact h2 y hy
  · simp [sizeOf]

theorem LabelAt.unique {prog : List Stmt} {l : Str} {a b : Nat} (h : LabelAt prog l a)
    (h' : LabelAt prog l b) : a = b := by
  induction prog generalizing a b with
  | nil => obtain ⟨_, _, _, e, _⟩ := h; simp at e
  | cons st prog ih =>
    obtain ⟨p, x, q, e, h1, h2, rfl⟩ := h
    obtain ⟨p', x', q', e', h1', h2', rfl⟩ := h'
    cases p with
    | nil =>
      cases p' with
      | nil => rfl
      | cons y p' =>
        rw [List.nil_append] at e
        cases e
        rw [List.cons_append] at e'
        cases e'
        exact absurd h1 (h2' st (by simp))
    | cons y p =>
      cases p' with
      | nil =>
        rw [List.nil_append] at e'
        cases e'
        rw [List.cons_append] at e
        cases e
        exact absurd h1' (h2 st (by simp))
      | cons y' p' =>
        rw [List.cons_append, List.cons.injEq] at e e'
        obtain ⟨rfl, e⟩ := e
        obtain ⟨rfl, e'⟩ := e'
        have := ih (a := sizeOf p) (b := sizeOf p')
          ⟨p, x, q, e, h1, fun z hz => h2 z (by simp [hz]), rfl⟩
          ⟨p', x', q', e', h1', fun z hz => h2' z (by simp [hz]), rfl⟩
        simp only [sizeOf, List.map_cons, List.sum_cons] at *
        omega

theorem LabelAt.lt {prog : List Stmt} {l : Str} {a : Nat} (h : LabelAt prog l a) :
    a < sizeOf prog := by
  obtain ⟨p, x, q, rfl, _, _, rfl⟩ := h
  have := Instr.size_pos x.instr
  simp only [sizeOf, List.map_append, List.sum_append, List.map_cons, List.sum_cons]
  omega

theorem etiPos_find {labels : List Str} {results : List Result} {prog : List Stmt}
    (h : List.Forall₂ (Kept labels) results prog) {l : Str} (hl : l ≠ []) (d : Nat)
    (hd : ∃ st ∈ prog, st.label = some l) :
    ∃ e a, ((etiPos d results).find? fun s => s.1 = l) = some e ∧ LabelAt prog l a ∧ e.2.1 = d + a := by
  induction h generalizing d with
  | nil => simp at hd
  | @cons x st results prog hk _ ih =>
    obtain ⟨r, hr, e1, e2, _⟩ := hk.row
    have hsz : x.instruction.ALLOC = st.instr.size := by rw [e2, Row.alloc hr, e1]
    by_cases hs : st.label = some l
    · refine ⟨(x.eti, d, x.mark), 0, ?_, ⟨[], st, prog, rfl, hs, by simp, rfl⟩, rfl⟩
      have he : x.eti = l := by rw [hk.eti, hs]; rfl
      rw [etiPos, if_neg (by rw [he]; exact hl), List.find?_cons_of_pos (by simpa using he)]
    · have hd' : ∃ st ∈ prog, st.label = some l := by
        obtain ⟨y, hy, h⟩ := hd
        rcases List.mem_cons.1 hy with rfl | hy
        · exact absurd h hs
        · exact ⟨y, hy, h⟩
      obtain ⟨e, a, h1, h2, h3⟩ := ih (d + x.instruction.ALLOC) hd'
      refine ⟨e, st.instr.size + a, ?_, h2.cons hs, by rw [h3, hsz]; omega⟩
      rw [etiPos]
      split
      · exact h1
      · rename_i hne
        rw [List.find?_cons_of_neg]
        · exact h1
        · simp only [decide_eq_true_eq]
          intro he
          apply hs
          have := hk.eti
          cases hlab : st.label with
          | none => rw [hlab] at this; exact absurd this hne
          | some l' =>
            rw [hlab] at this
            simp only [Option.getD_some] at this
            rw [← this, he]

/-! ## The second pass on a good program -/

/-- The labels of a result are resolved. -/
def settle (pos : List (Str × Nat × Mark)) (x : Result) : Result :=
  match x.result with
  | [h, l] =>
    match pos.find? fun s => s.1 = l with
    | some e => { x with result := h :: pieces (dirHex e.2.1) }
    | none => x
  | _ => x

/-- Results that `post` keeps. -/
def Settles (pos : List (Str × Nat × Mark)) (x : Result) : Prop :=
  x.result.length ≤ 3 ∧ ∃ h t, x.result = h :: t ∧ ((∀ y ∈ t, checkIsHex y = true) ∨
    ∃ l e, t = [l] ∧ (pos.find? fun s => s.1 = l) = some e)

theorem modify_middle {α : Type} (f : α → α) (done rest : List α) (x : α) :
    (done ++ x :: rest).modify done.length f = done ++ f x :: rest := by
  induction done with
  | nil => rfl
  | cons y ys ih => simpa using ih

theorem postInner_settle {pos : List (Str × Nat × Mark)} (hp : AllT pos) {n fuel : Nat}
    (hb : Below n pos) (hf : n + 6 < fuel) (done rest : List Result) {x : Result}
    (hx : Settles pos x) :
    postInner pos done.length fuel 1 x.result true (done ++ x :: rest) =
      some (done ++ settle pos x :: rest) := by
  obtain ⟨h3, h, t, e, ht | ⟨l, p, rfl, hl⟩⟩ := hx
  · have hs : settle pos x = x := by
      unfold settle
      rw [e]
      split
      · rename_i h' l he
        cases he
        rw [find_hex hp (ht l (by simp))]
      · rfl
    rw [hs]
    apply postInner_hex hp
    · intro k y hk hy
      rw [e] at hy
      obtain ⟨k, rfl⟩ : ∃ m, k = m + 1 := ⟨k - 1, by omega⟩
      exact ht y (List.mem_of_getElem? hy)
    · omega
    · omega
  · have := hb p (List.mem_of_find?_eq_some hl)
    rw [e, postInner_label hp _ _ hl (by omega)]
    have hs : settle pos x = { x with result := h :: pieces (dirHex p.2.1) } := by
      unfold settle
      rw [e]
      simp only
      rw [hl]
    rw [hs, modify_middle]

theorem postOuter_settle {pos : List (Str × Nat × Mark)} (hp : AllT pos) {m fuel : Nat}
    (hb : Below m pos) (hf : m + 6 < fuel) (n : Nat) (done rest : List Result)
    (hx : ∀ x ∈ rest, Settles pos x) (hn : rest.length < n) :
    postOuter pos fuel n done.length (done ++ rest) = some (done ++ rest.map (settle pos)) := by
  induction n generalizing done rest with
  | zero => omega
  | succ n ih =>
    rw [postOuter]
    cases rest with
    | nil => simp
    | cons x rest =>
      rw [List.getElem?_append_right (Nat.le_refl _), Nat.sub_self, List.getElem?_cons_zero]
      simp only
      rw [postInner_settle hp hb hf done rest (hx x (by simp))]
      simp only
      have := ih (done ++ [settle pos x]) rest (fun y hy => hx y (by simp [hy]))
        (by simp only [List.length_cons] at hn; omega)
      simpa using this

theorem post_settle {results : List Result} {dir : Nat}
    (he : ∀ r ∈ results, r.eti = [] ∨ startsT r.eti = true)
    (hx : ∀ x ∈ results, Settles (etiPos dir results) x) :
    post results dir = some (results.map (settle (etiPos dir results))) := by
  unfold post
  have := postOuter_settle (etiPos_allT he dir) (etiPos_below dir results)
    (fuel := 10 + dir + (results.map (·.instruction.ALLOC)).sum) (by omega) (results.length + 1) []
    results hx (by omega)
  simpa using this

/-- What is left of a statement after both passes. -/
theorem Kept.final {labels : List Str} {results : List Result} {prog : List Stmt}
    (h : List.Forall₂ (Kept labels) results prog) (hv : Valid prog) (ha : LabelsAreAddresses prog)
    (hsz : sizeOf prog ≤ 65536) {x : Result} {st : Stmt} (hst : st ∈ prog) (hk : Kept labels x st) :
    Settles (etiPos 0 results) x ∧
    ∃ bs, StmtCode prog st bs ∧ List.Forall₂ HexByte (settle (etiPos 0 results) x).result bs := by
  have hp : AllT (etiPos 0 results) := by
    apply etiPos_allT
    intro r hr
    obtain ⟨st, _, this⟩ := Forall₂.of_left h hr
    rw [this.eti]
    cases hl : st.label with
    | none => exact .inl rfl
    | some l => exact .inr (by simpa [startsT] using (this.lab l hl).1)
  obtain ⟨⟨r, hr, e1, e2, hc⟩, hne, -, -, harg, hkn⟩ := hk
  have hopc : HexByte r.1.HEX r.2.1 :=
    ⟨Row.hexLen hr, (hexValue_iff _ _).2 ⟨Row.isHex hr, Row.hex hr⟩⟩
  have hdec : decode r.2.1 = some st.instr := by rw [Row.decode hr, e1]
  have hg := hc.ne_nil.1 hne
  -- results without a label
  have plain : ∀ t bs, x.result = r.1.HEX :: t → t.length ≤ 2 → List.Forall₂ HexByte t bs →
      Settles (etiPos 0 results) x ∧
        List.Forall₂ HexByte (settle (etiPos 0 results) x).result (r.2.1 :: bs) := by
    intro t bs e hl hb
    have hx : ∀ y ∈ t, checkIsHex y = true := by
      intro y hy
      obtain ⟨b, _, h⟩ := Forall₂.of_left hb hy
      exact h.two.2
    refine ⟨⟨by rw [e]; simp; omega, _, t, e, .inl hx⟩, ?_⟩
    have hs : settle (etiPos 0 results) x = x := by
      unfold settle
      rw [e]
      split
      · rename_i h' l he
        cases he
        rw [find_hex hp (hx l (by simp))]
      · rfl
    rw [hs, e]
    exact .cons hopc hb
  cases harg' : st.arg with
  | none =>
    rw [harg'] at hc
    have hc : x.result = [r.1.HEX] := hc
    obtain ⟨h1, h2⟩ := plain [] [] hc (by simp) .nil
    refine ⟨h1, [r.2.1], ⟨r.2.1, [], 0, rfl, hdec, by rw [harg']; trivial, ?_⟩, h2⟩
    rw [hkn harg']
  | num n =>
    rw [harg'] at hc hg
    simp only [Good] at hg
    simp only [Codes] at hc
    rw [if_pos hg] at hc
    rw [e1] at hc hg
    cases hkind : kindOf st.instr with
    | none => rw [hkind] at hc; exact hc.elim
    | byte =>
      rw [hkind] at hc
      obtain ⟨y, e, hy⟩ := hc
      rw [kind_size.1.1 hkind] at hg
      obtain ⟨h1, h2⟩ := plain [y] [BitVec.ofNat 8 n] e (by simp) (.cons hy .nil)
      refine ⟨h1, _, ⟨r.2.1, _, n, rfl, hdec, by rw [harg']; rfl, ?_⟩, h2⟩
      rw [hkind]
      exact ⟨by simpa using hg, rfl⟩
    | addr =>
      rw [hkind] at hc
      obtain ⟨y, z, e, hy, hz⟩ := hc
      rw [kind_size.2.1 hkind] at hg
      obtain ⟨h1, h2⟩ := plain [y, z] [BitVec.ofNat 8 (n / 256), BitVec.ofNat 8 (n % 256)] e (by simp)
        (.cons hy (.cons hz .nil))
      refine ⟨h1, _, ⟨r.2.1, _, n, rfl, hdec, by rw [harg']; rfl, ?_⟩, h2⟩
      rw [hkind]
      exact ⟨by simpa using hg, rfl⟩
  | label l =>
    have hkind := ha st hst l harg'
    have hlab := harg l harg'
    have hT : startsT l = true := by simpa [startsT] using hlab.1
    have hdef : ∃ s ∈ prog, s.label = some l := by
      have := hv st hst
      rw [harg'] at this
      exact this
    have hl0 : l ≠ [] := by rintro rfl; simp [startsT] at hT
    obtain ⟨e, a, h1, h2, h3⟩ := etiPos_find h hl0 0 hdef
    rw [Nat.zero_add] at h3
    rw [harg'] at hc hg
    have hc : x.result = if l ∈ labels then [r.1.HEX, l] else [] := hc
    rw [if_pos (show l ∈ labels from hg)] at hc
    have hlt : a < 65536 := by have := h2.lt; omega
    obtain ⟨y, z, hp2, hy, hz⟩ := dirHex_pieces hlt
    refine ⟨⟨by rw [hc]; simp, _, [l], hc, .inr ⟨l, e, rfl, h1⟩⟩,
      [r.2.1, BitVec.ofNat 8 (a / 256), BitVec.ofNat 8 (a % 256)],
      ⟨r.2.1, _, a, rfl, hdec, by rw [harg']; exact h2, ?_⟩, ?_⟩
    · rw [hkind]; exact ⟨hlt, rfl⟩
    · have hs : (settle (etiPos 0 results) x).result = [r.1.HEX, y, z] := by
        unfold settle
        rw [hc]
        simp only
        rw [h1]
        simp only
        rw [h3, hp2]
      rw [hs]
      exact .cons hopc (.cons hy (.cons hz .nil))

/-! ## Texts -/

/-- Every label that is used is defined, so no result is dropped. -/
theorem Kept.settles {labels : List Str} {results : List Result} {prog : List Stmt}
    (h : List.Forall₂ (Kept labels) results prog) (hv : Valid prog) (d : Nat) {x : Result}
    {st : Stmt} (hst : st ∈ prog) (hk : Kept labels x st) :
    Settles (etiPos d results) x ∧
      ∃ r ∈ rows, ∃ t, (settle (etiPos d results) x).result = r.1.HEX :: t := by
  obtain ⟨⟨r, hr, e1, e2, hc⟩, hne, -, -, harg, hkn⟩ := hk
  have hg := hc.ne_nil.1 hne
  have plain : ∀ t, x.result = r.1.HEX :: t → t.length ≤ 2 → (∀ y ∈ t, checkIsHex y = true) →
      Settles (etiPos d results) x ∧
        ∃ r ∈ rows, ∃ t, (settle (etiPos d results) x).result = r.1.HEX :: t := by
    intro t e hl hx
    refine ⟨⟨by rw [e]; simp; omega, _, t, e, .inl hx⟩, r, hr, ?_⟩
    unfold settle
    rw [e]
    split
    · rename_i h' l he
      cases he
      split
      · exact ⟨_, rfl⟩
      · exact ⟨_, e⟩
    · exact ⟨_, e⟩
  cases harg' : st.arg with
  | none =>
    rw [harg'] at hc
    exact plain [] hc (by simp) (by simp)
  | num n =>
    rw [harg'] at hc hg
    simp only [Good] at hg
    simp only [Codes] at hc
    rw [if_pos hg] at hc
    cases hkind : kindOf r.2.2 with
    | none => rw [hkind] at hc; exact hc.elim
    | byte =>
      rw [hkind] at hc
      obtain ⟨y, e, hy⟩ := hc
      exact plain [y] e (by simp) (by simp [hy.two.2])
    | addr =>
      rw [hkind] at hc
      obtain ⟨y, z, e, hy, hz⟩ := hc
      exact plain [y, z] e (by simp) (by simp [hy.two.2, hz.two.2])
  | label l =>
    have hlab := harg l harg'
    have hl0 : l ≠ [] := by rintro rfl; simp [IsLabel] at hlab
    have hdef : ∃ s ∈ prog, s.label = some l := by
      have := hv st hst
      rw [harg'] at this
      exact this
    obtain ⟨e, a, h1, h2, h3⟩ := etiPos_find h hl0 d hdef
    rw [harg'] at hc hg
    have hc : x.result = if l ∈ labels then [r.1.HEX, l] else [] := hc
    rw [if_pos (show l ∈ labels from hg)] at hc
    refine ⟨⟨by rw [hc]; simp, _, [l], hc, .inr ⟨l, e, rfl, h1⟩⟩, r, hr, ?_⟩
    unfold settle
    rw [hc]
    simp only
    rw [h1]
    exact ⟨_, rfl⟩

theorem Forall₂.map_left {α β γ : Type} {R : α → β → Prop} {S : γ → β → Prop} {f : α → γ}
    {l : List α} {m : List β} (h : List.Forall₂ R l m) (hf : ∀ a, ∀ b ∈ m, R a b → S (f a) b) :
    List.Forall₂ S (l.map f) m := by
  induction h with
  | nil => exact .nil
  | cons h1 _ ih => exact .cons (hf _ _ (by simp) h1) (ih fun a b hb => hf a b (by simp [hb]))

/-- A well written program is assembled without errors and nothing is dropped. -/
theorem parseInput_ok {text : Str} {prog : List Stmt} (hs : Source text prog) (hv : Valid prog)
    (d : Nat) :
    ∃ labels results, List.Forall₂ (Kept labels) results prog ∧
      parseInput text d = some ⟨[], results.map (settle (etiPos d results)), etiPos d results⟩ := by
  obtain ⟨hn, hr⟩ := (source_iff _ _).1 hs
  obtain ⟨h1, h2⟩ := parseLines_ok (labels := pre (cleanLines text)) 0 hn hr ((valid_iff hn hr).1 hv)
  refine ⟨_, _, h2, ?_⟩
  have h3 := post_settle (results := (parseLines (pre (cleanLines text)) 0 (cleanLines text)).2)
    (dir := d) ?_ ?_
  · unfold parseInput
    simp only
    rw [h3, h1]
    rfl
  · intro r hr
    obtain ⟨st, _, this⟩ := Forall₂.of_left h2 hr
    rw [this.eti]
    cases hl : st.label with
    | none => exact .inl rfl
    | some l => exact .inr (by simpa [startsT] using (this.lab l hl).1)
  · intro x hx
    obtain ⟨st, hst, hk⟩ := Forall₂.of_left h2 hx
    exact (Kept.settles h2 hv d hst hk).1

/-- Conversely, a text in which the assembler finds no error is a well written program. -/
theorem parseInput_inv {text : Str} {d : Nat} {out : Output}
    (hn : ∀ l ∈ cleanLines text, NoTerm l) (h : parseInput text d = some out) (he : out.errors = []) :
    ∃ prog, Source text prog ∧ Valid prog := by
  unfold parseInput at h
  simp only [Option.map_eq_some_iff] at h
  obtain ⟨_, _, rfl⟩ := h
  obtain ⟨prog, h1, h2⟩ := parseLines_inv 0 hn he
  exact ⟨prog, (source_iff _ _).2 ⟨hn, h1⟩, (valid_iff hn h1).2 h2⟩

theorem join_flatten {c : Char} {xss : List (List Str)} (h : ∀ xs ∈ xss, xs ≠ []) :
    join c (xss.map (join c)) = join c xss.flatten := by
  have app : ∀ xs ys : List Str, xs ≠ [] → ys ≠ [] →
      join c (xs ++ ys) = join c xs ++ c :: join c ys := by
    intro xs
    induction xs with
    | nil => intro ys h; exact absurd rfl h
    | cons x xs ih =>
      intro ys _ hy
      cases xs with
      | nil =>
        cases ys with
        | nil => exact absurd rfl hy
        | cons y ys => rfl
      | cons x' xs =>
        have := ih ys (by simp) hy
        show x ++ c :: join c ((x' :: xs) ++ ys) = (x ++ c :: join c (x' :: xs)) ++ c :: join c ys
        rw [this]
        simp
  induction xss with
  | nil => rfl
  | cons xs xss ih =>
    have ih := ih fun y hy => h y (by simp [hy])
    cases xss with
    | nil => simp [join]
    | cons ys xss =>
      have hne : (ys :: xss).flatten ≠ [] := by simp [h ys (by simp)]
      rw [List.map_cons, List.flatten_cons, app xs _ (h xs (by simp)) hne, ← ih]
      rfl

theorem HexByte.no_nl {s : Str} {b : BitVec 8} (h : HexByte s b) : '\n' ∉ s := by
  intro hm
  have := h.two.2
  have h2 := List.all_eq_true.1 this _ hm
  revert h2
  decide

/-- The bytes handed to the memory editor are the machine code of the program. -/
theorem translation_code {text : Str} {prog : List Stmt} (hs : Source text prog) (hne : prog ≠ [])
    (hv : Valid prog) (ha : LabelsAreAddresses prog) (hsz : sizeOf prog ≤ 65536) :
    ∃ slots bss, translation text = some (some slots) ∧ Code prog bss ∧
      List.Forall₂ HexByte slots bss.flatten := by
  obtain ⟨labels, results, hk, hp⟩ := parseInput_ok hs hv 0
  have key : ∀ rs ps, List.Forall₂ (Kept labels) rs ps → (∀ st ∈ ps, st ∈ prog) →
      ∃ bss, List.Forall₂ (StmtCode prog) ps bss ∧
        List.Forall₂ (List.Forall₂ HexByte)
          (rs.map fun x => (settle (etiPos 0 results) x).result) bss := by
    intro rs ps h hm
    induction h with
    | nil => exact ⟨[], .nil, .nil⟩
    | cons h1 _ ih =>
      obtain ⟨_, bs, h2, h3⟩ := Kept.final hk hv ha hsz (hm _ (by simp)) h1
      obtain ⟨bss, h4, h5⟩ := ih fun st hst => hm st (by simp [hst])
      exact ⟨bs :: bss, .cons h2 h4, .cons h3 h5⟩
  obtain ⟨bss, hcode, hb⟩ := key results prog hk fun _ h => h
  have hflat : ∀ (xs : List (List Str)) (ys : List (List (BitVec 8))),
      List.Forall₂ (List.Forall₂ HexByte) xs ys → List.Forall₂ HexByte xs.flatten ys.flatten := by
    intro xs ys h
    induction h with
    | nil => exact .nil
    | cons h1 _ ih => exact List.rel_append h1 ih
  have hb2 := hflat _ _ hb
  refine ⟨_, bss, ?_, hcode, hb2⟩
  have hne1 : ∀ xs ∈ results.map fun x => (settle (etiPos 0 results) x).result, xs ≠ [] := by
    intro xs hx
    obtain ⟨x, hm, rfl⟩ := List.mem_map.1 hx
    obtain ⟨st, hst, hkk⟩ := Forall₂.of_left hk hm
    obtain ⟨_, r, _, t, e⟩ := Kept.settles hk hv 0 hst hkk
    rw [e]
    simp
  have hne2 : (results.map fun x => (settle (etiPos 0 results) x).result).flatten ≠ [] := by
    cases hk with
    | nil => exact absurd rfl hne
    | cons _ _ =>
      have := hne1 _ (by rw [List.map_cons]; exact List.mem_cons_self)
      rw [List.map_cons, List.flatten_cons]
      intro h
      exact this (List.append_eq_nil_iff.1 h).1
  unfold translation
  rw [hp]
  simp only [Option.map_some, List.map_map, Option.some.injEq]
  have e := join_flatten (c := '\n') hne1
  rw [List.map_map] at e
  have e' : join '\n' (results.map ((fun r : Result => join '\n' r.result) ∘ settle (etiPos 0 results))) =
      join '\n' (results.map fun x => (settle (etiPos 0 results) x).result).flatten := e
  rw [e', split_join hne2, if_neg]
  · intro h
    rcases h with h | h
    · simp at h
    · rw [List.length_eq_zero_iff] at h
      have h := congrArg (split '\n') h
      rw [split_join hne2] at h
      · rw [h] at hb2
        obtain ⟨b, _, h⟩ := Forall₂.of_left hb2 (a := []) (by simp [split])
        exact absurd h.1 (by simp)
      · intro w hw
        obtain ⟨b, _, h⟩ := Forall₂.of_left hb2 hw
        exact h.no_nl
  · intro w hw
    obtain ⟨b, _, h⟩ := Forall₂.of_left hb2 hw
    exact h.no_nl

/-- A text whose statements contain no line terminators other than the newline. -/
def Plain (text : Str) : Prop :=
  ∃ lines cores, Lines text lines ∧ List.Forall₂ Core lines cores ∧ ∀ c ∈ cores, ∀ x ∈ c, ¬ OddTerm x

theorem Plain.noTerm {text : Str} (h : Plain text) : ∀ l ∈ cleanLines text, NoTerm l := by
  obtain ⟨lines, cores, h1, h2, h3⟩ := h
  have e := cores_eq h2
  rw [← h1.eq] at e
  intro l hl c hc
  rw [cleanLines_eq] at hl
  rw [Bool.eq_false_iff, ne_eq, term_odd]
  rintro (rfl | h)
  · obtain ⟨l', hl', rfl⟩ := List.mem_map.1 hl
    exact clean_noNl (split_noSep _ _ _ hl') hc
  · rw [← e] at hl
    exact h3 l hl c hc h

/-- The memory editor receives something exactly for the well written programs. -/
theorem translation_iff {text : Str} (hp : Plain text) :
    (∃ slots, translation text = some (some slots)) ↔
      ∃ prog, Source text prog ∧ Valid prog ∧ prog ≠ [] := by
  constructor
  · rintro ⟨slots, h⟩
    unfold translation at h
    simp only [Option.map_eq_some_iff] at h
    obtain ⟨out, h1, h2⟩ := h
    split at h2
    · simp at h2
    · rename_i hc
      simp only [not_or, Nat.not_lt, Nat.le_zero, List.length_eq_zero_iff] at hc
      obtain ⟨prog, h3, h4⟩ := parseInput_inv hp.noTerm h1 hc.1
      refine ⟨prog, h3, h4, ?_⟩
      rintro rfl
      obtain ⟨labels, results, hk, h5⟩ := parseInput_ok h3 h4 0
      cases hk
      rw [h1] at h5
      cases h5
      exact hc.2 rfl
  · rintro ⟨prog, hs, hv, hne⟩
    obtain ⟨labels, results, hk, h⟩ := parseInput_ok hs hv 0
    unfold translation
    rw [h]
    simp only [Option.map_some, Option.some.injEq]
    cases hk with
    | nil => exact absurd rfl hne
    | @cons x st results prog h1 h2 =>
      obtain ⟨_, r, hr, t, e⟩ := Kept.settles (.cons h1 h2) hv 0 (List.mem_cons_self) h1
      rw [if_neg]
      · exact ⟨_, rfl⟩
      · have hx : (join '\n' (settle (etiPos 0 (x :: results)) x).result) ≠ [] := by
          rw [e]
          have := Row.hexLen hr
          cases t with
          | nil => intro h0; simp only [join] at h0; rw [h0] at this; simp at this
          | cons _ _ => simp [join]
        rintro (h | h)
        · simp at h
        · simp only [List.map_cons, List.length_eq_zero_iff] at h
          cases results with
          | nil => exact hx h
          | cons _ _ => simp [join] at h

/-! ## A text is one program -/

theorem pairwise_inj {α β : Type} {f : α → β} {l : List α} (h : (l.map f).Nodup) {a b : α}
    (ha : a ∈ l) (hb : b ∈ l) (e : f a = f b) : a = b := by
  induction l with
  | nil => simp at ha
  | cons x xs ih =>
    rw [List.map_cons, List.nodup_cons] at h
    rcases List.mem_cons.1 ha with h1 | h1 <;> rcases List.mem_cons.1 hb with h2 | h2
    · rw [h1, h2]
    · exact absurd (List.mem_map.2 ⟨b, h2, by rw [← e, h1]⟩) h.1
    · exact absurd (List.mem_map.2 ⟨a, h1, by rw [e, h2]⟩) h.1
    · exact ih h.2 h1 h2

theorem rows_hex_nodup : (rows.map fun r => r.1.HEX).Nodup := by decide +kernel

theorem rows_instr_nodup : (rows.map fun r => r.2.2).Nodup := by decide +kernel

theorem decode_row : ∀ a : BitVec 8, (decode a).all (fun i => rows.any fun r => r.2 = (a, i)) = true := by
  decide +kernel

theorem ArgText.unique {i : Instr} {w : Str} {a b : Arg} (h : ArgText i w a) (h' : ArgText i w b) :
    a = b := by
  have nt : ∀ {l : Str} {n : Nat}, IsLabel l → HexValue l n → False := by
    intro l n h1 h2
    have := hex_not_T ((hexValue_iff _ _).1 h2).1
    simp [startsT, h1.1] at this
  unfold ArgText at h h'
  cases hk : kindOf i <;> cases a <;> cases b <;> simp only [hk] at h h'
  · rfl
  · rw [h.1.unique h'.1]
  · obtain ⟨rfl, h2, _⟩ := h'
    exact (nt h2 h.1).elim
  · obtain ⟨rfl, h2, _⟩ := h
    exact (nt h2 h'.1).elim
  · rw [← h.1, h'.1]
  · rw [h.unique h']
  · obtain ⟨rfl, h2, _⟩ := h'
    exact (nt h2 h).elim
  · obtain ⟨rfl, h2, _⟩ := h
    exact (nt h2 h').elim
  · rw [← h.1, h'.1]

theorem ArgText.none {i : Instr} {w w' : Str} {a b : Arg} (hk : kindOf i = .none)
    (h : ArgText i w a) (h' : ArgText i w' b) : a = b := by
  unfold ArgText at h h'
  cases a <;> cases b <;> simp only [hk] at h h'
  rfl

theorem Reads.unique {line : Str} (hn : NoTerm line) {st st' : Stmt} (h : Reads line st)
    (h' : Reads line st') : st = st' := by
  obtain ⟨r, hr, e, codes, h1, _⟩ := h.exec hn []
  obtain ⟨r', hr', e', codes', h1', _⟩ := h'.exec hn []
  rw [h1] at h1'
  simp only [Option.some.injEq, Prod.mk.injEq] at h1'
  obtain ⟨rfl, hl, ho⟩ := h1'
  have hi : st.instr = st'.instr := by
    rw [← e, ← e', pairwise_inj rows_hex_nodup hr hr' (by rw [ho])]
  have hlab : st.label = st'.label := by
    have ne : ∀ {s : Stmt}, Reads line s → s.label ≠ some [] := by
      intro s hs hc
      have := hs.labels.1 _ hc
      simp [IsLabel] at this
    cases ha : st.label with
    | none =>
      cases hb : st'.label with
      | none => rfl
      | some l => rw [ha, hb] at hl; exact absurd (by rw [hb]; exact congrArg some hl.symm) (ne h')
    | some l =>
      cases hb : st'.label with
      | none => rw [ha, hb] at hl; exact absurd (by rw [ha]; exact congrArg some hl) (ne h)
      | some l' => rw [ha, hb] at hl; exact congrArg some hl
  obtain ⟨lab, i, a⟩ := st
  obtain ⟨lab', i', a'⟩ := st'
  simp only at hi hlab
  subst hi hlab
  obtain ⟨w, s, hs, hat, hline⟩ := h
  obtain ⟨w', s', hs', hat', hline'⟩ := h'
  simp only at hs hs' hat hat' hline hline' e
  have hss : s = s' := by
    cases lab with
    | none => simp only at hline hline'; rw [← hline, ← hline']
    | some l =>
      simp only at hline hline'
      have := hline.2.symm.trans hline'.2
      simpa using this
  subst hss
  by_cases hk : kindOf i = .none
  · rw [hat.none hk hat']
  · subst e
    obtain ⟨ts, h3, _, h4⟩ := hs.fit hr fun hk => (hat.harmless hk).2
    obtain ⟨ts', h3', _, h4'⟩ := hs'.fit hr fun hk => (hat'.harmless hk).2
    rw [h3] at h3'
    cases h3'
    have : w = w' := by rw [← h4 hk, h4' hk]
    subst this
    rw [hat.unique hat']

theorem Source.unique {text : Str} {p q : List Stmt} (h : Source text p) (h' : Source text q) :
    p = q := by
  obtain ⟨hn, h1⟩ := (source_iff _ _).1 h
  obtain ⟨_, h2⟩ := (source_iff _ _).1 h'
  have key : ∀ (ls : List Str), (∀ l ∈ ls, NoTerm l) → ∀ p q, List.Forall₂ Reads ls p →
      List.Forall₂ Reads ls q → p = q := by
    intro ls hn p q h
    induction h generalizing q with
    | nil => intro h; cases h; rfl
    | cons h1 _ ih =>
      intro h
      cases h with
      | cons h2 h3 =>
        rw [h1.unique (hn _ (by simp)) h2, ih (fun l hl => hn l (by simp [hl])) _ h3]
  exact key _ (fun l hl => hn l (List.mem_filter.1 hl).1) _ _ h1 h2

theorem decode_inj {a b : BitVec 8} {i : Instr} (ha : decode a = some i) (hb : decode b = some i) :
    a = b := by
  have h : ∀ {a i}, decode a = some i → ∃ r ∈ rows, r.2 = (a, i) := by
    intro a i h
    have := decode_row a
    rw [h] at this
    simpa using this
  obtain ⟨r, hr, e⟩ := h ha
  obtain ⟨s, hs, e'⟩ := h hb
  have := pairwise_inj rows_instr_nodup hr hs (by rw [e, e'])
  rw [this, e'] at e
  cases e
  rfl

/-- A program has at most one machine code. -/
theorem Code.unique {prog : List Stmt} {bs cs : List (List (BitVec 8))} 
    (hk : ∀ st ∈ prog, st.arg = .none → kindOf st.instr = .none) (h : Code prog bs)
    (h' : Code prog cs) : bs = cs := by
  have one : ∀ st ∈ prog, ∀ b c, StmtCode prog st b → StmtCode prog st c → b = c := by
    rintro st hst b c ⟨o, t, v, rfl, hd, ha, hm⟩ ⟨o', t', v', rfl, hd', ha', hm'⟩
    rw [decode_inj hd hd']
    congr 1
    by_cases hkn : kindOf st.instr = .none
    · rw [hkn] at hm hm'
      rw [hm, hm']
    · have hv : v = v' := by
        cases harg : st.arg with
        | none => exact absurd (hk st hst harg) hkn
        | num n => rw [harg] at ha ha'; exact ha.trans ha'.symm
        | label l => rw [harg] at ha ha'; exact LabelAt.unique ha ha'
      subst hv
      cases hkk : kindOf st.instr with
      | none => exact absurd hkk hkn
      | byte => rw [hkk] at hm hm'; rw [hm.2, hm'.2]
      | addr => rw [hkk] at hm hm'; rw [hm.2, hm'.2]
  have key : ∀ (ps : List Stmt) bs, List.Forall₂ (StmtCode prog) ps bs → ∀ cs,
      List.Forall₂ (StmtCode prog) ps cs → (∀ st ∈ ps, st ∈ prog) → bs = cs := by
    intro ps bs h
    induction h with
    | nil => intro cs h _; cases h; rfl
    | cons h1 _ ih =>
      intro cs h hm
      cases h with
      | cons h2 h3 =>
        rw [one _ (hm _ (by simp)) _ _ h1 h2, ih _ h3 fun st hst => hm st (by simp [hst])]
  exact key _ _ h _ h' fun _ h => h

end Mpp.Front
