import Verif.Props.Stored
/-!
# Labels are only names (C103)

The assembler replaces labels in the texts of the lines, one after the other, and counts bytes as it
goes. What counts is only which statement a label belongs to.
-/
namespace Mpp.Front

/-- Both texts are accepted and give the same bytes (perhaps with digits of another case). -/
def SameBytes (text text' : Str) : Prop :=
  ∃ slots slots' bs, translation text = some (some slots) ∧ translation text' = some (some slots') ∧
    List.Forall₂ HexByte slots bs ∧ List.Forall₂ HexByte slots' bs

/-- `st` in `p` and `st'` in `q` are the same instruction, with operands that stand for the same number. -/
def Alike (p q : List Stmt) (st st' : Stmt) : Prop :=
  st.instr = st'.instr ∧ ∃ v, ArgIs p st.arg v ∧ ArgIs q st'.arg v

theorem source_kinds {text : Str} {p : List Stmt} (hs : Source text p) :
    ∀ st ∈ p, st.arg = .none → kindOf st.instr = .none := by
  obtain ⟨_, _, _, _, _, h⟩ := hs
  intro st hst
  obtain ⟨line, _, hr⟩ := Forall₂.of_right h hst
  exact hr.labels.2.2

theorem stmtCode_alike {p q : List Stmt} {st st' : Stmt} (hk : st.arg = .none → kindOf st.instr = .none)
    (hk' : st'.arg = .none → kindOf st'.instr = .none) (h : Alike p q st st') {b c : List (BitVec 8)}
    (hb : StmtCode p st b) (hc : StmtCode q st' c) : b = c := by
  obtain ⟨hi, x, hx, hx'⟩ := h
  obtain ⟨o, t, v, rfl, hd, ha, hm⟩ := hb
  obtain ⟨o', t', v', rfl, hd', ha', hm'⟩ := hc
  rw [← hi] at hd' hm' hk'
  rw [decode_inj hd hd']
  congr 1
  by_cases hkn : kindOf st.instr = .none
  · rw [hkn] at hm hm'
    rw [hm, hm']
  · have one : ∀ (r : List Stmt) (a : Arg) (m n : Nat), (a = .none → kindOf st.instr = .none) → ArgIs r a m →
        ArgIs r a n → m = n := by
      intro r a m n h0 h1 h2
      cases a with
      | none => exact absurd (h0 rfl) hkn
      | num k => exact Eq.trans h1 (Eq.symm h2)
      | label l => exact LabelAt.unique h1 h2
    have hv : v = v' := (one _ _ _ _ hk ha hx).trans (one _ _ _ _ hk' hx' ha')
    subst hv
    cases hkk : kindOf st.instr with
    | none => exact absurd hkk hkn
    | byte => rw [hkk] at hm hm'; rw [hm.2, hm'.2]
    | addr => rw [hkk] at hm hm'; rw [hm.2, hm'.2]

theorem code_alike {p q : List Stmt} (ps qs : List Stmt) (h : List.Forall₂ (Alike p q) ps qs)
    (hp : ∀ st ∈ ps, st.arg = .none → kindOf st.instr = .none)
    (hq : ∀ st ∈ qs, st.arg = .none → kindOf st.instr = .none) :
    ∀ bss css, List.Forall₂ (StmtCode p) ps bss → List.Forall₂ (StmtCode q) qs css → bss = css := by
  induction h with
  | nil => intro bss css h1 h2; cases h1; cases h2; rfl
  | cons h _ ih =>
    intro bss css h1 h2
    cases h1 with
    | cons a1 a2 =>
      cases h2 with
      | cons b1 b2 =>
        rw [stmtCode_alike (hp _ (by simp)) (hq _ (by simp)) h a1 b1,
          ih (fun st hst => hp st (by simp [hst])) (fun st hst => hq st (by simp [hst])) _ _ a2 b2]

/-- A program that the assembler can translate. -/
structure Assembles (text : Str) (p : List Stmt) : Prop where
  source : Source text p
  some : p ≠ []
  valid : Valid p
  addresses : LabelsAreAddresses p
  size : sizeOf p ≤ 65536

/-- **C103.** Two texts give the same bytes if statement by statement they have the same instructions, and
operands that stand for the same numbers in each of them. -/
theorem C103_same (text text' : Str) (p q : List Stmt) (hp : Assembles text p) (hq : Assembles text' q)
    (h : List.Forall₂ (Alike p q) p q) : SameBytes text text' := by
  obtain ⟨slots, bss, e, c, f⟩ := translation_code hp.source hp.some hp.valid hp.addresses hp.size
  obtain ⟨slots', css, e', c', f'⟩ := translation_code hq.source hq.some hq.valid hq.addresses hq.size
  have := code_alike p q h (source_kinds hp.source) (source_kinds hq.source) bss css c c'
  subst this
  exact ⟨slots, slots', _, e, e', f, f'⟩

theorem forall₂_map_right {α β : Type} {R : α → β → Prop} {f : α → β} {l : List α} (h : ∀ x ∈ l, R x (f x)) :
    List.Forall₂ R l (l.map f) := by
  induction l with
  | nil => exact .nil
  | cons x l ih => exact .cons (h x (by simp)) (ih fun y hy => h y (by simp [hy]))

theorem argIs_exists {p : List Stmt} (hv : Valid p) {st : Stmt} (hst : st ∈ p) : ∃ v, ArgIs p st.arg v := by
  have := hv st hst
  cases ha : st.arg with
  | none => exact ⟨0, trivial⟩
  | num n => exact ⟨n, rfl⟩
  | label l =>
    rw [ha] at this
    obtain ⟨s, h1, h2⟩ := this
    exact labelAt_exists h1 h2

/-- **C103.** Two ways to write the same statements, with other blanks, comments, cases or digits, give the
same bytes. -/
theorem C103_spelling (text text' : Str) (p : List Stmt) (hp : Assembles text p) (hq : Source text' p) :
    SameBytes text text' := by
  refine C103_same text text' p p hp ⟨hq, hp.some, hp.valid, hp.addresses, hp.size⟩ ?_
  have := forall₂_map_right (R := Alike p p) (f := id) (l := p) fun st hst => by
    obtain ⟨v, hv⟩ := argIs_exists hp.valid hst
    exact ⟨rfl, v, hv, hv⟩
  rwa [List.map_id] at this

/-- Another name for every label. -/
def Stmt.rename (f : Str → Str) (st : Stmt) : Stmt :=
  { st with label := st.label.map f, arg := match st.arg with | .label l => .label (f l) | a => a }

theorem sizeOf_map {f : Stmt → Stmt} (hf : ∀ st, (f st).instr = st.instr) (p : List Stmt) :
    sizeOf (p.map f) = sizeOf p := by
  simp only [sizeOf, List.map_map]
  congr 1
  exact List.map_congr_left fun st _ => by simp [hf]

theorem labelAt_map {f : Stmt → Stmt} (hf : ∀ st, (f st).instr = st.instr) {p : List Stmt} {l l' : Str} {a : Nat}
    (hl : ∀ st ∈ p, ((f st).label = some l' ↔ st.label = some l)) (h : LabelAt p l a) :
    LabelAt (p.map f) l' a := by
  obtain ⟨b, st, c, rfl, h1, h2, h3⟩ := h
  refine ⟨b.map f, f st, c.map f, by simp, (hl st (by simp)).2 h1, ?_, by rw [sizeOf_map hf, h3]⟩
  intro x hx
  obtain ⟨y, hy, rfl⟩ := List.mem_map.1 hx
  exact fun e => h2 y hy ((hl y (by simp [hy])).1 e)

/-- **C103.** The names of labels do not matter, as long as different labels have different names. -/
theorem C103_rename (text text' : Str) (p : List Stmt) (f : Str → Str) (hp : Assembles text p)
    (hf : ∀ st ∈ p, ∀ st' ∈ p, ∀ l l', st.label = some l → st'.label = some l' → f l = f l' → l = l')
    (hs : Source text' (p.map (Stmt.rename f))) : SameBytes text text' := by
  have hi : ∀ st : Stmt, (st.rename f).instr = st.instr := fun _ => rfl
  have key : ∀ st ∈ p, ∀ l, st.arg = .label l → ∀ st' ∈ p,
      ((st'.rename f).label = some (f l) ↔ st'.label = some l) := by
    intro st hst l ha st' hst'
    have := hp.valid st hst
    rw [ha] at this
    obtain ⟨s, h1, h2⟩ := this
    constructor
    · intro e
      have e : st'.label.map f = some (f l) := e
      obtain ⟨l', e1, e2⟩ := Option.map_eq_some_iff.1 e
      rw [e1, hf st' hst' s h1 l' l e1 h2 e2]
    · intro e
      show st'.label.map f = some (f l)
      rw [e]; rfl
  refine C103_same text text' p _ hp ⟨hs, by simpa using hp.some, ?_, ?_, by rw [sizeOf_map hi]; exact hp.size⟩ ?_
  · intro x hx
    obtain ⟨st, hst, rfl⟩ := List.mem_map.1 hx
    have := hp.valid st hst
    cases ha : st.arg with
    | none => simp [Stmt.rename, ha]
    | num n => rw [ha] at this; simpa [Stmt.rename, ha] using this
    | label l =>
      rw [ha] at this
      obtain ⟨s, h1, h2⟩ := this
      simp only [Stmt.rename, ha]
      exact ⟨s.rename f, List.mem_map_of_mem h1, by simp [Stmt.rename, h2]⟩
  · intro x hx l ha
    obtain ⟨st, hst, rfl⟩ := List.mem_map.1 hx
    cases e : st.arg with
    | none => simp [Stmt.rename, e] at ha
    | num n => simp [Stmt.rename, e] at ha
    | label l' => exact hp.addresses st hst l' e
  · refine forall₂_map_right fun st hst => ?_
    obtain ⟨v, hv⟩ := argIs_exists hp.valid hst
    refine ⟨rfl, v, hv, ?_⟩
    cases ha : st.arg with
    | none => simp [Stmt.rename, ha, ArgIs]
    | num n => rw [ha] at hv; simpa [Stmt.rename, ha, ArgIs] using hv
    | label l =>
      rw [ha] at hv
      simp only [Stmt.rename, ha]
      exact labelAt_map hi (key st hst l ha) hv

/-- The label is left away unless an operand names it. -/
def Stmt.unlabel (p : List Stmt) (st : Stmt) : Stmt :=
  { st with label := st.label.filter fun l => p.any fun x => x.arg = .label l }

/-- **C103.** Labels that no operand names can be left away or added. -/
theorem C103_unused (text text' : Str) (p : List Stmt) (hp : Assembles text p)
    (hs : Source text' (p.map (Stmt.unlabel p))) : SameBytes text text' := by
  have hi : ∀ st : Stmt, (st.unlabel p).instr = st.instr := fun _ => rfl
  have key : ∀ st ∈ p, ∀ l, st.arg = .label l → ∀ st' ∈ p, ((st'.unlabel p).label = some l ↔ st'.label = some l) := by
    intro st hst l ha st' _
    simp only [Stmt.unlabel, Option.filter_eq_some_iff, and_iff_left_iff_imp]
    intro _
    exact List.any_eq_true.2 ⟨st, hst, by simp [ha]⟩
  refine C103_same text text' p _ hp ⟨hs, by simpa using hp.some, ?_, ?_, by rw [sizeOf_map hi]; exact hp.size⟩ ?_
  · intro x hx
    obtain ⟨st, hst, rfl⟩ := List.mem_map.1 hx
    have := hp.valid st hst
    simp only [Stmt.unlabel]
    cases ha : st.arg with
    | none => trivial
    | num n => rw [ha] at this; exact this
    | label l =>
      rw [ha] at this
      obtain ⟨s, h1, h2⟩ := this
      exact ⟨s.unlabel p, List.mem_map_of_mem h1, (key st hst l ha s h1).2 h2⟩
  · intro x hx l ha
    obtain ⟨st, hst, rfl⟩ := List.mem_map.1 hx
    exact hp.addresses st hst l ha
  · refine forall₂_map_right fun st hst => ?_
    obtain ⟨v, hv⟩ := argIs_exists hp.valid hst
    refine ⟨rfl, v, hv, ?_⟩
    show ArgIs _ st.arg v
    cases ha : st.arg with
    | none => trivial
    | num n => rw [ha] at hv; exact hv
    | label l => rw [ha] at hv; exact labelAt_map hi (key st hst l ha) hv

/-- **C103.** Any operand label can be written as a number, and the other way round: `q` is `p` with some of
the operands replaced by the addresses they stand for. -/
theorem C103_number (text text' : Str) (p q : List Stmt) (hp : Assembles text p)
    (hs : Source text' q)
    (h : List.Forall₂ (fun st st' => st'.instr = st.instr ∧ st'.label = st.label ∧
      (st'.arg = st.arg ∨ ∃ l a, st.arg = .label l ∧ LabelAt p l a ∧ st'.arg = .num a)) p q) :
    SameBytes text text' := by
  have part : ∀ (ps qs : List Stmt), List.Forall₂ (fun st st' => st'.instr = st.instr ∧ st'.label = st.label ∧
      (st'.arg = st.arg ∨ ∃ l a, st.arg = .label l ∧ LabelAt p l a ∧ st'.arg = .num a)) ps qs →
      sizeOf qs = sizeOf ps ∧ ∀ l a, LabelAt ps l a → LabelAt qs l a := by
    intro ps qs h
    induction h with
    | nil => exact ⟨rfl, fun _ _ h => h⟩
    | @cons st st' ps qs h1 _ ih =>
      refine ⟨by simp only [sizeOf, List.map_cons, List.sum_cons, h1.1] at *; rw [ih.1], ?_⟩
      intro l a hl
      by_cases e : st.label = some l
      · have : a = 0 := hl.unique ⟨[], st, ps, rfl, e, by simp, rfl⟩
        subst this
        exact ⟨[], st', qs, rfl, h1.2.1.trans e, by simp, rfl⟩
      · obtain ⟨b, x, c, hb, h2, h3, h4⟩ := hl
        cases b with
        | nil =>
          cases hb
          exact absurd h2 e
        | cons y b =>
          simp only [List.cons_append, List.cons.injEq] at hb
          obtain ⟨rfl, hb⟩ := hb
          have k := ih.2 l (sizeOf b) ⟨b, x, c, hb, h2, fun z hz => h3 z (by simp [hz]), rfl⟩
          have := k.cons (st := st') (by rw [h1.2.1]; exact e)
          rw [h4]
          simpa [sizeOf, h1.1, Nat.add_comm] using this
  obtain ⟨hsz, hl⟩ := part p q h
  have alike : ∀ (ps qs : List Stmt), (∀ st ∈ ps, st ∈ p) →
      List.Forall₂ (fun st st' => st'.instr = st.instr ∧ st'.label = st.label ∧
      (st'.arg = st.arg ∨ ∃ l a, st.arg = .label l ∧ LabelAt p l a ∧ st'.arg = .num a)) ps qs →
      List.Forall₂ (Alike p q) ps qs ∧ ∀ st' ∈ qs, ∃ st ∈ ps, st'.instr = st.instr ∧
        (st'.arg = st.arg ∨ ∃ l a, st.arg = .label l ∧ LabelAt p l a ∧ st'.arg = .num a) := by
    intro ps qs hm h
    induction h with
    | nil => exact ⟨.nil, by simp⟩
    | @cons st st' ps qs h1 _ ih =>
      obtain ⟨i1, i2⟩ := ih fun x hx => hm x (by simp [hx])
      refine ⟨.cons ⟨h1.1.symm, ?_⟩ i1, ?_⟩
      · obtain ⟨v, hv⟩ := argIs_exists hp.valid (hm st (by simp))
        refine ⟨v, hv, ?_⟩
        rcases h1.2.2 with e | ⟨l, a, e1, e2, e3⟩
        · rw [e]
          cases ha : st.arg with
          | none => trivial
          | num n => rw [ha] at hv; exact hv
          | label l => rw [ha] at hv; exact hl l v hv
        · rw [e1] at hv
          rw [e3]
          exact hv.unique e2
      · intro x hx
        rcases List.mem_cons.1 hx with rfl | hx
        · exact ⟨st, by simp, h1.1, h1.2.2⟩
        · obtain ⟨y, hy, k⟩ := i2 x hx
          exact ⟨y, by simp [hy], k⟩
  obtain ⟨h1, h2⟩ := alike p q (fun _ h => h) h
  refine C103_same text text' p q hp ⟨hs, ?_, ?_, ?_, by rw [hsz]; exact hp.size⟩ h1
  · intro e
    rw [e] at h
    cases h
    exact hp.some rfl
  · intro st' hst'
    obtain ⟨st, hst, hi, hx⟩ := h2 st' hst'
    have hv := hp.valid st hst
    rcases hx with e | ⟨l, a, e1, e2, e3⟩
    · rw [e]
      cases ha : st.arg with
      | none => trivial
      | num n => rw [ha] at hv; rw [hi]; exact hv
      | label l =>
        rw [ha] at hv
        obtain ⟨s, k1, k2⟩ := hv
        obtain ⟨a, ka⟩ := labelAt_exists k1 k2
        obtain ⟨b, x, c, k3, k4, _⟩ := hl l a ka
        exact ⟨x, by rw [k3]; simp, k4⟩
    · rw [e3, hi]
      have k := hp.addresses st hst l e1
      have lt := e2.lt
      have : st.instr.size = 3 := by
        unfold kindOf at k
        split at k <;> first | assumption | cases k
      rw [this]
      have := hp.size
      show a < 256 ^ 2
      omega
  · intro st' hst' l ha
    obtain ⟨st, hst, hi, hx⟩ := h2 st' hst'
    rcases hx with e | ⟨l', a, e1, e2, e3⟩
    · rw [hi]; exact hp.addresses st hst l (e.symm.trans ha)
    · rw [e3] at ha; cases ha

/-! ## Two programs one after the other -/

theorem lines_append {t t' : Str} {ls ls' : List Str} (h : Lines t ls) (h' : Lines t' ls') :
    Lines (t ++ '\n' :: t') (ls ++ ls') := by
  induction h with
  | last hl => exact .cons hl h'
  | cons hl _ ih => rw [List.append_assoc]; exact .cons hl ih

theorem source_append {t t' : Str} {p q : List Stmt} (h : Source t p) (h' : Source t' q) :
    Source (t ++ '\n' :: t') (p ++ q) := by
  obtain ⟨l, c, h1, h2, h3, h4⟩ := h
  obtain ⟨l', c', h1', h2', h3', h4'⟩ := h'
  refine ⟨l ++ l', c ++ c', lines_append h1 h1', List.rel_append h2 h2', ?_, ?_⟩
  · intro x hx
    rcases List.mem_append.1 hx with hx | hx
    · exact h3 x hx
    · exact h3' x hx
  · rw [List.filter_append]
    exact List.rel_append h4 h4'

theorem valid_append {p q : List Stmt} (h : Valid p) (h' : Valid q) : Valid (p ++ q) := by
  intro st hst
  have key : ∀ r, Valid r → st ∈ r → (∀ x ∈ r, x ∈ p ++ q) → match st.arg with
      | .none => True
      | .num n => n < 256 ^ (st.instr.size - 1)
      | .label l => ∃ s ∈ p ++ q, s.label = some l := by
    intro r hr hm hsub
    have := hr st hm
    cases ha : st.arg with
    | none => trivial
    | num n => rw [ha] at this; exact this
    | label l =>
      rw [ha] at this
      obtain ⟨s, k1, k2⟩ := this
      exact ⟨s, hsub s k1, k2⟩
  rcases List.mem_append.1 hst with hm | hm
  · exact key p h hm fun x hx => by simp [hx]
  · exact key q h' hm fun x hx => by simp [hx]

theorem sizeOf_append (p q : List Stmt) : sizeOf (p ++ q) = sizeOf p + sizeOf q := by
  simp [sizeOf]

theorem labelAt_behind {p q : List Stmt} {l : Str} {a : Nat} (hp : ∀ st ∈ p, st.label ≠ some l)
    (h : LabelAt q l a) : LabelAt (p ++ q) l (sizeOf p + a) := by
  obtain ⟨b, st, c, rfl, h1, h2, h3⟩ := h
  refine ⟨p ++ b, st, c, by simp, h1, ?_, by rw [sizeOf_append, h3]⟩
  intro x hx
  rcases List.mem_append.1 hx with hx | hx
  · exact hp x hx
  · exact h2 x hx

/-- **C103.** A text behind another does not change the bytes of the first, and if no label of the first is
used in it, its own bytes are as they are alone, except that its labels stand for addresses that are
greater by the size of the first: `bss` and `css` are the bytes of the two programs alone, in one list
for each statement, and `bss ++ dss` those of both. -/
theorem C103_join (text text' : Str) (p q : List Stmt) (hp : Assembles text p) (hq : Assembles text' q)
    (hsz : sizeOf p + sizeOf q ≤ 65536)
    (hd : ∀ st ∈ q, ∀ l, st.arg = .label l → ∀ st' ∈ p, st'.label ≠ some l) :
    ∃ (s1 s2 s3 : List Str) (bss css dss : List (List (BitVec 8))), translation text = some (some s1) ∧ List.Forall₂ HexByte s1 bss.flatten ∧
      translation text' = some (some s2) ∧ List.Forall₂ HexByte s2 css.flatten ∧
      translation (text ++ '\n' :: text') = some (some s3) ∧ List.Forall₂ HexByte s3 (bss ++ dss).flatten ∧
      bss.length = p.length ∧ css.length = q.length ∧ dss.length = q.length ∧
      ∀ (i : Nat) (st : Stmt) (cs ds : List (BitVec 8)), q[i]? = some st → css[i]? = some cs → dss[i]? = some ds →
        (∀ l, st.arg ≠ .label l) ∧ ds = cs ∨
        ∃ op hi lo hi' lo', cs = [op, hi, lo] ∧ ds = [op, hi', lo'] ∧
          256 * hi'.toNat + lo'.toNat = sizeOf p + (256 * hi.toNat + lo.toNat) := by
  obtain ⟨s1, bss, e1, c1, f1⟩ := translation_code hp.source hp.some hp.valid hp.addresses hp.size
  obtain ⟨s2, css, e2, c2, f2⟩ := translation_code hq.source hq.some hq.valid hq.addresses hq.size
  have ha : LabelsAreAddresses (p ++ q) := by
    intro st hst l hl
    rcases List.mem_append.1 hst with h | h
    · exact hp.addresses st h l hl
    · exact hq.addresses st h l hl
  obtain ⟨s3, ess, e3, c3, f3⟩ := translation_code (source_append hp.source hq.source)
    (by simp [hp.some]) (valid_append hp.valid hq.valid) ha (by rw [sizeOf_append]; exact hsz)
  have hlen := c3.length_eq
  rw [List.length_append] at hlen
  have t1 : List.Forall₂ (StmtCode (p ++ q)) p (ess.take p.length) := by
    have := List.forall₂_take p.length c3
    rwa [List.take_left'] at this
    rfl
  have t2 : List.Forall₂ (StmtCode (p ++ q)) q (ess.drop p.length) := by
    have := List.forall₂_drop p.length c3
    rwa [List.drop_left'] at this
    rfl
  have al : List.Forall₂ (Alike p (p ++ q)) p p := by
    have := forall₂_map_right (R := Alike p (p ++ q)) (f := id) (l := p) fun st hst => by
      obtain ⟨v, hv⟩ := argIs_exists hp.valid hst
      refine ⟨rfl, v, hv, ?_⟩
      show ArgIs (p ++ q) st.arg v
      cases harg : st.arg with
      | none => trivial
      | num n => rw [harg] at hv; exact hv
      | label l => rw [harg] at hv; exact LabelAt.append hv q
    rwa [List.map_id] at this
  have kp := source_kinds hp.source
  have kq := source_kinds hq.source
  have eb : bss = ess.take p.length := code_alike p p al kp kp _ _ c1 t1
  have hq1 : css.length = q.length := c2.length_eq.symm
  refine ⟨s1, s2, s3, bss, css, ess.drop p.length, e1, f1, e2, f2, e3, ?_, c1.length_eq.symm, hq1,
    t2.length_eq.symm, ?_⟩
  · rw [eb, List.take_append_drop]; exact f3
  · intro i st cs ds h1 h2 h3
    obtain ⟨i1, j1⟩ := List.getElem?_eq_some_iff.1 h1
    obtain ⟨i2, j2⟩ := List.getElem?_eq_some_iff.1 h2
    obtain ⟨i3, j3⟩ := List.getElem?_eq_some_iff.1 h3
    have g2 := c2.get i1 i2
    have g3 := t2.get i1 i3
    simp only [List.get_eq_getElem] at g2 g3
    rw [j1, j2] at g2
    rw [j1, j3] at g3
    have hst : st ∈ q := List.mem_of_getElem? h1
    cases harg : st.arg with
    | label l =>
      right
      obtain ⟨op, rest, v, rfl, hd1, hv1, hm1⟩ := g2
      obtain ⟨op', rest', v', rfl, hd2, hv2, hm2⟩ := g3
      rw [hq.addresses st hst l harg] at hm1 hm2
      rw [harg] at hv1 hv2
      have : v' = sizeOf p + v := LabelAt.unique hv2 (labelAt_behind (hd st hst l harg) hv1)
      rw [decode_inj hd2 hd1, hm1.2, hm2.2]
      refine ⟨op, _, _, _, _, rfl, rfl, ?_⟩
      have a1 := hm1.1
      have a2 := hm2.1
      rw [BitVec.toNat_ofNat, BitVec.toNat_ofNat, BitVec.toNat_ofNat, BitVec.toNat_ofNat]
      omega
    | none =>
      left
      refine ⟨fun l e => (by cases e), ?_⟩
      exact stmtCode_alike (kq st hst) (kq st hst) (p := p ++ q) (q := q)
        ⟨rfl, 0, by rw [harg]; trivial, by rw [harg]; trivial⟩ g3 g2
    | num n =>
      left
      refine ⟨fun l e => (by cases e), ?_⟩
      exact stmtCode_alike (kq st hst) (kq st hst) (p := p ++ q) (q := q)
        ⟨rfl, n, by rw [harg]; rfl, by rw [harg]; rfl⟩ g3 g2

/-! ## Cases -/

theorem sample_right : Assembles sampleText sampleProg :=
  ⟨sample_source, by decide, by decide +kernel, by decide +kernel, by decide⟩

/-- The sample's new names, of which one is the beginning of the other. -/
def newName (l : Str) : Str := if l = "T2".toList then "T".toList else "T0".toList

/-- The sample with other names. -/
def renamedText : Str := "MOV 0, AC\nT INC AC\nCMP 05\nBEQ T0\nJMP T\nT0 FIN".toList

theorem renamed_source : Source renamedText (sampleProg.map (Stmt.rename newName)) :=
  source_of [(⟨none, .mov .imm .ac, .num 0⟩, "0".toList), (⟨some "T".toList, .inc .ac, .none⟩, []),
    (⟨none, .alu .cmp .imm, .num 5⟩, "05".toList), (⟨none, .beq, .label "T0".toList⟩, "T0".toList),
    (⟨none, .jmp, .label "T".toList⟩, "T".toList), (⟨some "T0".toList, .fin, .none⟩, [])]
    (by decide +kernel) (by decide +kernel) (by decide +kernel)

example : SameBytes sampleText renamedText :=
  C103_rename _ _ _ newName sample_right (by
    intro st hst st' hst' l l' h1 h2
    have k : ∀ x ∈ sampleProg, ∀ m, x.label = some m → m = "T1".toList ∨ m = "T2".toList := by
      intro x hx m hm
      simp only [sampleProg, List.mem_cons, List.not_mem_nil, or_false] at hx
      rcases hx with rfl | rfl | rfl | rfl | rfl | rfl <;> cases hm <;> simp
    rcases k st hst l h1 with rfl | rfl <;> rcases k st' hst' l' h2 with rfl | rfl <;> decide) renamed_source

/-- Two samples one after the other, with different labels: the second is moved by 12 bytes. -/
example : Assembles sampleText sampleProg ∧ Assembles "JMP TA\nTA FIN".toList
      [⟨none, .jmp, .label "TA".toList⟩, ⟨some "TA".toList, .fin, .none⟩] ∧
    translation (sampleText ++ '\n' :: "JMP TA\nTA FIN".toList) = some (some (["64", "00", "4B", "67", "05",
      "72", "00", "0B", "74", "00", "02", "FF", "74", "00", "0F", "FF"].map String.toList)) := by
  refine ⟨sample_right, ⟨source_of [(⟨none, .jmp, .label "TA".toList⟩, "TA".toList),
    (⟨some "TA".toList, .fin, .none⟩, [])] (by decide +kernel) (by decide +kernel) (by decide +kernel), by decide,
    by decide +kernel, by decide +kernel, by decide⟩, by decide +kernel⟩

/-- If the second uses a label of the first, it means the first statement with this label, so that its
bytes are not the moved ones: the condition is needed. -/
theorem C103_shared_wrong : translation "T1 JMP T1".toList = some (some (["74", "00", "00"].map String.toList)) ∧
    translation ("T1 FIN".toList ++ '\n' :: "T1 JMP T1".toList) =
      some (some (["FF", "74", "00", "00"].map String.toList)) := by
  constructor <;> decide +kernel

end Mpp.Front
