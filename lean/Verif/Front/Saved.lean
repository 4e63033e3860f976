import Verif.Front.Coder
import Verif.Front.Shown
/-!
# Saving a program to memory
-/
namespace Mpp.Front

/-! ## The drawer -/

theorem translation_total (text : Str) : (translation text).isSome := by
  unfold translation
  rw [Option.isSome_map]
  exact parseInput_total text 0

/-- Always true of the drawer. -/
structure Editor.Fine (e : Editor) : Prop where
  lo : 0 ≤ e.offset
  hi : e.offset ≤ 65535
  fits : e.canSave = true → e.offset + e.slots.length ≤ 65536
  shown : e.offsetValid = true → e.shownOffset = e.offset
  origin : e.slots = [] ∨ ∃ text, translation text = some (some e.slots)

theorem Editor.fine_start : Editor.start.Fine :=
  ⟨by decide, by decide, by decide, fun _ => rfl, .inl rfl⟩

theorem Editor.check_fits (e : Editor) (h : e.check.canSave = true) :
    e.offset + e.slots.length ≤ 65536 := by
  simp only [Editor.check, decide_eq_true_eq] at h
  omega

theorem Editor.Fine.act {e e' : Editor} (h : e.Fine) {a : Action} (ha : e.act a = some e') : e'.Fine := by
  cases a with
  | code text =>
    simp only [Editor.act, Option.map_eq_some_iff] at ha
    obtain ⟨t, ht, rfl⟩ := ha
    cases t with
    | none => exact ⟨h.lo, h.hi, by simp [Editor.newTranslation], h.shown, h.origin⟩
    | some lines =>
      refine ⟨h.lo, h.hi, ?_, h.shown, .inr ⟨text, ht⟩⟩
      exact Editor.check_fits { e with canSave := true, slots := lines }
  | offset n =>
    simp only [Editor.act, Option.some.injEq] at ha
    subst ha
    split
    · rename_i hv
      simp only [decide_eq_true_eq, not_or, Int.not_lt] at hv
      unfold Editor.newOffset
      split
      · rename_i hn
        exact ⟨h.lo, h.hi, h.fits, fun _ => hn, h.origin⟩
      · exact ⟨hv.1, by have := hv.2; show n ≤ 65535; omega,
          Editor.check_fits { e with offset := n }, fun _ => rfl, h.origin⟩
    · rename_i hv
      exact ⟨h.lo, h.hi, h.fits, fun hc => absurd hc hv, h.origin⟩

theorem Editor.Fine.acts {e e' : Editor} (h : e.Fine) {as : List Action} (ha : e.acts as = some e') :
    e'.Fine := by
  induction as generalizing e with
  | nil => cases ha; exact h
  | cons a as ih =>
    simp only [Editor.acts, Option.bind_eq_some_iff] at ha
    obtain ⟨e1, h1, h2⟩ := ha
    exact ih (h.act h1) h2

theorem Editor.act_total (e : Editor) (a : Action) : ∃ e', e.act a = some e' := by
  cases a with
  | code text =>
    obtain ⟨t, ht⟩ := Option.isSome_iff_exists.1 (translation_total text)
    exact ⟨_, by rw [Editor.act, ht]; rfl⟩
  | offset n => exact ⟨_, rfl⟩

theorem Editor.acts_total (e : Editor) (as : List Action) : ∃ e', e.acts as = some e' := by
  induction as generalizing e with
  | nil => exact ⟨e, rfl⟩
  | cons a as ih =>
    obtain ⟨e1, h1⟩ := e.act_total a
    obtain ⟨e2, h2⟩ := ih e1
    exact ⟨e2, by rw [Editor.acts, h1]; exact h2⟩

/-! ## The calls -/

/-- `m'` is `m` with `bs` written from `a` on. -/
structure Written (m : BitVec 16 → BitVec 8) (a : Nat) (bs : List (BitVec 8))
    (m' : BitVec 16 → BitVec 8) : Prop where
  here : ∀ k b, bs[k]? = some b → m' (BitVec.ofNat 16 (a + k)) = b
  elsewhere : ∀ i : BitVec 16, i.toNat < a ∨ a + bs.length ≤ i.toNat → m' i = m i

/-- A slot is taken for the byte `b`. -/
def SlotIs (s : Str) (b : BitVec 8) : Prop := slotValue s = b.setWidth 32

theorem HexByte.slot {s : Str} {b : BitVec 8} (h : HexByte s b) : SlotIs s b := by
  unfold SlotIs slotValue
  rw [((hexValue_iff _ _).1 h.2).2]
  apply BitVec.eq_of_toNat_eq
  simp

theorem saveFrom_ready {slots : List Str} {bs : List (BitVec 8)} (hb : List.Forall₂ SlotIs slots bs)
    {o : Int} (ho : 0 ≤ o) {i : Nat} (hi : o + i + slots.length ≤ 65536) {h : H} {p : P}
    (r : Ready h p) :
    ∃ vs h' m, execAll (saveFrom o i slots) h = some (vs, h') ∧ Ready h' { p with mem := m } ∧
      Written p.mem (o.toNat + i) bs m := by
  induction hb generalizing i h p with
  | nil => exact ⟨[], h, p.mem, rfl, r, ⟨by simp, by simp⟩⟩
  | @cons s b slots bs h1 h2 ih =>
    rw [List.length_cons] at hi
    obtain ⟨h1', e1, r1⟩ := r.setMem (BitVec.ofNat 16 (o.toNat + i)) b
    have ea : (BitVec.ofNat 16 (o.toNat + i)).setWidth 32 = BitVec.ofInt 32 (o + i) := by
      have : o + i = ((o.toNat + i : Nat) : Int) := by omega
      rw [this, BitVec.ofInt_natCast]
      apply BitVec.eq_of_toNat_eq
      simp
      omega
    rw [ea, ← show slotValue s = b.setWidth 32 from h1] at e1
    obtain ⟨vs, h', m, e2, r2, w⟩ := ih (i := i + 1) (by omega) r1
    refine ⟨0 :: vs, h', m, ?_, r2, ?_, ?_⟩
    · simp only [saveFrom, execAll, e1, Option.bind_some, e2, Option.map_some]
    · intro k c hk
      cases k with
      | zero =>
        simp only [List.getElem?_cons_zero, Option.some.injEq] at hk
        rw [Nat.add_zero, w.elsewhere]
        · simp [P.store, hk]
        · left
          simp
          omega
      | succ k =>
        have := w.here k c (by simpa using hk)
        rw [← this]
        congr 2
        omega
    · intro j hj
      rw [List.length_cons] at hj
      rw [w.elsewhere j (by omega)]
      have : j ≠ BitVec.ofNat 16 (o.toNat + i) := by
        rintro rfl
        have hl : (BitVec.ofNat 16 (o.toNat + i)).toNat = o.toNat + i := by simp; omega
        rw [hl] at hj
        omega
      simp [P.store, this]

theorem reset_ready {ph : Phase} {h : H} (r : Reach ph h) (on : ph.on = true) (ui : ph.ui = true)
    {p : P} (s : Shows h p) : ∃ h', exec .resetControl h = some (0, h') ∧ Ready h' p := by
  obtain ⟨a, o⟩ := r.on on
  obtain ⟨h1, e1, o1, s1, _⟩ := o.reset
  have hp : a.view.prog = p := o.at.shows.unique s
  refine ⟨h1, e1, ph, r.step (c := .resetControl) on e1, on, ui, o1.getNextState, ?_⟩
  have := o1.at.shows
  rw [← hp]
  exact this

/-! ## What the slots can be, for any text -/

/-- At most two hexadecimal digits, or something that begins with `T`; no newline. -/
def Small (s : Str) : Prop :=
  '\n' ∉ s ∧ ((checkIsHex s = true ∧ s.length ≤ 2) ∨ startsT s = true)

theorem hex_noNl {s : Str} (h : checkIsHex s = true) : '\n' ∉ s := by
  intro hm
  have := List.all_eq_true.1 h _ hm
  revert this
  decide

theorem TwoHex.small {s : Str} (h : TwoHex s) : Small s :=
  ⟨hex_noNl h.2, .inl ⟨h.2, by rw [h.1]; decide⟩⟩

theorem pieces_le (s : Str) : ∀ p ∈ pieces s, p.length ≤ 2 := by
  match s with
  | [] => simp [pieces]
  | [c] => simp [pieces]
  | c :: d :: s =>
    intro p hp
    rw [pieces] at hp
    rcases List.mem_cons.1 hp with rfl | hp
    · simp
    · exact pieces_le s p hp

theorem pieces_small {s : Str} (h : checkIsHex s = true) : ∀ p ∈ pieces s, Small p := fun p hp =>
  ⟨hex_noNl (pieces_hex h p hp), .inl ⟨pieces_hex h p hp, pieces_le s p hp⟩⟩

def AllSmall (results : List Result) : Prop := ∀ x ∈ results, ∀ y ∈ x.result, Small y

theorem postInner_small {pos : List (Str × Nat × Mark)} {i fuel j : Nat} {res : List Str} {live : Bool}
    {results results' : List Result} (hr : ∀ y ∈ res, Small y) (h : AllSmall results)
    (e : postInner pos i fuel j res live results = some results') : AllSmall results' := by
  induction fuel generalizing j res live results with
  | zero => simp [postInner] at e
  | succ fuel ih =>
    rw [postInner] at e
    split at e
    · cases e; exact h
    · split at e
      · rename_i eti _
        have hr' : ∀ y ∈ res.eraseIdx j ++ pieces (dirHex eti.2.1), Small y := by
          intro y hy
          rcases List.mem_append.1 hy with hy | hy
          · exact hr y (List.mem_of_mem_eraseIdx hy)
          · exact pieces_small (dirHex_hex _) y hy
        refine ih hr' ?_ e
        split
        · intro x hx
          obtain ⟨k, hk⟩ := List.mem_iff_getElem?.1 hx
          rw [List.getElem?_modify] at hk
          cases hg : results[k]? with
          | none => rw [hg] at hk; simp at hk
          | some z =>
            rw [hg] at hk
            simp only [Option.map_eq_map, Option.map_some, Option.some.injEq] at hk
            split at hk
            · rw [← hk]
              exact hr'
            · rw [← hk]
              exact h z (List.mem_of_getElem? hg)
        · exact h
      · split at e
        · exact ih hr h e
        · exact ih hr (fun x hx => h x (List.mem_of_mem_eraseIdx hx)) e

theorem postOuter_small {pos : List (Str × Nat × Mark)} {fuel n i : Nat}
    {results results' : List Result} (h : AllSmall results)
    (e : postOuter pos fuel n i results = some results') : AllSmall results' := by
  induction n generalizing i results with
  | zero => simp [postOuter] at e
  | succ n ih =>
    rw [postOuter] at e
    split at e
    · cases e; exact h
    · rename_i r hr
      split at e
      · simp at e
      · rename_i rs hrs
        exact ih (postInner_small (h r (List.mem_of_getElem? hr)) h hrs) e

theorem pre_noNl {lines : List Str} (h : ∀ l ∈ lines, '\n' ∉ l) : ∀ l ∈ pre lines, '\n' ∉ l := by
  intro l hl
  obtain ⟨line, h1, rfl, _⟩ := mem_pre.1 hl
  intro hm
  apply h line h1
  rcases words_cases line with ⟨_, e, _⟩ | ⟨e, _⟩
  · rwa [e] at hm
  · rw [e]
    simp [hm]

theorem parseLines_small {labels : List Str} (hlab : ∀ l ∈ labels, '\n' ∉ l) (i : Nat)
    (lines : List Str) : AllSmall (parseLines labels i lines).2 := by
  induction lines generalizing i with
  | nil => intro x hx; simp [parseLines] at hx
  | cons l ls ih =>
    rw [parseLines]
    split
    · exact ih _
    · split
      · exact ih _
      · rename_i codes eti op he
        split
        · exact ih _
        · rename_i hc
          intro x hx
          rcases List.mem_cons.1 hx with rfl | hx
          · obtain ⟨r, hr, rfl, ⟨caps, hl, rfl⟩, ht⟩ := executeRegex_row he
            have hex : Small r.1.HEX := TwoHex.small ⟨Row.hexLen hr, Row.isHex hr⟩
            simp only
            rcases codes_cases hr (labels := labels) hl with h | ⟨l, h, h1, h2, _⟩ | ⟨bs, h, h2, h3⟩
            · exact absurd h hc
            · rw [h]
              intro y hy
              simp only [List.mem_cons, List.not_mem_nil, or_false] at hy
              rcases hy with rfl | rfl
              · exact hex
              · exact ⟨hlab _ h1, .inr h2⟩
            · rw [h]
              intro y hy
              rcases List.mem_cons.1 hy with rfl | hy
              · exact hex
              · exact (h3 y hy).small
          · exact ih _ x hx

theorem split_join_join {c : Char} {xss : List (List Str)} (h : ∀ xs ∈ xss, ∀ x ∈ xs, c ∉ x) :
    ∀ w ∈ split c (join c (xss.map (join c))), w = [] ∨ ∃ xs ∈ xss, w ∈ xs := by
  let f : List Str → List Str := fun xs => if xs = [] then [[]] else xs
  have e : xss.map (join c) = (xss.map f).map (join c) := by
    rw [List.map_map]
    apply List.map_congr_left
    intro xs _
    simp only [Function.comp, f]
    split
    · rename_i h; rw [h]; rfl
    · rfl
  have hne : ∀ ys ∈ xss.map f, ys ≠ [] := by
    intro ys hy
    obtain ⟨xs, _, rfl⟩ := List.mem_map.1 hy
    simp only [f]
    split
    · simp
    · assumption
  have hmem : ∀ w ∈ (xss.map f).flatten, w = [] ∨ ∃ xs ∈ xss, w ∈ xs := by
    intro w hw
    obtain ⟨ys, hy, hw⟩ := List.mem_flatten.1 hw
    obtain ⟨xs, hx, rfl⟩ := List.mem_map.1 hy
    simp only [f] at hw
    split at hw
    · left; simpa using hw
    · exact .inr ⟨xs, hx, hw⟩
  rw [e, join_flatten hne]
  by_cases h0 : (xss.map f).flatten = []
  · rw [h0]
    intro w hw
    left
    simpa [join, split] using hw
  · rw [split_join h0]
    · exact hmem
    · intro w hw
      rcases hmem w hw with rfl | ⟨xs, hx, hw⟩
      · simp
      · exact h xs hx w hw

theorem Small.slot {s : Str} (h : s = [] ∨ Small s) : ∃ b, SlotIs s b := by
  have key : ∀ n, n < 256 → (parseHex s).getD 0 = n → ∃ b, SlotIs s b := by
    intro n hn e
    refine ⟨BitVec.ofNat 8 n, ?_⟩
    unfold SlotIs slotValue
    rw [e]
    apply BitVec.eq_of_toNat_eq
    simp
    omega
  rcases h with rfl | ⟨_, ⟨h1, h2⟩ | h⟩
  · exact key 0 (by decide) rfl
  · cases hp : parseHex s with
    | none => exact key 0 (by decide) (by rw [hp]; rfl)
    | some n =>
      refine key n ?_ (by rw [hp]; rfl)
      have := ((hexValue_iff _ _).2 ⟨h1, hp⟩).lt
      have h3 : 16 ^ s.length ≤ 16 ^ 2 := Nat.pow_le_pow_right (by decide) h2
      omega
  · apply key 0 (by decide)
    cases s with
    | nil => rfl
    | cons c s =>
      simp only [startsT, List.head?_cons, beq_iff_eq, Option.some.injEq] at h
      subst h
      rfl

/-- Whatever the text, every slot is taken for a byte. -/
theorem translation_bytes {text : Str} {slots : List Str} (h : translation text = some (some slots)) :
    ∃ bs, List.Forall₂ SlotIs slots bs := by
  unfold translation at h
  simp only [Option.map_eq_some_iff] at h
  obtain ⟨out, h1, h2⟩ := h
  split at h2
  · simp at h2
  · simp only [Option.some.injEq] at h2
    unfold parseInput at h1
    simp only [Option.map_eq_some_iff] at h1
    obtain ⟨rs, h3, rfl⟩ := h1
    have hs : AllSmall rs := postOuter_small (parseLines_small (pre_noNl (by
      intro l hl
      rw [cleanLines_eq] at hl
      obtain ⟨l', hl', rfl⟩ := List.mem_map.1 hl
      exact clean_noNl (split_noSep _ _ _ hl'))) 0 _) h3
    have hm := split_join_join (c := '\n') (xss := rs.map Result.result) (by
      intro xs hx y hy
      obtain ⟨x, hx', rfl⟩ := List.mem_map.1 hx
      exact (hs x hx' y hy).1)
    rw [List.map_map] at hm
    have hall : ∀ w ∈ slots, ∃ b, SlotIs w b := by
      intro w hw
      rw [← h2] at hw
      apply Small.slot
      rcases hm w hw with h | ⟨xs, hx, hw⟩
      · exact .inl h
      · obtain ⟨x, hx', rfl⟩ := List.mem_map.1 hx
        exact .inr (hs x hx' w hw)
    clear hm h2 h3 hs
    induction slots with
    | nil => exact ⟨[], .nil⟩
    | cons w ws ih =>
      obtain ⟨b, hb⟩ := hall w (by simp)
      obtain ⟨bs, hbs⟩ := ih fun x hx => hall x (by simp [hx])
      exact ⟨b :: bs, .cons hb hbs⟩

/-! ## A program that fits -/

theorem pieces_len (s : Str) : s.length ≤ 2 * (pieces s).length := by
  match s with
  | [] => simp
  | [c] => simp [pieces]
  | c :: d :: s => have := pieces_len s; simp [pieces]; omega

theorem dirHex_len (n : Nat) : 4 ≤ (dirHex n).length := by
  simp only [dirHex, padStart, List.length_append, List.length_replicate]
  omega

theorem split_length (c : Char) (s : Str) : (split c s).length = s.count c + 1 := by
  induction s with
  | nil => rfl
  | cons x s ih =>
    rw [split]
    split
    · rename_i h
      subst h
      simp [ih]
    · rename_i h
      have hc : (x :: s).count c = s.count c := List.count_cons_of_ne h
      rw [hc, ← ih]
      cases hs : split c s with
      | nil => rw [hs] at ih; simp at ih
      | cons w ws => simp

theorem join_count (c : Char) (ws : List Str) : ws.length ≤ (join c ws).count c + 1 := by
  induction ws with
  | nil => simp
  | cons w ws ih =>
    cases ws with
    | nil => simp
    | cons v vs =>
      rw [join, List.count_append, List.count_cons_self, List.length_cons]
      · omega
      · simp

theorem Instr.size_le (i : Instr) : i.size ≤ 3 := by
  have h : ∀ o : Operand, o.size ≤ 1 := by intro o; cases o <;> simp [Operand.size]
  cases i <;> simp [Instr.size]
  · have := h ‹Operand›; omega
  · have := h ‹Operand›; omega

theorem Instr.size_one {i : Instr} (h : kindOf i = .none) : i.size = 1 := by
  have h1 : i.size ≠ 2 := fun e => by rw [kind_size.1.2 e] at h; simp at h
  have h2 : i.size ≠ 3 := fun e => by rw [kind_size.2.2 e] at h; simp at h
  have h3 := Instr.size_le i
  have := Instr.size_pos i
  omega

theorem settle_length (pos : List (Str × Nat × Mark)) (x : Result) :
    x.result.length ≤ (settle pos x).result.length := by
  unfold settle
  split
  · rename_i h l e
    split
    · rename_i p _
      have h1 := pieces_len (dirHex p.2.1)
      have h2 := dirHex_len p.2.1
      rw [e]
      simp
      omega
    · exact Nat.le_refl _
  · exact Nat.le_refl _

theorem Kept.length {labels : List Str} {results : List Result} {prog : List Stmt}
    (h : List.Forall₂ (Kept labels) results prog) (hv : Valid prog) (d : Nat) {x : Result}
    {st : Stmt} (hst : st ∈ prog) (hk : Kept labels x st) :
    st.instr.size ≤ (settle (etiPos d results) x).result.length := by
  obtain ⟨⟨r, hr, e1, e2, hc⟩, hne, -, -, harg, hkn⟩ := hk
  have hg := hc.ne_nil.1 hne
  have hle := settle_length (etiPos d results) x
  rw [← e1] at hkn ⊢
  cases harg' : st.arg with
  | none =>
    rw [harg'] at hc
    have hc : x.result = [r.1.HEX] := hc
    rw [Instr.size_one (hkn harg')]
    rw [hc] at hle
    simpa using hle
  | num n =>
    rw [harg'] at hc hg
    simp only [Good] at hg
    simp only [Codes] at hc
    rw [if_pos hg] at hc
    cases hkind : kindOf r.2.2 with
    | none => rw [hkind] at hc; exact hc.elim
    | byte =>
      rw [hkind] at hc
      obtain ⟨y, e, hy⟩ := hc
      rw [kind_size.1.1 hkind]
      rw [e] at hle
      simpa using hle
    | addr =>
      rw [hkind] at hc
      obtain ⟨y, z, e, hy, hz⟩ := hc
      rw [kind_size.2.1 hkind]
      rw [e] at hle
      simpa using hle
  | label l =>
    have hlab := harg l harg'
    have hl0 : l ≠ [] := by rintro rfl; simp [IsLabel] at hlab
    have hdef : ∃ s ∈ prog, s.label = some l := by
      have := hv st hst
      rw [harg'] at this
      exact this
    obtain ⟨e, a, h1, h2, h3⟩ := etiPos_find h hl0 d hdef
    rw [harg'] at hc hg
    have hc : x.result = if l ∈ labels then [r.1.HEX, l] else [] := hc
    rw [if_pos (show l ∈ labels from hg)] at hc
    have h4 := pieces_len (dirHex e.2.1)
    have h5 := dirHex_len e.2.1
    have h6 := Instr.size_le r.2.2
    unfold settle
    rw [hc]
    simp only
    rw [h1]
    simp
    omega

/-- The slots are at least as many as the bytes the label arithmetic counts. -/
theorem translation_size {text : Str} {prog : List Stmt} (hs : Source text prog) (hv : Valid prog)
    {slots : List Str} (h : translation text = some (some slots)) : sizeOf prog ≤ slots.length := by
  obtain ⟨labels, results, hk, hp⟩ := parseInput_ok hs hv 0
  unfold translation at h
  rw [hp] at h
  simp only [Option.map_some, Option.some.injEq] at h
  split at h
  · simp at h
  · simp only [Option.some.injEq] at h
    rw [← h, split_length, List.map_map]
    have hne1 : ∀ xs ∈ results.map fun x => (settle (etiPos 0 results) x).result, xs ≠ [] := by
      intro xs hx
      obtain ⟨x, hm, rfl⟩ := List.mem_map.1 hx
      obtain ⟨st, hst, hkk⟩ := Forall₂.of_left hk hm
      obtain ⟨_, r, _, t, e⟩ := Kept.settles hk hv 0 hst hkk
      rw [e]
      simp
    have e := join_flatten (c := '\n') hne1
    rw [List.map_map] at e
    have e' : join '\n' (results.map ((fun r : Result => join '\n' r.result) ∘ settle (etiPos 0 results))) =
        join '\n' (results.map fun x => (settle (etiPos 0 results) x).result).flatten := e
    rw [e']
    refine Nat.le_trans ?_ (join_count _ _)
    have key : ∀ rs ps, List.Forall₂ (Kept labels) rs ps → (∀ st ∈ ps, st ∈ prog) →
        sizeOf ps ≤ (rs.map fun x => (settle (etiPos 0 results) x).result).flatten.length := by
      intro rs ps h hm
      induction h with
      | nil => simp [sizeOf]
      | cons h1 _ ih =>
        have h2 := Kept.length hk hv 0 (hm _ (by simp)) h1
        have h3 := ih fun st hst => hm st (by simp [hst])
        simp only [sizeOf, List.map_cons, List.sum_cons, List.flatten_cons, List.length_append] at h3 ⊢
        omega
    exact key results prog hk fun _ h => h

end Mpp.Front
