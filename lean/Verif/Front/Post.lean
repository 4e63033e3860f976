import Verif.Front.Text
/-!
# The second pass

`post` ends on everything the first pass produces, and on statements whose labels are defined it
replaces each label by the two bytes of its address.
-/
namespace Mpp.Front

/-! ## What the first pass produces, on any line at all -/

def Item.captures : Item → Bool
  | .lit _ => true
  | .word => true
  | _ => false

theorem takeWord_length {k : Str → Option (List Str)} {n : Nat}
    (hk : ∀ s caps, k s = some caps → caps.length = n) {p s : Str} {caps : List Str}
    (h : takeWord k p s = some caps) : caps.length = n + 1 := by
  induction s generalizing p with
  | nil => simp [takeWord] at h
  | cons c s ih =>
    rw [takeWord] at h
    split at h
    · rw [Option.or_eq_some_iff] at h
      rcases h with h | ⟨_, h⟩
      · exact ih h
      · cases h2 : k s with
        | none => simp [h2] at h
        | some l =>
          simp only [h2, Option.map_some, Option.some.injEq] at h
          subst h
          simp [hk s l h2]
    · simp at h

theorem matchHere_length {is : List Item} {s : Str} {caps : List Str}
    (h : matchHere is s = some caps) : caps.length = is.countP Item.captures := by
  induction is generalizing s caps with
  | nil =>
    rw [matchHere.eq_def] at h
    simp only at h
    split at h
    · simp at h; simp [h]
    · split at h <;> simp at h
      simp [h]
  | cons i is ih =>
    rw [matchHere.eq_def] at h
    cases i with
    | lit l =>
      simp only at h
      split at h
      · rename_i t r _
        cases h2 : matchHere is r with
        | none => simp [h2] at h
        | some x =>
          simp only [h2, Option.map_some, Option.some.injEq] at h
          subst h
          simp [List.countP_cons, ih h2, Item.captures]
      · simp at h
    | ws =>
      simp only at h
      split at h
      · split at h
        · simp [ih h, Item.captures]
        · simp at h
      · simp at h
    | comma =>
      simp only at h
      split at h
      · split at h
        · simp [ih h, Item.captures]
        · simp at h
      · simp at h
    | optWs =>
      simp only at h
      split at h
      · split at h
        · rw [Option.or_eq_some_iff] at h
          rcases h with h | ⟨_, h⟩ <;> simp [ih h, Item.captures]
        · simp [ih h, Item.captures]
      · simp [ih h, Item.captures]
    | word =>
      simp only at h
      rw [takeWord_length (fun s caps h => ih h) h]
      simp [List.countP_cons, Item.captures]

theorem searchFrom_length {is : List Item} {b : Bool} {s : Str} {caps : List Str}
    (h : searchFrom is b s = some caps) : caps.length = is.countP Item.captures := by
  induction s generalizing b with
  | nil =>
    rw [searchFrom] at h
    simp only [Option.or_none] at h
    split at h
    · exact matchHere_length h
    · simp at h
  | cons c s ih =>
    rw [searchFrom, Option.or_eq_some_iff] at h
    rcases h with h | ⟨_, h⟩
    · split at h
      · exact matchHere_length h
      · simp at h
    · exact ih h

theorem slot_captures (x : Slot) : x.item.captures = true := by cases x <;> rfl

theorem itemsOf_captures (m : Str) {sl : List Slot} (h : sl.length ≤ 2) :
    (itemsOf m sl).countP Item.captures = sl.length + 1 := by
  match sl, h with
  | [], _ => rfl
  | [x], _ => simp [itemsOf, List.countP_cons, slot_captures]; rfl
  | [x, y], _ => simp [itemsOf, List.countP_cons, slot_captures]; rfl
  | _ :: _ :: _ :: _, h => simp at h

/-- A row's pattern captures the mnemonic and each operand. -/
theorem Row.caps {r : Operation × BitVec 8 × Instr} (hr : r ∈ rows) {s : Str} {caps : List Str}
    (h : regexExec r.1.REGEX s = some caps) : caps.length = (syntaxOf r.2.2).2.length + 1 := by
  rw [regexExec, Row.regex hr, Option.bind_some] at h
  rw [searchFrom_length h, itemsOf_captures _ (Row.slots2 hr)]

/-- What `executeRegex` returns comes from some row. -/
theorem executeRegex_row {labels : List Str} {line : Str} {codes : List Str} {eti : Str}
    {op : Operation} (h : executeRegex labels line = some (codes, eti, op)) :
    ∃ r ∈ rows, op = r.1 ∧ (∃ caps, caps.length = (syntaxOf r.2.2).2.length + 1 ∧
      codes = translate labels r.1 caps) ∧ (eti = [] ∨ startsT eti = true) := by
  rw [executeRegex, ← rows_fst] at h
  have key : ∀ rs : List (Operation × BitVec 8 × Instr), (∀ r ∈ rs, r ∈ rows) →
      executeRegexFrom labels line (rs.map (·.1)) = some (codes, eti, op) →
      ∃ r ∈ rows, op = r.1 ∧ (∃ caps, caps.length = (syntaxOf r.2.2).2.length + 1 ∧
        codes = translate labels r.1 caps) ∧ (eti = [] ∨ startsT eti = true) := by
    intro rs
    induction rs with
    | nil => intro _ h; simp [executeRegexFrom] at h
    | cons r rs ih =>
      intro hrs h
      have hr := hrs r (by simp)
      have ih := ih fun x hx => hrs x (by simp [hx])
      rw [List.map_cons, executeRegexFrom] at h
      split at h
      · rename_i caps h1
        split at h
        · cases h
          exact ⟨r, hr, rfl, ⟨caps, Row.caps hr h1, rfl⟩, .inl rfl⟩
        · exact ih h
      · split at h
        · rename_i caps h1
          split at h
          · split at h
            · rename_i ht
              cases h
              exact ⟨r, hr, rfl, ⟨caps, Row.caps hr h1, rfl⟩, .inr ht⟩
            · simp at h
          · exact ih h
        · exact ih h
  exact key rows (fun _ h => h) h

/-- Two hexadecimal digits. -/
def TwoHex (s : Str) : Prop := s.length = 2 ∧ checkIsHex s = true

theorem HexByte.two {s : Str} {b : BitVec 8} (h : HexByte s b) : TwoHex s :=
  ⟨h.1, ((hexValue_iff _ _).1 h.2).1⟩

theorem TwoHex.byte {s : Str} (h : TwoHex s) : ∃ b, HexByte s b := by
  obtain ⟨n, hn⟩ := hexValue_exists h.2 (by rintro rfl; simp [TwoHex] at h)
  have := hn.lt
  rw [h.1] at this
  exact ⟨BitVec.ofNat 8 n, h.1, by rw [BitVec.toNat_ofNat, Nat.mod_eq_of_lt (by omega)]; exact hn⟩

/-- The codes of one line: the opcode alone, opcode and label, or opcode and operand bytes. -/
theorem codes_cases {r : Operation × BitVec 8 × Instr} (hr : r ∈ rows) {labels caps : List Str}
    (hl : caps.length = (syntaxOf r.2.2).2.length + 1) :
    translate labels r.1 caps = [] ∨
    (∃ l, translate labels r.1 caps = [r.1.HEX, l] ∧ l ∈ labels ∧ startsT l = true ∧
      kindOf r.2.2 ≠ .none) ∨
    (∃ bs, translate labels r.1 caps = r.1.HEX :: bs ∧ bs.length + 1 = r.2.2.size ∧
      ∀ b ∈ bs, TwoHex b) := by
  have size1 : kindOf r.2.2 = .none → r.2.2.size = 1 := by
    intro h
    obtain ⟨h1, h2⟩ := kind_size (i := r.2.2)
    cases hi : r.2.2 with
    | mov s d => cases s <;> simp_all [Instr.size, Operand.size]
    | alu o s => cases s <;> simp_all [Instr.size, Operand.size]
    | _ => simp_all [Instr.size]
  have opnd : ∀ w, kindOf r.2.2 ≠ .none → translateOperand labels r.1 w = [] ∨
      (∃ l, translateOperand labels r.1 w = [r.1.HEX, l] ∧ l ∈ labels ∧ startsT l = true ∧
        kindOf r.2.2 ≠ .none) ∨
      (∃ bs, translateOperand labels r.1 w = r.1.HEX :: bs ∧ bs.length + 1 = r.2.2.size ∧
        ∀ b ∈ bs, TwoHex b) := by
    intro w hk
    by_cases he : translateOperand labels r.1 w = []
    · exact .inl he
    right
    rcases translate_ne_nil he with h | ⟨n, h⟩
    · left
      rw [translate_label h] at he ⊢
      split at he
      · rename_i h2
        rw [if_pos h2]
        exact ⟨w, rfl, h2, h, hk⟩
      · exact absurd rfl he
    · right
      cases hk' : kindOf r.2.2 with
      | none => exact absurd hk' hk
      | byte =>
        rw [translate_byte hr hk' h] at he ⊢
        split at he
        · rename_i hn
          rw [if_pos hn]
          refine ⟨_, rfl, ?_, ?_⟩
          · rw [kind_size.1.1 hk']; rfl
          · intro b hb
            simp only [List.mem_singleton] at hb
            subst hb
            exact (pad2 hn).two
        · exact absurd rfl he
      | addr =>
        rw [translate_addr hr hk' h] at he ⊢
        split at he
        · rename_i hn
          rw [if_pos hn]
          refine ⟨_, rfl, ?_, ?_⟩
          · rw [kind_size.2.1 hk']; rfl
          · intro b hb
            simp only [List.mem_cons, List.not_mem_nil, or_false] at hb
            rcases hb with rfl | rfl
            · exact (pad4 hn).1.two
            · exact (pad4 hn).2.two
        · exact absurd rfl he
  have single : kindOf r.2.2 = .none → ∃ bs, [r.1.HEX] = r.1.HEX :: bs ∧ bs.length + 1 = r.2.2.size ∧
      ∀ b ∈ bs, TwoHex b := fun h => ⟨[], rfl, by rw [size1 h]; rfl, by simp⟩
  have hv := Row.value hr
  have hn := Row.noValue hr
  rcases slots_cases hr with ⟨hk, hs | ⟨n, hs⟩ | ⟨n, k, hs⟩⟩ | ⟨hk, hs | ⟨n, hs⟩⟩ | ⟨hk, hs⟩ <;>
    rw [hs] at hl
  · match caps, hl with
    | [a], _ => exact .inr (.inr (single hk))
  · match caps, hl with
    | [a, b], _ =>
      rw [translate, if_pos (by rcases hn with h | h | h <;> simp_all)]
      exact .inr (.inr (single hk))
  · match caps, hl with
    | [a, b, c], _ =>
      rw [translate, if_pos (by rcases hn with h | h | h <;> simp_all)]
      exact .inr (.inr (single hk))
  · match caps, hl with
    | [a, b], _ =>
      rw [translate, if_neg (by rcases hv with h | h <;> [simp_all; omega])]
      exact opnd b (by rw [hk]; simp)
  · match caps, hl with
    | [a, b, c], _ =>
      rw [translate, if_neg (by rcases hv with h | h <;> [simp_all; omega])]
      exact opnd b (by rw [hk]; simp)
  · match caps, hl with
    | [a, b], _ =>
      rw [translate, if_neg (by rcases hv with h | h <;> [simp_all; omega])]
      exact opnd b (by rw [hk]; simp)

/-! ## The loops of `post` -/

/-- Codes the loops can meet: everything after the first is hexadecimal, or there is one label. -/
def Shape (res : List Str) : Prop :=
  ∃ h t, res = h :: t ∧ ((∀ x ∈ t, checkIsHex x = true) ∨ ∃ l, t = [l] ∧ startsT l = true)

/-- All names in the list begin with `T`. -/
def AllT (pos : List (Str × Nat × Mark)) : Prop := ∀ e ∈ pos, startsT e.1 = true

theorem find_hex {pos : List (Str × Nat × Mark)} (hp : AllT pos) {x : Str}
    (h : checkIsHex x = true) : (pos.find? fun s => s.1 = x) = none := by
  rw [List.find?_eq_none]
  intro e he hx
  have h1 := hp e he
  rw [decide_eq_true_eq] at hx
  rw [hx, hex_not_T h] at h1
  simp at h1

theorem postInner_hex {pos : List (Str × Nat × Mark)} (hp : AllT pos) (i : Nat) (fuel j : Nat)
    (res : List Str) (live : Bool) (results : List Result)
    (hx : ∀ k x, j ≤ k → res[k]? = some x → checkIsHex x = true) (hf : res.length < fuel + j)
    (h0 : 0 < fuel) :
    postInner pos i fuel j res live results = some results := by
  induction fuel generalizing j with
  | zero => omega
  | succ fuel ih =>
    rw [postInner]
    cases h : res[j]? with
    | none => rfl
    | some x =>
      have := hx j x (Nat.le_refl _) h
      simp only
      rw [find_hex hp this]
      simp only
      rw [if_pos this]
      have hj : j < res.length := by
        rw [List.getElem?_eq_some_iff] at h
        exact h.1
      exact ih (j + 1) (fun k y hk => hx k y (by omega)) (by omega) (by omega)

theorem pieces_hex {s : Str} (h : checkIsHex s = true) : ∀ p ∈ pieces s, checkIsHex p = true := by
  match s with
  | [] => simp [pieces]
  | [c] => simp only [pieces, List.mem_singleton, forall_eq]; exact h
  | c :: d :: s =>
    simp only [checkIsHex, List.all_cons, Bool.and_eq_true] at h
    intro p hp
    rw [pieces] at hp
    rcases List.mem_cons.1 hp with rfl | hp
    · simp [checkIsHex, h]
    · exact pieces_hex h.2.2 p hp

theorem pieces_length (s : Str) : (pieces s).length ≤ s.length := by
  match s with
  | [] => simp [pieces]
  | [c] => simp [pieces]
  | c :: d :: s => have := pieces_length s; simp [pieces]; omega

theorem dirHex_hex (n : Nat) : checkIsHex (dirHex n) = true :=
  ((hexValue_iff _ _).1 ((toHex_upper n).pad 4)).1

theorem dirHex_length (n : Nat) : (dirHex n).length ≤ n + 4 := by
  have := toHex_length (n := n) (k := n + 1) (by omega) (Nat.lt_trans (Nat.lt_pow_self (by decide)) (Nat.pow_lt_pow_right (by decide) (by omega)))
  simp only [dirHex, padStart, List.length_append, List.length_replicate, List.length_map]
  omega

/-- Inner loop on `[h, l]` where `l` is a known label. -/
theorem postInner_label {pos : List (Str × Nat × Mark)} (hp : AllT pos) (i : Nat) {fuel : Nat}
    {h l : Str} {e : Str × Nat × Mark} (results : List Result)
    (hl : (pos.find? fun s => s.1 = l) = some e) (hf : e.2.1 + 6 < fuel) :
    postInner pos i fuel 1 [h, l] true results =
      some (results.modify i fun x => { x with result := h :: pieces (dirHex e.2.1) }) := by
  obtain ⟨fuel, rfl⟩ : ∃ f, fuel = f + 1 := ⟨fuel - 1, by omega⟩
  rw [postInner]
  simp only [List.getElem?_cons_succ, List.getElem?_cons_zero]
  rw [hl]
  simp only [List.eraseIdx_cons_succ, List.eraseIdx_cons_zero, if_true, List.singleton_append]
  apply postInner_hex hp
  · intro k x hk hx
    obtain ⟨k, rfl⟩ : ∃ m, k = m + 1 := ⟨k - 1, by omega⟩
    rw [List.getElem?_cons_succ] at hx
    exact pieces_hex (dirHex_hex _) x (List.mem_of_getElem? hx)
  · have h1 := pieces_length (dirHex e.2.1)
    have h2 := dirHex_length e.2.1
    simp only [List.length_cons]
    omega
  · omega

/-- Inner loop on `[h, l]` where `l` is an unknown label: the line is dropped. -/
theorem postInner_drop {pos : List (Str × Nat × Mark)} (i : Nat) {fuel : Nat}
    {h l : Str} (results : List Result)
    (hl : (pos.find? fun s => s.1 = l) = none) (ht : startsT l = true) (hf : 2 ≤ fuel) :
    postInner pos i fuel 1 [h, l] true results = some (results.eraseIdx i) := by
  obtain ⟨fuel, rfl⟩ : ∃ f, fuel = f + 2 := ⟨fuel - 2, by omega⟩
  have hx : checkIsHex l = false := by
    rw [Bool.eq_false_iff]
    intro h
    rw [hex_not_T h] at ht
    simp at ht
  rw [postInner]
  simp only [List.getElem?_cons_succ, List.getElem?_cons_zero]
  rw [hl]
  simp only [hx]
  rw [if_neg (by simp), postInner]
  simp

/-! ## `post` always ends -/

/-- Bound on the addresses in the list. -/
def Below (n : Nat) (pos : List (Str × Nat × Mark)) : Prop := ∀ e ∈ pos, e.2.1 ≤ n

theorem postInner_total {pos : List (Str × Nat × Mark)} (hp : AllT pos) {n fuel : Nat}
    (hb : Below n pos) (hf : n + 6 < fuel) {i : Nat} {results : List Result} {r : Result}
    (hs : Shape r.result) (h3 : r.result.length ≤ 3) :
    ∃ results', postInner pos i fuel 1 r.result true results = some results' ∧
      results'.length ≤ results.length ∧
      ∀ k, i + 1 ≤ k → ∀ x, results'[k]? = some x → ∃ k', i + 1 ≤ k' ∧ results[k']? = some x := by
  obtain ⟨h, t, e, ht | ⟨l, rfl, hl⟩⟩ := hs
  · refine ⟨results, ?_, Nat.le_refl _, fun k hk x hx => ⟨k, hk, hx⟩⟩
    apply postInner_hex hp
    · intro k x hk hx
      rw [e] at hx
      obtain ⟨k, rfl⟩ : ∃ m, k = m + 1 := ⟨k - 1, by omega⟩
      exact ht x (List.mem_of_getElem? hx)
    · omega
    · omega
  · rw [e]
    cases hfi : pos.find? fun s => s.1 = l with
    | some e' =>
      have := hb e' (List.mem_of_find?_eq_some hfi)
      refine ⟨_, postInner_label hp i results hfi (by omega), by simp, ?_⟩
      intro k hk x hx
      rw [List.getElem?_modify] at hx
      simp only [show ¬ i = k by omega, if_false] at hx
      exact ⟨k, hk, by simpa using hx⟩
    | none =>
      refine ⟨_, postInner_drop i results hfi hl (by omega), List.length_eraseIdx_le .., ?_⟩
      intro k hk x hx
      rw [List.getElem?_eraseIdx] at hx
      split at hx
      · omega
      · exact ⟨k + 1, by omega, hx⟩

theorem postOuter_total {pos : List (Str × Nat × Mark)} (hp : AllT pos) {m fuel : Nat}
    (hb : Below m pos) (hf : m + 6 < fuel) (n i : Nat) (results : List Result)
    (hs : ∀ k, i ≤ k → ∀ x, results[k]? = some x → Shape x.result ∧ x.result.length ≤ 3)
    (hn : results.length < n + i) (h0 : 0 < n) : (postOuter pos fuel n i results).isSome = true := by
  induction n generalizing i results with
  | zero => omega
  | succ n ih =>
    rw [postOuter]
    cases hr : results[i]? with
    | none => rfl
    | some r =>
      have hi : i < results.length := by
        rw [List.getElem?_eq_some_iff] at hr
        exact hr.1
      obtain ⟨h1, h2⟩ := hs i (Nat.le_refl _) r hr
      obtain ⟨rs, h3, h4, h5⟩ := postInner_total (i := i) (results := results) hp hb hf h1 h2
      simp only
      rw [h3]
      refine ih (i + 1) rs ?_ (by omega) (by omega)
      intro k hk x hx
      obtain ⟨k', hk', hx'⟩ := h5 k hk x hx
      exact hs k' (by omega) x hx'

theorem etiPos_below (dir : Nat) (results : List Result) :
    Below (dir + (results.map (·.instruction.ALLOC)).sum) (etiPos dir results) := by
  induction results generalizing dir with
  | nil => intro e he; simp [etiPos] at he
  | cons r rs ih =>
    intro e he
    rw [etiPos] at he
    have key : ∀ e ∈ etiPos (dir + r.instruction.ALLOC) rs,
        e.2.1 ≤ dir + ((r :: rs).map (·.instruction.ALLOC)).sum := by
      intro e he
      have := ih _ e he
      simp only [List.map_cons, List.sum_cons]
      omega
    split at he
    · exact key e he
    · rcases List.mem_cons.1 he with rfl | he
      · simp
      · exact key e he

theorem etiPos_allT {results : List Result} (h : ∀ r ∈ results, r.eti = [] ∨ startsT r.eti = true)
    (dir : Nat) : AllT (etiPos dir results) := by
  induction results generalizing dir with
  | nil => intro e he; simp [etiPos] at he
  | cons r rs ih =>
    intro e he
    have ih := ih fun x hx => h x (by simp [hx])
    rw [etiPos] at he
    split at he
    · exact ih _ e he
    · rename_i hne
      rcases List.mem_cons.1 he with rfl | he
      · exact (h r (by simp)).resolve_left hne
      · exact ih _ e he

/-- What the first pass guarantees about each result, on any text. -/
def FirstPass (x : Result) : Prop :=
  Shape x.result ∧ x.result.length ≤ 3 ∧ (x.eti = [] ∨ startsT x.eti = true)

theorem parseLines_first (labels : List Str) (i : Nat) (lines : List Str) :
    ∀ x ∈ (parseLines labels i lines).2, FirstPass x := by
  induction lines generalizing i with
  | nil => simp [parseLines]
  | cons l ls ih =>
    rw [parseLines]
    split
    · exact ih _
    · split
      · exact ih _
      · rename_i codes eti op he
        split
        · exact ih _
        · rename_i hc
          intro x hx
          rcases List.mem_cons.1 hx with rfl | hx
          · obtain ⟨r, hr, rfl, ⟨caps, hl, rfl⟩, ht⟩ := executeRegex_row he
            have size3 : r.2.2.size ≤ 3 := by
              cases r.2.2 with
              | mov s d => cases s <;> simp [Instr.size, Operand.size]
              | alu o s => cases s <;> simp [Instr.size, Operand.size]
              | _ => simp [Instr.size]
            rcases codes_cases hr (labels := labels) hl with h | ⟨l, h, _, h2, _⟩ | ⟨bs, h, h2, h3⟩
            · exact absurd h hc
            · refine ⟨⟨r.1.HEX, [l], h, .inr ⟨l, rfl, h2⟩⟩, ?_, ht⟩
              simp [h]
            · refine ⟨⟨r.1.HEX, bs, h, .inl fun b hb => (h3 b hb).2⟩, ?_, ht⟩
              simp [h]
              omega
          · exact ih _ x hx

/-- `post` ends. -/
theorem post_total {results : List Result} (h : ∀ x ∈ results, FirstPass x) (dir : Nat) :
    (post results dir).isSome = true := by
  unfold post
  apply postOuter_total (etiPos_allT (fun r hr => (h r hr).2.2) dir) (etiPos_below dir results)
  · omega
  · intro k _ x hx
    have := h x (List.mem_of_getElem? hx)
    exact ⟨this.1, this.2.1⟩
  · omega
  · omega

/-- `parseInput` returns, for every text. -/
theorem parseInput_total (text : Str) (dir : Nat) : (parseInput text dir).isSome = true := by
  unfold parseInput
  simp only
  rw [Option.isSome_map]
  exact post_total (parseLines_first _ _ _) dir

end Mpp.Front
