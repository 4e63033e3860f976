import Verif.Front.Link
import Verif.Props.Docs
/-!
# Properties C68 and C69: code in links and in files arrives unchanged
-/
namespace Mpp.Front

/-! ## UTF-8 -/

theorem char_range (c : Char) : c.toNat < 0xD800 ∨ (0xDFFF < c.toNat ∧ c.toNat < 0x110000) := by
  have h := c.valid
  simp only [UInt32.isValidChar, Nat.isValidChar] at h
  exact h

theorem utf8Char_lt (c : Char) : ∀ b ∈ utf8Char c, b < 256 := by
  have h := char_range c
  unfold utf8Char
  simp only
  intro b hb
  split at hb
  · simp at hb; omega
  · split at hb
    · simp at hb; omega
    · split at hb
      · simp at hb; omega
      · simp at hb; omega

theorem utf8_lt (s : Str) : ∀ b ∈ utf8 s, b < 256 := by
  intro b hb
  obtain ⟨c, _, hc⟩ := List.mem_flatMap.1 hb
  exact utf8Char_lt c b hc

theorem ofNat_self (c : Char) {n : Nat} (h : n = c.toNat) : Char.ofNat n = c := by
  rw [h]; exact Char.ofNat_toNat c

theorem utf8Decode_char (c : Char) (bs : List Nat) :
    utf8Decode .start (utf8Char c ++ bs) = c :: utf8Decode .start bs := by
  have hr := char_range c
  unfold utf8Char
  simp only
  by_cases h1 : c.toNat < 0x80
  · rw [if_pos h1]
    simp only [List.cons_append, List.nil_append, utf8Decode, utf8Step, Utf8.start, utf8First, if_true,
      if_pos h1, Char.ofNat_toNat]
  rw [if_neg h1]
  by_cases h2 : c.toNat < 0x800
  · rw [if_pos h2]
    have a1 : ¬ (0xC0 + c.toNat / 64 < 0x80) := by omega
    have a2 : 0xC2 ≤ 0xC0 + c.toNat / 64 ∧ 0xC0 + c.toNat / 64 ≤ 0xDF := by omega
    have a3 : ¬ (0x80 + c.toNat % 64 < 0x80 ∨ 0xBF < 0x80 + c.toNat % 64) := by omega
    simp only [List.cons_append, List.nil_append, utf8Decode, utf8Step, Utf8.start, utf8First, if_true,
      if_neg a1, if_pos a2, if_neg a3, Nat.succ_ne_self, if_false]
    rw [ofNat_self c (by omega)]
  rw [if_neg h2]
  by_cases h3 : c.toNat < 0x10000
  · rw [if_pos h3]
    have a1 : ¬ (0xE0 + c.toNat / 4096 < 0x80) := by omega
    have a2 : ¬ (0xC2 ≤ 0xE0 + c.toNat / 4096 ∧ 0xE0 + c.toNat / 4096 ≤ 0xDF) := by omega
    have a3 : 0xE0 ≤ 0xE0 + c.toNat / 4096 ∧ 0xE0 + c.toNat / 4096 ≤ 0xEF := by omega
    have a4 : ¬ (0x80 + c.toNat / 64 % 64 < (if 0xE0 + c.toNat / 4096 = 0xE0 then 0xA0 else 0x80) ∨
        (if 0xE0 + c.toNat / 4096 = 0xED then 0x9F else 0xBF) < 0x80 + c.toNat / 64 % 64) := by
      split <;> split <;> omega
    have a5 : ¬ (0x80 + c.toNat % 64 < 0x80 ∨ 0xBF < 0x80 + c.toNat % 64) := by omega
    simp only [List.cons_append, List.nil_append, utf8Decode, utf8Step, Utf8.start, utf8First, if_true,
      if_neg a1, if_neg a2, if_pos a3, if_neg a4, if_neg a5, Nat.reduceEqDiff, if_false,
      Nat.reduceSub]
    rw [ofNat_self c (by omega)]
  rw [if_neg h3]
  have a1 : ¬ (0xF0 + c.toNat / 262144 < 0x80) := by omega
  have a2 : ¬ (0xC2 ≤ 0xF0 + c.toNat / 262144 ∧ 0xF0 + c.toNat / 262144 ≤ 0xDF) := by omega
  have a3 : ¬ (0xE0 ≤ 0xF0 + c.toNat / 262144 ∧ 0xF0 + c.toNat / 262144 ≤ 0xEF) := by omega
  have a3' : 0xF0 ≤ 0xF0 + c.toNat / 262144 ∧ 0xF0 + c.toNat / 262144 ≤ 0xF4 := by omega
  have a4 : ¬ (0x80 + c.toNat / 4096 % 64 < (if 0xF0 + c.toNat / 262144 = 0xF0 then 0x90 else 0x80) ∨
      (if 0xF0 + c.toNat / 262144 = 0xF4 then 0x8F else 0xBF) < 0x80 + c.toNat / 4096 % 64) := by
    split <;> split <;> omega
  have a5 : ¬ (0x80 + c.toNat / 64 % 64 < 0x80 ∨ 0xBF < 0x80 + c.toNat / 64 % 64) := by omega
  have a6 : ¬ (0x80 + c.toNat % 64 < 0x80 ∨ 0xBF < 0x80 + c.toNat % 64) := by omega
  simp only [List.cons_append, List.nil_append, utf8Decode, utf8Step, Utf8.start, utf8First, if_true,
    if_neg a1, if_neg a2, if_neg a3, if_pos a3', if_neg a4, if_neg a5, if_neg a6, Nat.reduceEqDiff, if_false,
    Nat.reduceSub]
  rw [ofNat_self c (by omega)]

theorem utf8_decode (s : Str) : utf8Decode .start (utf8 s) = s := by
  induction s with
  | nil => rfl
  | cons c s ih =>
    show utf8Decode .start (utf8Char c ++ utf8 s) = _
    rw [utf8Decode_char, ih]

/-! ## Links -/

/-- What an encoded byte looks like. -/
def encByte (b : Nat) : Str :=
  if b = 32 then ['+'] else if urlPlain b then [Char.ofNat b] else percent b

theorem urlEncode_eq (s : Str) : urlEncode s = (utf8 s).flatMap encByte := rfl

/-- The bytes of the encoding after `+` has become a blank. -/
def encBack (b : Nat) : List Nat := ((encByte b).map Char.toNat).map fun b => if b = 43 then 32 else b

theorem encByte_facts : ∀ b < 256,
    (∀ c ∈ encByte b, 32 < c.toNat ∧ c.toNat ≤ 126 ∧ c ≠ '"' ∧ c ≠ '<' ∧ c ≠ '>' ∧
      c ≠ '\'' ∧ c ≠ '#' ∧ c ≠ '&') ∧
    ((encBack b = [b] ∧ b ≠ 37) ∨
      (encBack b = [37, (urlDigit (b / 16)).toNat, (urlDigit (b % 16)).toNat] ∧
        hexByte (urlDigit (b / 16)).toNat = some (b / 16) ∧
        hexByte (urlDigit (b % 16)).toNat = some (b % 16))) := by
  decide +kernel

/-- A character that the URL parser leaves as it is. -/
def UrlChar (c : Char) : Prop := 32 < c.toNat ∧ c.toNat ≤ 126 ∧ c ≠ '"' ∧ c ≠ '<' ∧ c ≠ '>' ∧
  c ≠ '\'' ∧ c ≠ '#' ∧ c ≠ '&'

theorem urlEncode_chars (s : Str) : ∀ c ∈ urlEncode s, UrlChar c := by
  intro c hc
  rw [urlEncode_eq] at hc
  obtain ⟨b, hb, hc⟩ := List.mem_flatMap.1 hc
  exact (encByte_facts b (utf8_lt s b hb)).1 c hc

theorem openCode_chars (s : Str) : ∀ c ∈ openCode s, UrlChar c := by
  intro c hc
  simp only [openCode, List.mem_append] at hc
  rcases hc with (hc | hc) | hc
  · exact urlEncode_chars _ c hc
  · have : c = '=' := by simpa using hc
    subst this
    unfold UrlChar
    decide
  · exact urlEncode_chars _ c hc

theorem takeWhile_all {p : Char → Bool} {q : Str} (h : ∀ c ∈ q, p c) : q.takeWhile p = q := by
  induction q with
  | nil => rfl
  | cons c q ih => rw [List.takeWhile_cons, if_pos (h c (by simp)), ih fun d hd => h d (by simp [hd])]

theorem queryState_chars {q : Str} (h : ∀ c ∈ q, UrlChar c) : queryState q = q := by
  have e1 : (q.filter fun c => c ≠ '\t' ∧ c ≠ '\n' ∧ c ≠ '\r') = q := by
    rw [List.filter_eq_self]
    intro c hc
    have := (h c hc).1
    simp only [ne_eq, decide_eq_true_eq]
    refine ⟨?_, ?_, ?_⟩ <;> (intro e; subst e; revert this; decide)
  have e2 : q.takeWhile (· ≠ '#') = q := by
    exact takeWhile_all fun c hc => by simpa using (h c hc).2.2.2.2.2.2.1
  unfold queryState
  rw [e1, e2]
  clear e1 e2
  induction q with
  | nil => rfl
  | cons c q ih =>
    rw [List.flatMap_cons, ih fun d hd => h d (by simp [hd])]
    obtain ⟨h1, h2, h3, h4, h5, h6, _⟩ := h c (by simp)
    rw [if_neg]
    · rfl
    · rintro (h | h | h | h | h | h)
      · omega
      · omega
      · exact h3 h
      · exact h4 h
      · exact h5 h
      · exact h6 h

theorem utf8_chars {q : Str} (h : ∀ c ∈ q, UrlChar c) : utf8 q = q.map Char.toNat := by
  induction q with
  | nil => rfl
  | cons c q ih =>
    show utf8Char c ++ utf8 q = _
    rw [ih fun d hd => h d (by simp [hd])]
    have := (h c (by simp)).2.1
    unfold utf8Char
    simp only
    rw [if_pos (by omega)]
    rfl

theorem splitAmp_none {bs : List Nat} (h : ∀ b ∈ bs, b ≠ 38) : splitAmp bs = [bs] := by
  induction bs with
  | nil => rfl
  | cons b bs ih =>
    rw [splitAmp, ih fun d hd => h d (by simp [hd])]
    simp only
    rw [if_neg (h b (by simp))]

theorem percentDecode_plain {b : Nat} (h : b ≠ 37) (bs : List Nat) :
    percentDecode (b :: bs) = b :: percentDecode bs := by
  cases bs with
  | nil => rw [percentDecode.eq_def]; split <;> simp_all
  | cons x bs =>
    cases bs with
    | nil => rw [percentDecode.eq_def]; split <;> simp_all
    | cons y bs => rw [percentDecode.eq_def]; split <;> simp_all

theorem percentDecode_back {b : Nat} (h : b < 256) (bs : List Nat) :
    percentDecode (encBack b ++ bs) = b :: percentDecode bs := by
  rcases (encByte_facts b h).2 with ⟨e, h⟩ | ⟨e, h1, h2⟩
  · rw [e]; exact percentDecode_plain h bs
  · rw [e]
    simp only [List.cons_append, List.nil_append, percentDecode, h1, h2]
    congr 1
    omega

theorem urlDecode_encode (s : Str) : urlDecode ((urlEncode s).map Char.toNat) = s := by
  have : ∀ bs : List Nat, (∀ b ∈ bs, b < 256) →
      percentDecode (((bs.flatMap encByte).map Char.toNat).map fun b => if b = 43 then 32 else b) = bs := by
    intro bs h
    induction bs with
    | nil => rfl
    | cons b bs ih =>
      rw [List.flatMap_cons, List.map_append, List.map_append]
      rw [show ((encByte b).map Char.toNat).map (fun b => if b = 43 then 32 else b) = encBack b from rfl,
        percentDecode_back (h b (by simp)), ih fun d hd => h d (by simp [hd])]
  unfold urlDecode
  rw [urlEncode_eq, this _ (utf8_lt s), utf8_decode]

/-- **C68.** The code of a program in the documentation, whatever characters it has, is what the editor
finds in the address of the page when its button is pressed. -/
theorem C68_link (code : Str) : codeParam (locationSearch (openCode code)) = some code := by
  have hq := queryState_chars (openCode_chars code)
  have head : openCode code = "code=".toList ++ urlEncode code := by
    unfold openCode
    rw [show urlEncode "code".toList = "code".toList by decide +kernel]
    rfl
  have hne : ¬ queryState (openCode code) = [] := by
    rw [hq, head]; simp
  have hs : searchParams (locationSearch (openCode code)) = [("code".toList, code)] := by
    unfold searchParams locationSearch
    rw [if_neg hne, hq]
    simp only [List.head?_cons, if_true, List.drop_succ_cons, List.drop_zero]
    rw [utf8_chars (openCode_chars code), splitAmp_none]
    · rw [head, List.map_append]
      have e1 : ("code=".toList).map Char.toNat = [99, 111, 100, 101, 61] := by decide
      rw [e1]
      simp only [List.cons_append, List.nil_append]
      rw [List.filter_cons_of_pos (by simp)]
      simp only [List.filter_nil, List.map_cons, List.map_nil, urlParam]
      have t : (99 :: 111 :: 100 :: 101 :: 61 :: (urlEncode code).map Char.toNat).takeWhile (· ≠ 61) =
          [99, 111, 100, 101] := by simp [List.takeWhile]
      have d : (99 :: 111 :: 100 :: 101 :: 61 :: (urlEncode code).map Char.toNat).dropWhile (· ≠ 61) =
          61 :: (urlEncode code).map Char.toNat := by simp [List.dropWhile]
      rw [t, d, List.drop_succ_cons, List.drop_zero, urlDecode_encode]
      congr 2
    · intro b hb
      obtain ⟨c, hc, rfl⟩ := List.mem_map.1 hb
      have := (openCode_chars code c hc).2.2.2.2.2.2.2
      intro e
      apply this
      rw [← toNat_inj, e]
      rfl
  unfold codeParam
  rw [hs]
  simp

/-- **C68.** The drawer of the editor is open from the beginning exactly if there is any code, and the editor
starts as described by C57. -/
theorem C68_opened (code : Str) (st : Store) :
    (opensDrawer (locationSearch (openCode code)) = true ↔ code ≠ []) ∧
      load st (codeParam (locationSearch (openCode code))) = load st (some code) := by
  unfold opensDrawer
  rw [C68_link]
  exact ⟨by simp, rfl⟩

/-- Links without code, and other parameters. -/
example : codeParam "".toList = none ∧ opensDrawer "?code=".toList = false ∧
    codeParam "?lang=es&code=INC+AC%0AFIN&code=x".toList = some "INC AC\nFIN".toList ∧
    codeParam "?c%6Fde=%F1".toList = some [replacement] := by decide +kernel

example : openCode "MOV 0A, AC # ñ\n".toList = "code=MOV+0A%2C+AC+%23+%C3%B1%0A".toList := by decide +kernel

/-! ## Files -/

/-- The first bytes of a text are none of the marks of UTF-16. -/
theorem utf8_head (c : Char) (s : Str) : ∃ b bs, utf8 (c :: s) = b :: bs ∧ b < 0xFE := by
  have hr := char_range c
  have : utf8 (c :: s) = utf8Char c ++ utf8 s := rfl
  rw [this]
  unfold utf8Char
  simp only
  split
  · exact ⟨_, _, rfl, by omega⟩
  · split
    · exact ⟨_, _, rfl, by omega⟩
    · split
      · exact ⟨_, _, rfl, by omega⟩
      · exact ⟨_, _, rfl, by omega⟩

theorem utf8_mark (c : Char) (s : Str) : ∀ bs, utf8 (c :: s) = 0xEF :: 0xBB :: 0xBF :: bs →
    c = Char.ofNat 0xFEFF := by
  have hr := char_range c
  intro bs e
  have : utf8 (c :: s) = utf8Char c ++ utf8 s := rfl
  rw [this] at e
  unfold utf8Char at e
  simp only at e
  split at e
  · simp at e; omega
  · split at e
    · simp at e; omega
    · split at e
      · simp at e
        have : c.toNat = 0xFEFF := by omega
        rw [← toNat_inj, this]
        decide
      · simp at e; omega

/-- **C69, part.** A program that is saved in a file and opened again is the same, unless it begins with the
character U+FEFF. -/
theorem C69_file_partial (code : Str) (hc : code.head? ≠ some (Char.ofNat 0xFEFF)) :
    openFile (downloadFile code) = some code := by
  unfold downloadFile
  have dec := utf8_decode code
  cases code with
  | nil => rfl
  | cons c s =>
    obtain ⟨b, bs, e, hb⟩ := utf8_head c s
    have hm := utf8_mark c s
    unfold openFile
    split
    · exact absurd (by simp [hm _ (by assumption)]) hc
    · rename_i h; rw [e] at h; simp at h; omega
    · rename_i h; rw [e] at h; simp at h; omega
    · rw [dec]

example : downloadFile "¡FIN!".toList = [0xC2, 0xA1, 70, 73, 78, 33] ∧
    openFile [0xC2, 0xA1, 70, 73, 78, 33] = some "¡FIN!".toList := by decide +kernel

/-- **C69, false in general.** That character is taken for a byte order mark and lost. -/
theorem C69_wrong (code : Str) :
    openFile (downloadFile (Char.ofNat 0xFEFF :: code)) = some code := by
  have : downloadFile (Char.ofNat 0xFEFF :: code) = 0xEF :: 0xBB :: 0xBF :: utf8 code := by
    show utf8Char _ ++ utf8 code = _
    rw [show utf8Char (Char.ofNat 0xFEFF) = [0xEF, 0xBB, 0xBF] by decide +kernel]
    rfl
  rw [this]
  show some (utf8Decode .start (utf8 code)) = _
  rw [utf8_decode]


example : openFile (downloadFile (Char.ofNat 0xFEFF :: "FIN".toList)) ≠
    some (Char.ofNat 0xFEFF :: "FIN".toList) := by decide +kernel

end Mpp.Front
