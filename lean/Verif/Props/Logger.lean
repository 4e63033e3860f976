import Verif.Logger
import Verif.Props.Cpu
import Verif.Pair
/-!
# Properties C70 and C71: what the core reports, and the logger
-/
namespace Mpp

/-! ## C71 -/

/-- The callbacks a user has registered with these calls, without null pointers. -/
def registered : List LogCall → List Callback
  | [] => []
  | .addCallback (some fn) udata level :: cs => ⟨some fn, udata, level⟩ :: registered cs
  | .addFp fp level :: cs => ⟨some .file, fp, level⟩ :: registered cs
  | _ :: cs => registered cs

/-- The last value given to `log_set_level`, at first 0. -/
def lastLevel (cs : List LogCall) : Int :=
  (cs.filterMap fun | .setLevel n => some n | _ => none).getLast?.getD 0

/-- The last value given to `log_set_quiet`, at first false. -/
def lastQuiet (cs : List LogCall) : Bool :=
  (cs.filterMap fun | .setQuiet b => some b | _ => none).getLast?.getD false

/-- The last function and data given to `log_set_lock`, at first null pointers. -/
def lastLock (cs : List LogCall) : Option Nat × Nat :=
  (cs.filterMap fun | .setLock f d => some (f, d) | _ => none).getLast?.getD (none, 0)

/-- The array holds these callbacks. -/
structure LogHolds (l : Logger) (rs : List Callback) : Prop where
  length : l.callbacks.length = 32
  nonnull : ∀ c ∈ rs, c.fn.isSome
  split : ∃ rest, l.callbacks = rs ++ rest ∧ ∀ c ∈ rest, c.fn = none

theorem LogHolds.zero : LogHolds Logger.zero [] :=
  ⟨rfl, by simp, _, rfl, by decide⟩

theorem LogHolds.le {l : Logger} {rs : List Callback} (h : LogHolds l rs) : rs.length ≤ 32 := by
  obtain ⟨rest, e, _⟩ := h.split
  have := h.length
  rw [e] at this
  simp at this
  omega

theorem LogHolds.get {l : Logger} {rs : List Callback} (h : LogHolds l rs) {i : Nat} (hi : i < 32) :
    ∃ c, l.callbacks[i]? = some c ∧ (i < rs.length → rs[i]? = some c ∧ c.fn.isSome) ∧
      (rs.length ≤ i → c.fn = none) := by
  obtain ⟨rest, e, hn⟩ := h.split
  have hl := h.length
  have : i < l.callbacks.length := by omega
  refine ⟨l.callbacks[i], by simp [this], ?_, ?_⟩
  · intro hr
    have : rs[i]? = some l.callbacks[i] := by
      have : l.callbacks[i]? = rs[i]? := by rw [e, List.getElem?_append_left hr]
      rw [← this]; simp [hl, hi]
    exact ⟨this, h.nonnull _ (List.mem_of_getElem? this)⟩
  · intro hr
    apply hn
    have : l.callbacks[i]? = rest[i - rs.length]? := by rw [e, List.getElem?_append_right hr]
    apply List.mem_of_getElem? (i := i - rs.length)
    rw [← this]; simp [hl, hi]

theorem LogHolds.loop {l : Logger} {rs : List Callback} (h : LogHolds l rs) (c : Callback) (k : Nat)
    (hk : k ≤ 32) (hi : 32 - k ≤ rs.length) : addCallbackLoop c l k =
      some (if rs.length < 32 then (0, { l with callbacks := l.callbacks.set rs.length c }) else (-1, l)) := by
  have hle := h.le
  induction k with
  | zero => rw [addCallbackLoop, if_neg (by omega)]
  | succ k ih =>
    have hm : maxCallbacks = 32 := rfl
    obtain ⟨d, e, h1, h2⟩ := h.get (i := 32 - (k + 1)) (by omega)
    rw [addCallbackLoop]
    simp only [hm, e]
    by_cases hr : 32 - (k + 1) < rs.length
    · have := (h1 hr).2
      rw [if_neg (by rw [Option.isNone_iff_eq_none]; intro h; rw [h] at this; cases this)]
      exact ih (by omega) (by omega)
    · rw [if_pos (by rw [h2 (by omega)]; rfl)]
      rw [if_pos (by omega), show 32 - (k + 1) = rs.length by omega]

/-- What registering a callback does to the list. -/
theorem LogHolds.add {l : Logger} {rs : List Callback} (h : LogHolds l rs) (c : Callback) :
    ∃ l', l.addCallback c = some (if rs.length < 32 then 0 else -1, l') ∧
      LogHolds l' ((rs ++ if c.fn.isSome then [c] else []).take 32) ∧ l'.level = l.level ∧ l'.quiet = l.quiet ∧
      l'.lock = l.lock ∧ l'.udata = l.udata := by
  have hle := h.le
  unfold Logger.addCallback
  rw [show maxCallbacks = 32 from rfl, h.loop c 32 (Nat.le_refl _) (by omega)]
  split
  · rename_i hr
    refine ⟨_, rfl, ⟨by simp [h.length], ?_, ?_⟩, rfl, rfl, rfl, rfl⟩
    · intro d hd
      rcases List.mem_append.1 (List.mem_of_mem_take hd) with hd | hd
      · exact h.nonnull d hd
      · split at hd
        · rename_i hc; rw [List.mem_singleton.1 hd]; exact hc
        · cases hd
    · obtain ⟨rest, e, hn⟩ := h.split
      have hl := h.length
      cases rest with
      | nil => rw [e] at hl; simp at hl; omega
      | cons d rest =>
        have set : l.callbacks.set rs.length c = rs ++ c :: rest := by
          rw [e, List.set_append_right _ _ (Nat.le_refl _)]; simp
        simp only [set]
        cases hc : c.fn with
        | none =>
          refine ⟨c :: rest, ?_, ?_⟩
          · simp only [Option.isSome_none, Bool.false_eq_true, if_false, List.append_nil]
            rw [List.take_of_length_le hle]
          · intro x hx
            rcases List.mem_cons.1 hx with rfl | hx
            · exact hc
            · exact hn x (by simp [hx])
        | some f =>
          refine ⟨rest, ?_, fun x hx => hn x (by simp [hx])⟩
          simp only [Option.isSome_some, if_true]
          rw [List.take_of_length_le (by simp; omega)]
          simp
  · rename_i hr
    have : ((rs ++ if c.fn.isSome then [c] else []).take 32) = rs := by
      rw [List.take_append_of_le_length (by omega), List.take_of_length_le hle]
    rw [this]
    exact ⟨l, rfl, h, rfl, rfl, rfl, rfl⟩

/-- The results of the calls, when `n` callbacks are registered before. -/
def callResults : Nat → List LogCall → List Int
  | _, [] => []
  | n, .addCallback fn _ _ :: cs =>
    (if n < 32 then 0 else -1) :: callResults (if fn.isSome then n + 1 else n) cs
  | n, .addFp _ _ :: cs => (if n < 32 then 0 else -1) :: callResults (n + 1) cs
  | n, _ :: cs => 0 :: callResults n cs

theorem getLast?_getD_cons {α} (a b : α) (l : List α) : (a :: l).getLast?.getD b = l.getLast?.getD a := by
  rw [List.getLast?_cons]; rfl

/-- What a sequence of calls leaves in the logger. -/
theorem LogHolds.calls (cs : List LogCall) : ∀ {l : Logger} {rs : List Callback} {n : Nat}, LogHolds l (rs.take 32) →
    n = rs.length → ∃ l', l.calls cs = some (callResults n cs, l') ∧ LogHolds l' ((rs ++ registered cs).take 32) ∧
      l'.level = (cs.filterMap fun | .setLevel n => some n | _ => none).getLast?.getD l.level ∧
      l'.quiet = (cs.filterMap fun | .setQuiet b => some b | _ => none).getLast?.getD l.quiet ∧
      (l'.lock, l'.udata) = (cs.filterMap fun | .setLock f d => some (f, d) | _ => none).getLast?.getD
        (l.lock, l.udata) := by
  induction cs with
  | nil => intro l rs n h _; exact ⟨l, rfl, by simpa [registered] using h, rfl, rfl, rfl⟩
  | cons c cs ih =>
    intro l rs n h hn
    subst hn
    have added : ∀ d : Callback, ∃ l', l.addCallback d = some (if rs.length < 32 then 0 else -1, l') ∧
        LogHolds l' ((rs ++ if d.fn.isSome then [d] else []).take 32) ∧ l'.level = l.level ∧
        l'.quiet = l.quiet ∧ l'.lock = l.lock ∧ l'.udata = l.udata := by
      intro d
      obtain ⟨l', e, h', r⟩ := h.add d
      refine ⟨l', ?_, ?_, r⟩
      · rw [e]
        by_cases hr : rs.length < 32
        · rw [if_pos (by simp; omega), if_pos hr]
        · rw [if_neg (by simp; omega), if_neg hr]
      · by_cases hr : rs.length ≤ 32
        · rwa [List.take_of_length_le hr] at h'
        · rw [List.take_append_of_le_length (by simp; omega), List.take_take, Nat.min_self] at h'
          rwa [List.take_append_of_le_length (by omega)]
    cases c with
    | setLock f d =>
      obtain ⟨l', e, h', a, b, c⟩ := ih (l := l.setLock f d) (rs := rs) ⟨h.length, h.nonnull, h.split⟩ rfl
      refine ⟨l', by simp only [Logger.calls, Logger.call, e, callResults, Option.map_some], h', a, b, ?_⟩
      rw [c, List.filterMap_cons, getLast?_getD_cons]
      rfl
    | setLevel k =>
      obtain ⟨l', e, h', a, b, c⟩ := ih (l := l.setLevel k) (rs := rs) ⟨h.length, h.nonnull, h.split⟩ rfl
      refine ⟨l', by simp only [Logger.calls, Logger.call, e, callResults, Option.map_some], h', ?_, b, c⟩
      rw [a, List.filterMap_cons, getLast?_getD_cons]
      rfl
    | setQuiet k =>
      obtain ⟨l', e, h', a, b, c⟩ := ih (l := l.setQuiet k) (rs := rs) ⟨h.length, h.nonnull, h.split⟩ rfl
      refine ⟨l', by simp only [Logger.calls, Logger.call, e, callResults, Option.map_some], h', a, ?_, c⟩
      rw [b, List.filterMap_cons, getLast?_getD_cons]
      rfl
    | addCallback fn u k =>
      obtain ⟨l1, e1, h1, r1, r2, r3, r4⟩ := added ⟨fn, u, k⟩
      obtain ⟨l', e, h', a, b, c⟩ := ih h1 rfl
      refine ⟨l', ?_, ?_, ?_, ?_, ?_⟩
      · cases fn <;> simp [Logger.calls, Logger.call, e1, callResults] <;> simpa using e
      · cases fn <;> simpa [registered] using h'
      · rw [a, r1]; rfl
      · rw [b, r2]; rfl
      · rw [c, r3, r4]; rfl
    | addFp fp k =>
      obtain ⟨l1, e1, h1, r1, r2, r3, r4⟩ := added ⟨some .file, fp, k⟩
      obtain ⟨l', e, h', a, b, c⟩ := ih h1 rfl
      refine ⟨l', ?_, ?_, ?_, ?_, ?_⟩
      · simp [Logger.calls, Logger.call, Logger.addFp, e1, callResults]; simpa using e
      · simpa [registered] using h'
      · rw [a, r1]; rfl
      · rw [b, r2]; rfl
      · rw [c, r3, r4]; rfl

/-- **C71.** No sequence of calls leaves the array of callbacks; `log_add_callback` returns 0 for the
first 32 callbacks and -1 afterwards. -/
theorem C71_calls (cs : List LogCall) : ∃ l, Logger.zero.calls cs = some (callResults 0 cs, l) := by
  obtain ⟨l, e, _⟩ := LogHolds.calls cs (rs := []) LogHolds.zero rfl
  exact ⟨l, e⟩

example : callResults 0 (List.replicate 40 (.addCallback (some (.user 1)) 2 3)) =
    List.replicate 32 0 ++ List.replicate 8 (-1) := by decide

/-- What a callback gets: `file_callback` writes the line, others are called with the event. -/
def delivery (line : List Char) (e : LogEvent) (c : Callback) : LogEffect :=
  match c.fn with
  | some (.user n) => .call n c.udata e
  | _ => .file c.udata line

theorem LogHolds.called {l : Logger} {rs : List Callback} (h : LogHolds l rs) (date : List Char)
    {e : LogEvent} {line : List Char} (hl : logLine date e = some line) (k : Nat) (hk : k ≤ 32)
    (hi : 32 - k ≤ rs.length) : callLoop date e l.callbacks k =
      some (((rs.drop (32 - k)).filter fun c => c.level ≤ e.level).map (delivery line e)) := by
  have hle := h.le
  induction k with
  | zero => rw [callLoop, List.drop_of_length_le (by omega)]; rfl
  | succ k ih =>
    have hm : maxCallbacks = 32 := rfl
    obtain ⟨d, e1, h1, h2⟩ := h.get (i := 32 - (k + 1)) (by omega)
    rw [callLoop]
    simp only [hm, e1]
    by_cases hr : 32 - (k + 1) < rs.length
    · obtain ⟨g1, g2⟩ := h1 hr
      have hd : rs.drop (32 - (k + 1)) = d :: rs.drop (32 - k) := by
        rw [List.drop_eq_getElem_cons hr]
        congr 1
        · exact Option.some.inj (by rw [← g1]; simp)
        · congr 1; omega
      rw [hd]
      have := ih (by omega) (by omega)
      obtain ⟨fn, u, lev⟩ := d
      cases fn with
      | none => cases g2
      | some f =>
        by_cases hlev : lev ≤ e.level
        · rw [List.filter_cons_of_pos (by simpa using hlev)]
          simp only [hlev, if_true, this]
          cases f with
          | file => simp [callbackEffect, hl, delivery]
          | user n => simp [callbackEffect, delivery]
        · rw [List.filter_cons_of_neg (by simpa using hlev)]
          simp only [hlev, if_false, this]
    · rw [h2 (by omega), List.drop_of_length_le (by omega)]
      rfl

theorem Logger.delivered (debug : Bool) (cs : List LogCall) {vs : List Int} {l : Logger}
    (hc : Logger.zero.calls cs = some (vs, l)) (time date text : List Char) (e : LogEvent)
    (he : 0 ≤ e.level ∧ e.level ≤ 5) (ht : e.text = some text) (hd : debug = true ∨ e.level = 2 ∨ e.level = 4) :
    ∃ line file, logLine time e = some line ∧ logLine date e = some file ∧ l.log debug time date e = some (
      (match lastLock cs with | (some f, u) => [.lock f true u] | _ => []) ++
      (if lastQuiet cs = false ∧ lastLevel cs ≤ e.level then [.stderr line] else []) ++
      (((registered cs).take 32).filter fun c => c.level ≤ e.level).map (delivery file e) ++
      (match lastLock cs with | (some f, u) => [.lock f false u] | _ => [])) := by
  obtain ⟨l', e1, h, a, b, c⟩ := LogHolds.calls cs (rs := []) LogHolds.zero rfl
  rw [e1] at hc
  obtain rfl : l' = l := by simpa using (Prod.mk.inj (Option.some.inj hc)).2
  have name : ∃ n, levelString e.level = some n := by
    unfold levelString
    split; exact ⟨_, rfl⟩
    split; exact ⟨_, rfl⟩
    split; exact ⟨_, rfl⟩
    split; exact ⟨_, rfl⟩
    split; exact ⟨_, rfl⟩
    split; exact ⟨_, rfl⟩
    omega
  obtain ⟨n, hn⟩ := name
  have line : ∀ t, ∃ x, logLine t e = some x := fun t => by
    unfold logLine; rw [hn, ht]; exact ⟨_, rfl⟩
  obtain ⟨x, hx⟩ := line time
  obtain ⟨y, hy⟩ := line date
  refine ⟨x, y, hx, hy, ?_⟩
  have cl := h.called date hy 32 (Nat.le_refl _) (by simp)
  unfold Logger.log
  rw [if_neg (by rintro ⟨h1, h2, h3⟩; rcases hd with h | h | h <;> simp_all)]
  rw [show maxCallbacks = 32 from rfl, cl, hx]
  have q : l'.quiet = lastQuiet cs := b
  have v : l'.level = lastLevel cs := a
  have k : (l'.lock, l'.udata) = lastLock cs := c
  have lk : ∀ on, l'.locking on = (match lastLock cs with | (some f, u) => [LogEffect.lock f on u] | _ => []) := by
    intro on
    rw [← k]
    unfold Logger.locking
    cases l'.lock <;> rfl
  rw [lk, lk, q, v]
  by_cases hq : lastQuiet cs = false ∧ lastLevel cs ≤ e.level
  · rw [if_pos hq, if_pos hq]; rfl
  · rw [if_neg hq, if_neg hq]; rfl

/-- The names of the levels (`logger.h:31`, `logger.c:41`), as wide as the widest of them. -/
def levelNames : List String := ["TRACE", "DEBUG", "INFO ", "WARN ", "ERROR", "FATAL"]

/-- The line of an event at the time `time`. -/
def lineOf (time : List Char) (name : String) (e : LogEvent) (text : List Char) : List Char :=
  time ++ ' ' :: name.toList ++ ' ' :: e.file ++ ':' :: Nat.toDigits 10 e.line ++ ':' :: ' ' :: text ++ ['\n']

theorem logLine_names (text : List Char) (e : LogEvent) (he : 0 ≤ e.level ∧ e.level ≤ 5)
    (ht : e.text = some text) : ∃ name, levelNames[e.level.toNat]? = some name ∧
      ∀ time, logLine time e = some (lineOf time name e text) := by
  have hc : e.level = 0 ∨ e.level = 1 ∨ e.level = 2 ∨ e.level = 3 ∨ e.level = 4 ∨ e.level = 5 := by omega
  rcases hc with h | h | h | h | h | h
  all_goals
    rw [h]
    refine ⟨_, rfl, fun time => ?_⟩
    simp only [logLine, h, ht, lineOf, levelString, padFive]
    simp

/-- **C71.** Whatever calls were made before, an event that is not filtered out is written to `stderr`
unless the logger is quiet or its level higher, and delivered to the first 32 registered callbacks whose
level it reaches, once each and in the order of registration, all of it between locking and unlocking
with the last lock. -/
theorem C71_delivered_partial (debug : Bool) (cs : List LogCall) {vs : List Int} {l : Logger}
    (hc : Logger.zero.calls cs = some (vs, l)) (time date text : List Char) (e : LogEvent)
    (he : 0 ≤ e.level ∧ e.level ≤ 5) (ht : e.text = some text) (hd : debug = true ∨ e.level = 2 ∨ e.level = 4) :
    ∃ name, levelNames[e.level.toNat]? = some name ∧ l.log debug time date e = some (
      (match lastLock cs with | (some f, u) => [.lock f true u] | _ => []) ++
      (if lastQuiet cs = false ∧ lastLevel cs ≤ e.level then [.stderr (lineOf time name e text)] else []) ++
      (((registered cs).take 32).filter fun c => c.level ≤ e.level).map (delivery (lineOf date name e text) e) ++
      (match lastLock cs with | (some f, u) => [.lock f false u] | _ => [])) := by
  obtain ⟨name, hn, hl⟩ := logLine_names text e he ht
  obtain ⟨x, y, e1, e2, e3⟩ := Logger.delivered debug cs hc time date text e he ht hd
  rw [hl] at e1 e2
  cases e1
  cases e2
  exact ⟨name, hn, e3⟩

/-- A quiet logger with a lock and three callbacks, one of a higher level. -/
example : (Logger.zero.calls [.setQuiet true, .addFp 7 0, .addCallback (some (.user 1)) 8 5, .setLock (some 3) 4,
      .addCallback none 0 0, .addCallback (some (.user 2)) 9 4]).bind (fun r =>
        (r.2.log false [] [] ⟨some ['!'], ['f'], 12, 4⟩).map fun xs => xs.map fun
          | .lock f on u => (f, if on then 1 else 0, u, [])
          | .call f u _ => (f, 2, u, [])
          | .file u s => (0, 3, u, s)
          | _ => (0, 4, 0, [])) =
    some [(3, 1, 4, []), (0, 3, 7, " ERROR f:12: !\n".toList), (2, 2, 9, []), (3, 0, 4, [])] := by decide +kernel

/-- **C71, false.** Without `DEBUG` an event of any other level than INFO and ERROR is lost, whatever
the logger's level and callbacks: also WARN and FATAL. -/
theorem C71_lost_wrong (time date : List Char) (l : Logger) (e : LogEvent) (h : e.level ≠ 2) (h' : e.level ≠ 4) :
    l.log false time date e = some [] := by
  unfold Logger.log
  rw [if_pos ⟨rfl, h, h'⟩]

/-- **C71, false.** So the page is left without a word after a fatal error. -/
theorem C71_fatal_wrong (time date : List Char) (l : Logger) (message : Option (List Char)) :
    processError false time date l ⟨.fatal, message, 0⟩ = some [.exit] := by
  simp [processError, fatal, Logger.log]

/-- The zero logger prints a line, and does nothing else. -/
theorem zero_log (debug : Bool) (time date text name : List Char) (file : List Char) (line : Nat) (level : Int)
    (hl : 0 ≤ level ∧ level ≤ 5) (hn : levelString level = some name)
    (hd : debug = true ∨ level = 2 ∨ level = 4) :
    Logger.zero.log debug time date ⟨some text, file, line, level⟩ = some [.stderr (time ++ (" ".toList ++
      padFive name ++ " ".toList ++ file ++ ":".toList ++ Nat.toDigits 10 line ++ ": ".toList) ++ text ++
      "\n".toList)] := by
  obtain ⟨x, y, e1, _, e3⟩ := Logger.delivered debug [] rfl time date text
    ⟨some text, file, line, level⟩ hl rfl hd
  rw [e3]
  have : (lastQuiet [] = false ∧ lastLevel [] ≤ level) := ⟨rfl, hl.1⟩
  rw [if_pos this]
  simp only [logLine, hn, Option.some.injEq] at e1
  subst e1
  simp only [List.append_assoc]
  rfl

/-- A message without `%` is printed as it is. -/
theorem formatPlain_plain : ∀ s : List Char, '%' ∉ s → formatPlain s = some s
  | [], _ => rfl
  | c :: s, h => by
    have hc : c ≠ '%' := fun e => h (by simp [e])
    have ih := formatPlain_plain s fun m => h (List.mem_cons_of_mem _ m)
    rw [formatPlain, ih]
    · rfl
    · rintro s' rfl; exact absurd rfl hc
    · rintro rfl; exact absurd rfl hc

/-- With `DEBUG` the message is printed. -/
theorem C71_fatal_debug (time date message : List Char) (h : '%' ∉ message) :
    processError true time date Logger.zero ⟨.fatal, some message, 0⟩ =
      some [.stderr (time ++ " FATAL src/lib/error.c:21: ".toList ++ message ++ "\n".toList), .exit] := by
  rw [show " FATAL src/lib/error.c:21: ".toList = " ".toList ++ padFive "FATAL".toList ++ " ".toList ++ errorFile ++
    ":".toList ++ Nat.toDigits 10 21 ++ ": ".toList by decide +kernel]
  have hm := formatPlain_plain message h
  have := zero_log true time date message "FATAL".toList errorFile 21 5 ⟨by decide, by decide⟩ rfl (.inl rfl)
  simp only [processError, fatal, CError.text, Option.getD_some, hm, this, Nat.zero_ne_one, if_false,
    Option.map_some, List.cons_append, List.nil_append]

/-! ## C70 -/

/-- **C70.** The line on `stderr` for an error of the core. -/
def errorLine (time : List Char) (e : Err) : List Char :=
  time ++ " ERROR src/lib/error.c:31: ".toList ++ e.message ++ "\n".toList

theorem Err.format (e : Err) : formatPlain e.message = some e.message := by
  cases e <;> decide +kernel

theorem throw_line (debug : Bool) (time date : List Char) (e : Err) :
    processError debug time date Logger.zero e.error = some [.stderr (errorLine time e)] := by
  unfold errorLine
  rw [show " ERROR src/lib/error.c:31: ".toList = " ".toList ++ padFive "ERROR".toList ++ " ".toList ++ errorFile ++
    ":".toList ++ Nat.toDigits 10 31 ++ ": ".toList by decide +kernel]
  have := zero_log debug time date e.message "ERROR".toList errorFile 31 4 ⟨by decide, by decide⟩ rfl
    (.inr (.inr rfl))
  simp only [processError, Err.error, notice, CError.text, Option.getD_some, e.format, this, Nat.zero_ne_one,
    if_false]

/-- **C70.** The core never ends the program: with or without `DEBUG`, its errors are printed, each in a
line of its own, in the order in which they happened, and nothing else is done about them. -/
theorem C70_printed (debug : Bool) (time date : Nat → List Char) (log : List Err) :
    ∃ xs : List (List Char), reports debug time date Logger.zero log = some (xs.map .stderr) ∧
      xs.length = log.length ∧ ∀ i (h : i < log.length), xs[i]? = some (errorLine (time i) (log.reverse[i]'(by simpa using h))) := by
  induction log with
  | nil => exact ⟨[], rfl, rfl, fun i h => absurd h (by simp)⟩
  | cons e log ih =>
    obtain ⟨xs, e1, e2, e3⟩ := ih
    refine ⟨xs ++ [errorLine (time log.length) e], ?_, by simp [e2], ?_⟩
    · rw [reports, e1, throw_line]
      simp
    · intro i h
      by_cases hi : i < log.length
      · rw [List.getElem?_append_left (by omega), e3 i hi]
        congr 2
        simp only [List.reverse_cons]
        rw [List.getElem_append_left]
      · have : i = log.length := by simp at h; omega
        subst this
        rw [List.getElem?_append_right (by omega)]
        simp [e2]

/-- The register that an error is about. -/
def Err.register : Err → Option (List Char)
  | .acummOverflow => some "ACUMM".toList
  | .pchOverflow => some "PCH".toList
  | .pclOverflow => some "PCL".toList
  | .pcOverflow => some "PC".toList
  | .spOverflow => some "SP".toList
  | .riOverflow => some "RI".toList
  | _ => none

/-- **C70.** The line tells which error it was, and names the register if there is one. -/
theorem C70_told (time : List Char) (e : Err) :
    (∀ e', errorLine time e = errorLine time e' → e = e') ∧
    (∀ r, e.register = some r → " ".toList ++ r ++ " register\n".toList <:+ errorLine time e) := by
  constructor
  · intro e' h
    unfold errorLine at h
    have h : e.message = e'.message := List.append_cancel_left (List.append_cancel_right h)
    revert h
    have all : ∀ a b : Err, a.message = b.message → a = b := by
      intro a b
      cases a <;> cases b <;> first | (intro _; rfl) | (intro h; exact absurd h (by decide +kernel))
    exact all e e'
  · intro r h
    have m : " ".toList ++ r ++ " register".toList <:+ e.message := by
      cases e <;> cases h <;> decide +kernel
    obtain ⟨pre, m⟩ := m
    refine ⟨time ++ " ERROR src/lib/error.c:31: ".toList ++ pre, ?_⟩
    unfold errorLine
    rw [← m]
    rw [show " register\n".toList = " register".toList ++ "\n".toList by decide]
    simp only [List.append_assoc]

example : Err.register .pchOverflow = some "PCH".toList ∧
    errorLine "12:00:00".toList .pchOverflow =
      "12:00:00 ERROR src/lib/error.c:31: Overflow attemping to load PCH register\n".toList := by
  decide +kernel

/-- The microstates that count PC, and those that count SP down and up. -/
def countsPc : List (BitVec 6) := [0, 15, 16, 17]
def countsSpDown : List (BitVec 6) := [26, 40, 42]
def countsSpUp : List (BitVec 6) := [31, 41, 43]

theorem rtl_log (v : V) (s : BitVec 6) : (v.rtl s.toNat).log =
    (if s ∈ countsPc ∧ v.pc = 0xFFFF then [.pcOverflow] else if (s ∈ countsSpDown ∧ v.sp = 0) ∨
      (s ∈ countsSpUp ∧ v.sp = 0xFFFF) then [.spOverflow] else []) ++ v.log := by
  have m1 : ∀ s : BitVec 6, s ∈ countsPc ↔ s.toNat = 0 ∨ s.toNat = 15 ∨ s.toNat = 16 ∨ s.toNat = 17 := by
    decide +kernel
  have m2 : ∀ s : BitVec 6, s ∈ countsSpDown ↔ s.toNat = 26 ∨ s.toNat = 40 ∨ s.toNat = 42 := by decide +kernel
  have m3 : ∀ s : BitVec 6, s ∈ countsSpUp ↔ s.toNat = 31 ∨ s.toNat = 41 ∨ s.toNat = 43 := by decide +kernel
  simp only [m1, m2, m3]
  generalize s.toNat = k
  have d : v.decSp.log = (if v.sp = 0 then [.spOverflow] else []) ++ v.log := by
    unfold V.decSp; split <;> rfl
  have i : v.incSp.log = (if v.sp = 0xFFFF then [.spOverflow] else []) ++ v.log := by
    unfold V.incSp; split <;> rfl
  have c : ∀ v : V, v.incPc.log = (if v.pc = 0xFFFF then [.pcOverflow] else []) ++ v.log := by
    intro v; unfold V.incPc; split <;> rfl
  have r : ∀ (v : V) n x, (v.setR n x).log = v.log := by
    intro v n x; rfl
  unfold V.rtl
  split
  case h_46 =>
    simp only [imp_false] at *
    have n1 : ¬ (k = 0 ∨ k = 15 ∨ k = 16 ∨ k = 17) := by omega
    have n2 : ¬ (k = 26 ∨ k = 40 ∨ k = 42) := by omega
    have n3 : ¬ (k = 31 ∨ k = 41 ∨ k = 43) := by omega
    simp only [n1, n2, n3, false_and, or_self, if_false, List.nil_append]
  all_goals simp [d, i, c, r, V.setAcFlags, V.store, V.setPc]

/-- The number of the next microstate, from `get_next_state`. -/
theorem next_unique {h : H} {m : M} (t : At h m) {s : BitVec 6} (hs : NextState h (s.setWidth 32)) : m.s = s := by
  have := t.next.symm.trans hs
  have e : (m.s.setWidth 32 : CInt) = s.setWidth 32 := (Prod.mk.inj (Option.some.inj this)).1
  apply BitVec.eq_of_toNat_eq
  have e := congrArg BitVec.toNat e
  simp only [BitVec.toNat_setWidth] at e
  have := m.s.isLt
  have := s.isLt
  omega

/-- **C70.** A clock cycle reports an overflow of PC exactly if its microstate counts PC, which is at the
end of memory, and one of SP exactly if it counts SP, which is at that end of memory; it reports nothing
else. -/
theorem C70_cycle (u : Bool) {ph : Phase} {h : H} (hr : Reach ph h) (on : ph.on = true)
    (hu : u = true → ph.ui = true) {s : BitVec 6} (hs : NextState h (s.setWidth 32)) {pc sp : BitVec 16}
    (hpc : RegIs h .pc (pc.setWidth 32)) (hsp : RegIs h .sp (sp.setWidth 32)) :
    ∃ h', exec (.runClockCycle u) h = some (0, h') ∧ h'.log =
      (if s ∈ countsPc ∧ pc = 0xFFFF then [.pcOverflow] else if (s ∈ countsSpDown ∧ sp = 0) ∨
        (s ∈ countsSpUp ∧ sp = 0xFFFF) then [.spOverflow] else []) ++ h.log := by
  obtain ⟨m, t⟩ := hr.at on
  obtain rfl := next_unique t hs
  obtain ⟨h', e1, t1, _⟩ := t.cycle u (fun e => hr.inv.ui.trans (hu e))
  have hv : m.v.pc = pc := widen16_inj (some_inj ((t.reg .pc).symm.trans hpc))
  have hv' : m.v.sp = sp := widen16_inj (some_inj ((t.reg .sp).symm.trans hsp))
  refine ⟨h', e1, ?_⟩
  rw [t1.log, t.log]
  show (m.v.rtl m.s.toNat).log = _
  rw [rtl_log, hv, hv']

/-- A machine that is about to count PC at the end of memory. -/
example (p : P) (he : p.errs = []) (hpc : p.pc = 0xFFFF) : ∃ ph h, Reach ph h ∧ ph.on = true ∧
    NextState h ((0 : BitVec 6).setWidth 32) ∧ RegIs h .pc ((0xFFFF : BitVec 16).setWidth 32) := by
  obtain ⟨h, ph, r, on, ui, b, sh⟩ := ready_all p he
  exact ⟨ph, h, r, on, b, by have := sh.pc; rwa [hpc] at this⟩

/-- **C70.** No other call than a clock cycle reports anything. -/
theorem C70_calls {ph : Phase} {h h' : H} (hr : Reach ph h) {c : Call} {v : CInt} (hc : c.Allowed ph)
    (hn : ∀ u, c ≠ .runClockCycle u) (e : exec c h = some (v, h')) : h'.log = h.log := by
  obtain ⟨s, d⟩ := hr.desc
  obtain ⟨h1, e1, d1⟩ := d.call c hc
  rw [e1] at e; cases e
  rw [d1.log, d.log]
  cases s with
  | off l => cases c <;> rfl
  | on a => cases c <;> first | rfl | exact absurd rfl (hn _)

/-- **C70.** Everything ever reported is one of these two errors. -/
theorem C70_kinds {ph : Phase} {h : H} (hr : Reach ph h) : ∀ e ∈ h.log, e = .pcOverflow ∨ e = .spOverflow := by
  obtain ⟨cs, vs, hl, e⟩ := hr
  have key : ∀ (cs : List Call) (p : Phase) (s : Abs) (h0 : H), Desc p h0 s → Legal p cs ph →
      (∀ e ∈ s.log, e = .pcOverflow ∨ e = .spOverflow) →
      ∀ e ∈ (Abs.calls cs s).2.log, e = .pcOverflow ∨ e = .spOverflow := by
    intro cs
    induction cs with
    | nil => intro p s h0 _ _ hs; exact hs
    | cons c cs ih =>
      intro p s h0 d hl hs
      obtain ⟨h1, e1, d1⟩ := d.call c hl.1
      refine ih _ _ h1 d1 hl.2 ?_
      cases s with
      | off l => cases c <;> exact hs
      | on a =>
        have o : On h0 a := d.is
        cases c with
        | runClockCycle u =>
          show ∀ e ∈ a.cycle.view.log, _
          rw [(A.cycle_spec a o.settled o.ok.lt).1, rtl_log]
          intro e he
          rcases List.mem_append.1 he with he | he
          · split at he
            · exact .inl (List.mem_singleton.1 he)
            · split at he
              · exact .inr (List.mem_singleton.1 he)
              · cases he
          · exact hs e he
        | _ => exact hs
  obtain ⟨h', e', d⟩ := Desc.start.calls cs hl
  rw [e] at e'; cases e'
  rw [d.log]
  exact key cs _ _ _ Desc.start hl (by intro e he; cases he)

end Mpp
