import Verif.Front.Changelog
/-!
# Property C74: the list of changes
-/
namespace Mpp.Front

theorem eraseIdx_perm' {α : Type} : ∀ {l : List α} {k : Nat} {a : α}, l[k]? = some a →
    (a :: l.eraseIdx k).Perm l
  | [], _, _, h => by simp at h
  | x :: l, 0, a, h => by
    simp only [List.getElem?_cons_zero, Option.some.injEq] at h
    subst h; exact List.Perm.refl _
  | x :: l, k + 1, a, h => by
    simp only [List.getElem?_cons_succ] at h
    rw [List.eraseIdx_cons_succ]
    exact (List.Perm.swap x a _).trans ((eraseIdx_perm' h).cons x)

theorem changelogSteps_append (items : List String) (github : String → Commit)
    (es ds : List ChangelogEvent) (s : Changelog) :
    changelogSteps items github (es ++ ds) s =
      (changelogSteps items github es s).bind (changelogSteps items github ds) := by
  induction es generalizing s with
  | nil => rfl
  | cons e es ih =>
    simp only [List.cons_append, changelogSteps]
    cases e.step items github s with
    | none => rfl
    | some y => simp only [Option.bind_some]; exact ih y

/-! ## Users who wait -/

/-- The clicks. -/
def ChangelogEvent.isClick : ChangelogEvent → Prop
  | .clickReleased | .clickCommits => True
  | _ => False

/-- GitHub fails to tell a commit of the version. -/
def ChangelogEvent.fails : ChangelogEvent → Prop
  | .lostReleased _ _ => True
  | _ => False

/-- The user clicks only when all requests for commits of the version have been answered. -/
def Waiting (items : List String) (github : String → Commit) : List ChangelogEvent → Changelog → Prop
  | [], _ => True
  | e :: es, s => (e.isClick → s.asked = []) ∧
    ∀ s', e.step items github s = some s' → Waiting items github es s'

theorem Waiting.split {items : List String} {github : String → Commit} {es ds : List ChangelogEvent}
    {s s' : Changelog} (w : Waiting items github (es ++ ds) s)
    (run : changelogSteps items github es s = some s') :
    Waiting items github es s ∧ Waiting items github ds s' := by
  induction es generalizing s with
  | nil => cases run; exact ⟨trivial, w⟩
  | cons e es ih =>
    simp only [changelogSteps] at run
    cases e1 : e.step items github s with
    | none => rw [e1] at run; cases run
    | some s1 =>
      rw [e1, Option.bind_some] at run
      have := ih (w.2 s1 e1) run
      refine ⟨⟨w.1, fun s' e' => ?_⟩, this.2⟩
      rw [e1] at e'; cases e'; exact this.1

/-- While the user waits: the commits shown, those asked for and those lost are those of the version. -/
structure InTime (items : List String) (github : String → Commit) (s : Changelog) : Prop where
  rounds : ∀ a ∈ s.asked, a.round + 1 = s.rounds
  parts : s.asked = [] ∧ s.released = [] ∨ ∃ got lost, (got ++ s.asked.map (·.sha) ++ lost).Perm items ∧
    s.released = got.map github ∧ (s.failed = [] → lost = [])
  loading : s.failed = [] → (s.loadingReleased = true ↔ s.asked ≠ [])

theorem InTime.getReleased {items : List String} {github : String → Commit} {s : Changelog}
    (i : InTime items github s) (ha : s.asked = []) : InTime items github (s.getReleased items) := by
  unfold Changelog.getReleased
  split
  · exact i
  · refine ⟨?_, .inr ⟨[], [], ?_, rfl, fun _ => rfl⟩, fun _ => ?_⟩
    · intro a m
      simp only [ha, List.nil_append, List.mem_map] at m
      obtain ⟨x, _, rfl⟩ := m
      rfl
    · simp only [ha, List.nil_append, List.append_nil, List.map_map]
      rw [show ((fun a : Asked => a.sha) ∘ fun i => (⟨s.rounds, i⟩ : Asked)) = id from rfl, List.map_id]
    · simp only [ha, List.nil_append]
      cases items <;> simp

theorem InTime.getCommits {items : List String} {github : String → Commit} {s : Changelog}
    (i : InTime items github s) (ha : s.asked = []) : InTime items github s.getCommits := by
  unfold Changelog.getCommits
  split
  · exact i
  · exact ⟨i.rounds, .inl ⟨ha, rfl⟩, i.loading⟩

theorem InTime.arrive {items : List String} {github : String → Commit} {s : Changelog}
    (i : InTime items github s) {k : Nat} {a : Asked} (ha : s.asked[k]? = some a) :
    InTime items github (s.arrive k a (github a.sha)) := by
  have p := eraseIdx_perm' ha
  have ma : a ∈ s.asked := p.subset List.mem_cons_self
  have sub : ∀ b ∈ s.asked.eraseIdx k, b ∈ s.asked := fun b hb => p.subset (List.mem_cons_of_mem _ hb)
  refine ⟨fun b hb => i.rounds b (sub b hb), ?_, fun hf => ?_⟩
  · rcases i.parts with ⟨h1, _⟩ | ⟨got, lost, h1, h2, h3⟩
    · rw [h1] at ma; cases ma
    · refine .inr ⟨got ++ [a.sha], lost, ?_, ?_, h3⟩
      · refine List.Perm.trans ?_ h1
        refine List.Perm.append_right _ ?_
        rw [List.append_assoc]
        exact List.Perm.append_left _ (by simpa [Changelog.arrive] using p.map (·.sha))
      · simp only [Changelog.arrive, h2, List.map_append, List.map_cons, List.map_nil]
  · simp only [Changelog.arrive] at hf ⊢
    rw [hf]
    by_cases n : s.asked.eraseIdx k = []
    · rw [n]; simp
    · have l := (i.loading hf).2 (fun e => by rw [e] at ma; cases ma)
      cases e : s.asked.eraseIdx k with
      | nil => exact absurd e n
      | cons b bs =>
        have hb : b ∈ s.asked := sub b (by rw [e]; exact List.mem_cons_self)
        have hr : b.round = a.round := by have := i.rounds b hb; have := i.rounds a ma; omega
        simp [l, hr]

theorem InTime.lose {items : List String} {github : String → Commit} {s : Changelog}
    (i : InTime items github s) {k : Nat} {a : Asked} (ha : s.asked[k]? = some a) (m : String) :
    InTime items github (s.lose k a m) := by
  have p := eraseIdx_perm' ha
  have ma : a ∈ s.asked := p.subset List.mem_cons_self
  have sub : ∀ b ∈ s.asked.eraseIdx k, b ∈ s.asked := fun b hb => p.subset (List.mem_cons_of_mem _ hb)
  have parts : ∃ got lost, (got ++ (s.asked.eraseIdx k).map (·.sha) ++ lost).Perm items ∧
      s.released = got.map github := by
    rcases i.parts with ⟨h1, _⟩ | ⟨got, lost, h1, h2, _⟩
    · rw [h1] at ma; cases ma
    · refine ⟨got, a.sha :: lost, ?_, h2⟩
      refine List.Perm.trans ?_ h1
      rw [List.append_assoc, List.append_assoc]
      refine List.Perm.append_left _ ?_
      have := (p.map (·.sha)).append_right lost
      exact List.perm_middle.trans this
  obtain ⟨got, lost, h1, h2⟩ := parts
  unfold Changelog.lose
  split
  · rename_i hm
    have nf : s.failed ≠ [] := fun e => by rw [e] at hm; cases hm
    exact ⟨fun b hb => i.rounds b (sub b hb), .inr ⟨got, lost, h1, h2, fun e => absurd e nf⟩,
      fun e => absurd e nf⟩
  · exact ⟨fun b hb => i.rounds b (sub b hb), .inr ⟨got, lost, h1, h2, fun e => by cases e⟩,
      fun e => by cases e⟩

theorem InTime.start (items : List String) (github : String → Commit) :
    InTime items github (Changelog.start items) :=
  InTime.getReleased ⟨(fun a h => by cases h), .inl ⟨rfl, rfl⟩, fun _ => by simp⟩ rfl

theorem InTime.step {items : List String} {github : String → Commit} {s s' : Changelog}
    (i : InTime items github s) {e : ChangelogEvent} (w : e.isClick → s.asked = [])
    (run : e.step items github s = some s') :
    InTime items github s' ∧ (¬ e.fails → s'.failed = s.failed) := by
  cases e with
  | clickReleased =>
    cases run
    exact ⟨i.getReleased (w trivial), fun _ => by unfold Changelog.getReleased; split <;> rfl⟩
  | clickCommits =>
    cases run
    exact ⟨i.getCommits (w trivial), fun _ => by unfold Changelog.getCommits; split <;> rfl⟩
  | gotReleased k =>
    simp only [ChangelogEvent.step, Option.map_eq_some_iff] at run
    obtain ⟨a, ha, rfl⟩ := run
    exact ⟨i.arrive ha, fun _ => rfl⟩
  | lostReleased k m =>
    simp only [ChangelogEvent.step, Option.map_eq_some_iff] at run
    obtain ⟨a, ha, rfl⟩ := run
    exact ⟨i.lose ha m, fun n => absurd trivial n⟩
  | gotCommits cs =>
    simp only [ChangelogEvent.step] at run
    split at run
    · cases run
    · cases run; exact ⟨⟨i.rounds, i.parts, i.loading⟩, fun _ => rfl⟩
  | lostCommits m =>
    simp only [ChangelogEvent.step] at run
    split at run
    · cases run
    · cases run; exact ⟨⟨i.rounds, i.parts, i.loading⟩, fun _ => rfl⟩

theorem InTime.steps {items : List String} {github : String → Commit} {s s' : Changelog}
    (i : InTime items github s) (es : List ChangelogEvent) (w : Waiting items github es s)
    (run : changelogSteps items github es s = some s') :
    InTime items github s' ∧ ((∀ e ∈ es, ¬ e.fails) → s'.failed = s.failed) := by
  induction es generalizing s with
  | nil => cases run; exact ⟨i, fun _ => rfl⟩
  | cons e es ih =>
    simp only [changelogSteps] at run
    cases e1 : e.step items github s with
    | none => rw [e1] at run; cases run
    | some s1 =>
      rw [e1, Option.bind_some] at run
      obtain ⟨i1, f1⟩ := i.step w.1 e1
      obtain ⟨i2, f2⟩ := ih i1 (w.2 s1 e1) run
      exact ⟨i2, fun h => (f2 fun e he => h e (List.mem_cons_of_mem _ he)).trans
        (f1 (h e List.mem_cons_self))⟩

theorem start_failed (items : List String) : (Changelog.start items).failed = [] := by
  unfold Changelog.start Changelog.getReleased; split <;> rfl

/-- **C74.** If the user clicks only when all requests for commits of the version have been answered
then no commit is shown that is not of the version, and none twice: the list is that of the answers, in
the order in which they came, of some of the commits of the version. (Without the condition this is
refuted by `C74_twice_wrong`.) -/
theorem C74_once_partial (items : List String) (github : String → Commit) (es : List ChangelogEvent)
    (s : Changelog) (w : Waiting items github es (Changelog.start items))
    (run : changelogSteps items github es (Changelog.start items) = some s) :
    ∃ got rest : List String, (got ++ rest).Perm items ∧ s.released = got.map github := by
  obtain ⟨i, _⟩ := (InTime.start items github).steps es w run
  rcases i.parts with ⟨_, h⟩ | ⟨got, lost, h1, h2, _⟩
  · exact ⟨[], items, List.Perm.refl _, h⟩
  · exact ⟨got, _, by rw [← List.append_assoc]; exact h1, h2⟩

/-- The state of the list since it was last empty. -/
theorem kept_released {items : List String} {github : String → Commit} {es : List ChangelogEvent}
    {s s' : Changelog} (nc : ∀ e ∈ es, e ≠ .clickCommits)
    (w : Waiting items github es s) (i : InTime items github s)
    (h : s.asked ≠ [] ∨ s.released ≠ [] ∨ items = [])
    (nf : s.failed = []) (nl : ∀ e ∈ es, ¬ e.fails)
    (run : changelogSteps items github es s = some s') :
    s'.asked ≠ [] ∨ s'.released ≠ [] ∨ items = [] := by
  induction es generalizing s with
  | nil => cases run; exact h
  | cons e es ih =>
    simp only [changelogSteps] at run
    cases e1 : e.step items github s with
    | none => rw [e1] at run; cases run
    | some s1 =>
      rw [e1, Option.bind_some] at run
      obtain ⟨i1, f1⟩ := i.step w.1 e1
      have nl1 := nl e List.mem_cons_self
      refine ih (fun e he => nc e (List.mem_cons_of_mem _ he)) (w.2 s1 e1) i1 ?_
        ((f1 nl1).trans nf) (fun e he => nl e (List.mem_cons_of_mem _ he)) run
      cases e with
      | clickCommits => exact absurd rfl (nc _ List.mem_cons_self)
      | lostReleased k m => exact absurd trivial nl1
      | clickReleased =>
        cases e1
        unfold Changelog.getReleased
        split
        · exact h
        · cases items with
          | nil => exact .inr (.inr rfl)
          | cons x xs => exact .inl (by simp)
      | gotReleased k =>
        simp only [ChangelogEvent.step, Option.map_eq_some_iff] at e1
        obtain ⟨a, ha, rfl⟩ := e1
        exact .inr (.inl (by simp [Changelog.arrive]))
      | gotCommits cs =>
        simp only [ChangelogEvent.step] at e1
        split at e1 <;> cases e1
        exact h
      | lostCommits m =>
        simp only [ChangelogEvent.step] at e1
        split at e1 <;> cases e1
        exact h

theorem after_click (items : List String) (s : Changelog) :
    (s.getReleased items).asked ≠ [] ∨ (s.getReleased items).released ≠ [] ∨ items = [] := by
  unfold Changelog.getReleased
  split
  · rename_i h
    exact .inr (.inl fun e => by rw [e] at h; simp at h)
  · cases items with
    | nil => exact .inr (.inr rfl)
    | cons x xs => exact .inl (by simp)

/-- **C74.** If the user clicks only when all requests for commits of the version have been answered,
and GitHub answers all of them, then, since the drawer was opened or since the last click on the tab of
the version, as long as the other tab is not clicked: the commits of the version are being loaded, and
the tab says so, exactly while a request is unanswered; and afterwards each of them is shown exactly
once, in the order of the answers. (Without the conditions this is refuted by `C74_twice_wrong`,
`C74_missing_wrong` and `C74_spinner_wrong`.) -/
theorem C74_complete_partial (items : List String) (github : String → Commit)
    (es ds : List ChangelogEvent) (s : Changelog) (hes : es = [] ∨ es.getLast? = some .clickReleased)
    (nc : ∀ e ∈ ds, e ≠ .clickCommits) (nl : ∀ e ∈ es ++ ds, ¬ e.fails)
    (w : Waiting items github (es ++ ds) (Changelog.start items))
    (run : changelogSteps items github (es ++ ds) (Changelog.start items) = some s) :
    (s.loadingReleased = true ↔ s.asked ≠ []) ∧
    (s.loadingReleased = false → s.released.Perm (items.map github)) := by
  obtain ⟨i, f⟩ := (InTime.start items github).steps _ w run
  have f0 : s.failed = [] := (f nl).trans (start_failed items)
  have lo := i.loading f0
  refine ⟨lo, fun hl => ?_⟩
  have ha : s.asked = [] := Classical.byContradiction fun n => by rw [lo.2 n] at hl; cases hl
  have key : s.asked ≠ [] ∨ s.released ≠ [] ∨ items = [] := by
    rw [changelogSteps_append] at run
    cases e1 : changelogSteps items github es (Changelog.start items) with
    | none => rw [e1] at run; cases run
    | some s1 =>
      rw [e1, Option.bind_some] at run
      obtain ⟨w1, w2⟩ := w.split e1
      obtain ⟨i1, f1⟩ := (InTime.start items github).steps es w1 e1
      refine kept_released nc w2 i1 ?_ ((f1 fun e he => nl e (List.mem_append_left _ he)).trans
        (start_failed items)) (fun e he => nl e (List.mem_append_right _ he)) run
      rcases hes with rfl | hes
      · cases e1; exact after_click items _
      · obtain ⟨es', rfl⟩ := List.getLast?_eq_some_iff.1 hes
        rw [changelogSteps_append] at e1
        cases e2 : changelogSteps items github es' (Changelog.start items) with
        | none => rw [e2] at e1; cases e1
        | some s2 => rw [e2] at e1; cases e1; exact after_click items s2
  rcases i.parts with ⟨_, h⟩ | ⟨got, lost, h1, h2, h3⟩
  · rcases key with k | k | k
    · exact absurd ha k
    · exact absurd h k
    · rw [h, k]; exact List.Perm.refl _
  · rw [h3 f0, ha] at h1
    simp only [List.map_nil, List.append_nil] at h1
    rw [h2]
    exact h1.map github

/-! ## Every user -/

/-- What holds whatever is clicked. -/
structure Spins (s : Changelog) : Prop where
  asked : ∀ a ∈ s.asked, a.round < s.rounds
  failed : ∀ r ∈ s.failed, r < s.rounds
  released : s.loadingReleased = true → ∃ a ∈ s.asked, a.round ∉ s.failed
  commits : s.loadingCommits = true → s.history ≠ 0

theorem Spins.getReleased {s : Changelog} (i : Spins s) (items : List String) :
    Spins (s.getReleased items) := by
  unfold Changelog.getReleased
  split
  · exact i
  · refine ⟨fun a m => ?_, fun r h => Nat.lt_succ_of_lt (i.failed r h), fun h => ?_, i.commits⟩
    · simp only [List.mem_append, List.mem_map] at m
      rcases m with m | ⟨x, _, rfl⟩
      · exact Nat.lt_succ_of_lt (i.asked a m)
      · exact Nat.lt_succ_self _
    · cases items with
      | nil => cases h
      | cons x xs =>
        exact ⟨⟨s.rounds, x⟩, by simp, fun h => Nat.lt_irrefl _ (i.failed _ h)⟩

theorem Spins.getCommits {s : Changelog} (i : Spins s) : Spins s.getCommits := by
  unfold Changelog.getCommits
  split
  · exact i
  · exact ⟨i.asked, i.failed, i.released, fun _ => by simp⟩

theorem Spins.arrive {s : Changelog} (i : Spins s) {k : Nat} {a : Asked}
    (ha : s.asked[k]? = some a) (c : Commit) : Spins (s.arrive k a c) := by
  have p := eraseIdx_perm' ha
  have sub : ∀ b ∈ s.asked.eraseIdx k, b ∈ s.asked := fun b hb => p.subset (List.mem_cons_of_mem _ hb)
  refine ⟨fun b hb => i.asked b (sub b hb), i.failed, fun h => ?_, i.commits⟩
  simp only [Changelog.arrive, Bool.and_eq_true, Bool.or_eq_true, List.contains_iff_mem, List.any_eq_true,
    beq_iff_eq] at h ⊢
  by_cases hf : a.round ∈ s.failed
  · obtain ⟨b, hb, hn⟩ := i.released h.1
    refine ⟨b, ?_, hn⟩
    rcases List.mem_cons.1 (p.symm.subset hb) with rfl | m
    · exact absurd hf hn
    · exact m
  · obtain ⟨b, m, e⟩ := h.2.resolve_left hf
    exact ⟨b, m, by rw [e]; exact hf⟩

theorem Spins.lose {s : Changelog} (i : Spins s) {k : Nat} {a : Asked}
    (ha : s.asked[k]? = some a) (m : String) : Spins (s.lose k a m) := by
  have p := eraseIdx_perm' ha
  have ma : a ∈ s.asked := p.subset List.mem_cons_self
  have sub : ∀ b ∈ s.asked.eraseIdx k, b ∈ s.asked := fun b hb => p.subset (List.mem_cons_of_mem _ hb)
  unfold Changelog.lose
  split
  · rename_i hf
    rw [List.contains_iff_mem] at hf
    refine ⟨fun b hb => i.asked b (sub b hb), i.failed, fun h => ?_, i.commits⟩
    obtain ⟨b, hb, hn⟩ := i.released h
    refine ⟨b, ?_, hn⟩
    rcases List.mem_cons.1 (p.symm.subset hb) with rfl | m
    · exact absurd hf hn
    · exact m
  · refine ⟨fun b hb => i.asked b (sub b hb), fun r hr => ?_, (fun h => by cases h), i.commits⟩
    rcases List.mem_cons.1 hr with rfl | m
    · exact i.asked a ma
    · exact i.failed r m

theorem Spins.start (items : List String) : Spins (Changelog.start items) :=
  Spins.getReleased ⟨(fun a h => by cases h), (fun a h => by cases h),
    (fun h => by cases h), fun h => by cases h⟩ items

theorem Spins.step {items : List String} {github : String → Commit} {s s' : Changelog}
    (i : Spins s) {e : ChangelogEvent} (run : e.step items github s = some s') : Spins s' := by
  cases e with
  | clickReleased => cases run; exact i.getReleased items
  | clickCommits => cases run; exact i.getCommits
  | gotReleased k =>
    simp only [ChangelogEvent.step, Option.map_eq_some_iff] at run
    obtain ⟨a, ha, rfl⟩ := run
    exact i.arrive ha _
  | lostReleased k m =>
    simp only [ChangelogEvent.step, Option.map_eq_some_iff] at run
    obtain ⟨a, ha, rfl⟩ := run
    exact i.lose ha m
  | gotCommits cs =>
    simp only [ChangelogEvent.step] at run
    split at run <;> cases run
    exact ⟨i.asked, i.failed, i.released, fun h => by cases h⟩
  | lostCommits m =>
    simp only [ChangelogEvent.step] at run
    split at run <;> cases run
    exact ⟨i.asked, i.failed, i.released, fun h => by cases h⟩

theorem changelog_ind {items : List String} {github : String → Commit} {P : Changelog → Prop}
    (step : ∀ e s s', P s → ChangelogEvent.step items github e s = some s' → P s')
    {s s' : Changelog} (h : P s) (es : List ChangelogEvent)
    (run : changelogSteps items github es s = some s') : P s' := by
  induction es generalizing s with
  | nil => cases run; exact h
  | cons e es ih =>
    simp only [changelogSteps] at run
    cases e1 : e.step items github s with
    | none => rw [e1] at run; cases run
    | some s1 => rw [e1, Option.bind_some] at run; exact ih (step e s s1 h e1) run

/-- **C74.** Whatever is clicked and however GitHub answers, a tab that says that it is loading waits for
an answer: when all requests have been answered, neither does. -/
theorem C74_ends (items : List String) (github : String → Commit) (es : List ChangelogEvent)
    (s : Changelog) (run : changelogSteps items github es (Changelog.start items) = some s) :
    (s.loadingReleased = true → s.asked ≠ []) ∧ (s.loadingCommits = true → s.history ≠ 0) := by
  have i : Spins s := changelog_ind (fun e s s' i r => i.step r) (Spins.start items) es run
  refine ⟨fun h e => ?_, i.commits⟩
  obtain ⟨a, m, _⟩ := i.released h
  rw [e] at m; cases m

/-- The answers to the requests for the latest commits. -/
def ChangelogEvent.told : ChangelogEvent → Option (List Commit)
  | .gotCommits cs => some cs
  | _ => none

/-- **C74.** Whatever is clicked and however GitHub answers, the tab of the commits shows the last list
that GitHub has sent, and nothing before; an error that it shows is one that GitHub has sent. -/
theorem C74_history (items : List String) (github : String → Commit) (es : List ChangelogEvent)
    (s : Changelog) (run : changelogSteps items github es (Changelog.start items) = some s) :
    s.commits = ((es.filterMap (·.told)).getLast?).getD [] ∧
    ∀ m, s.commitsError = some m → .lostCommits m ∈ es := by
  have st : (Changelog.start items).commits = [] ∧ (Changelog.start items).commitsError = none := by
    unfold Changelog.start Changelog.getReleased; split <;> exact ⟨rfl, rfl⟩
  have key : ∀ (es : List ChangelogEvent) (s0 s : Changelog), changelogSteps items github es s0 = some s →
      s.commits = ((es.filterMap (·.told)).getLast?).getD s0.commits ∧
      ∀ m, s.commitsError = some m → s0.commitsError = some m ∨ .lostCommits m ∈ es := by
    intro es
    induction es with
    | nil => intro s0 s run; cases run; exact ⟨rfl, fun m h => .inl h⟩
    | cons e es ih =>
      intro s0 s run
      simp only [changelogSteps] at run
      cases e1 : e.step items github s0 with
      | none => rw [e1] at run; cases run
      | some s1 =>
        rw [e1, Option.bind_some] at run
        obtain ⟨k1, k2⟩ := ih s1 s run
        have h1 : s1.commits = e.told.getD s0.commits ∧
            ∀ m, s1.commitsError = some m → s0.commitsError = some m ∨ e = .lostCommits m := by
          cases e with
          | clickReleased =>
            cases e1; unfold Changelog.getReleased; split <;> exact ⟨rfl, fun m h => .inl h⟩
          | clickCommits =>
            cases e1; unfold Changelog.getCommits; split
            · exact ⟨rfl, fun m h => .inl h⟩
            · exact ⟨rfl, fun m h => by cases h⟩
          | gotReleased k =>
            simp only [ChangelogEvent.step, Option.map_eq_some_iff] at e1
            obtain ⟨a, ha, rfl⟩ := e1
            exact ⟨rfl, fun m h => .inl h⟩
          | lostReleased k m =>
            simp only [ChangelogEvent.step, Option.map_eq_some_iff] at e1
            obtain ⟨a, ha, rfl⟩ := e1
            unfold Changelog.lose; split <;> exact ⟨rfl, fun m h => .inl h⟩
          | gotCommits cs =>
            simp only [ChangelogEvent.step] at e1
            split at e1 <;> cases e1
            exact ⟨rfl, fun m h => .inl h⟩
          | lostCommits m =>
            simp only [ChangelogEvent.step] at e1
            split at e1 <;> cases e1
            exact ⟨rfl, fun m' h => by cases h; exact .inr rfl⟩
        refine ⟨?_, fun m h => ?_⟩
        · rw [k1, h1.1]
          cases ht : e.told with
          | none => rw [List.filterMap_cons_none ht]; rfl
          | some cs =>
            rw [List.filterMap_cons_some ht]
            cases es.filterMap (·.told) with
            | nil => rfl
            | cons x xs => rw [List.getLast?_cons_cons]; rw [List.getLast?_cons]; rfl
        · rcases k2 m h with h | h
          · rcases h1.2 m h with h | h
            · exact .inl h
            · exact .inr (by rw [h]; exact List.mem_cons_self)
          · exact .inr (List.mem_cons_of_mem _ h)
  obtain ⟨k1, k2⟩ := key es _ s run
  rw [st.1] at k1
  exact ⟨k1, fun m h => (k2 m h).resolve_left (by rw [st.2]; exact fun h => by cases h)⟩

/-! ## What is wrong -/

/-- **C74.** Whatever is clicked and however GitHub answers, the tab of the version shows an error exactly
if a request for one of its commits has failed. So commits are missing without an error only as in
`C74_missing_wrong`. -/
theorem C74_error (items : List String) (github : String → Commit) (es : List ChangelogEvent)
    (s : Changelog) (run : changelogSteps items github es (Changelog.start items) = some s) :
    s.releasedError ≠ none ↔ ∃ e ∈ es, e.fails := by
  have key : ∀ (es : List ChangelogEvent) (s0 s : Changelog), changelogSteps items github es s0 = some s →
      (s0.failed ≠ [] → s0.releasedError ≠ none) →
      (s.releasedError ≠ none ↔ s0.releasedError ≠ none ∨ ∃ e ∈ es, e.fails) := by
    intro es
    induction es with
    | nil => intro s0 s run _; cases run; simp
    | cons e es ih =>
      intro s0 s run inv
      simp only [changelogSteps] at run
      cases e1 : e.step items github s0 with
      | none => rw [e1] at run; cases run
      | some s1 =>
        rw [e1, Option.bind_some] at run
        have h1 : (s1.failed ≠ [] → s1.releasedError ≠ none) ∧
            (s1.releasedError ≠ none ↔ s0.releasedError ≠ none ∨ e.fails) := by
          cases e with
          | clickReleased =>
            cases e1; unfold Changelog.getReleased; split <;> exact ⟨inv, ⟨.inl, fun o => o.resolve_right id⟩⟩
          | clickCommits =>
            cases e1; unfold Changelog.getCommits; split <;> exact ⟨inv, ⟨.inl, fun o => o.resolve_right id⟩⟩
          | gotReleased k =>
            simp only [ChangelogEvent.step, Option.map_eq_some_iff] at e1
            obtain ⟨a, ha, rfl⟩ := e1
            exact ⟨inv, ⟨.inl, fun o => o.resolve_right id⟩⟩
          | lostReleased k m =>
            simp only [ChangelogEvent.step, Option.map_eq_some_iff] at e1
            obtain ⟨a, ha, rfl⟩ := e1
            unfold Changelog.lose
            split
            · rename_i hc
              have nf : s0.failed ≠ [] := fun n => by rw [n] at hc; cases hc
              exact ⟨inv, fun _ => .inr trivial, fun _ => inv nf⟩
            · exact ⟨fun _ h => (by cases h), fun _ => .inr trivial, fun _ h => (by cases h)⟩
          | gotCommits cs =>
            simp only [ChangelogEvent.step] at e1
            split at e1 <;> cases e1
            exact ⟨inv, ⟨.inl, fun o => o.resolve_right id⟩⟩
          | lostCommits m =>
            simp only [ChangelogEvent.step] at e1
            split at e1 <;> cases e1
            exact ⟨inv, ⟨.inl, fun o => o.resolve_right id⟩⟩
        rw [ih s1 s run h1.1, h1.2, or_assoc]
        simp
  have st : (Changelog.start items).failed = [] ∧ (Changelog.start items).releasedError = none := by
    unfold Changelog.start Changelog.getReleased; split <;> exact ⟨rfl, rfl⟩
  rw [key es _ s run (fun h => absurd st.1 h), st.2]
  simp

/-- Of the seven requests one fails: the other six commits are shown, and the error. -/
example (github : String → Commit) : ∃ s, changelogSteps currentVersion github
    (.lostReleased 0 "x" :: List.replicate 6 (.gotReleased 0)) (Changelog.start currentVersion) = some s ∧
    s.releasedError = some "x" ∧ s.released.length = 6 := by
  simp [changelogSteps, ChangelogEvent.step, Changelog.start, Changelog.getReleased, Changelog.arrive,
    Changelog.lose, currentVersion]

/-- **C74.** It is not true that a commit of the version is shown only once: if the tab of the version is
clicked before the first answer, all of them are shown twice when all requests have been answered. -/
theorem C74_twice_wrong (github : String → Commit) : ∃ s,
    changelogSteps currentVersion github (.clickReleased :: List.replicate 14 (.gotReleased 0))
      (Changelog.start currentVersion) = some s ∧
    s.loadingReleased = false ∧ s.releasedError = none ∧
    s.released = currentVersion.map github ++ currentVersion.map github := by
  simp [changelogSteps, ChangelogEvent.step, Changelog.start, Changelog.getReleased, Changelog.arrive,
    currentVersion, List.replicate]

/-- **C74.** It is not true that the tab says that it is loading as long as it is: in the same session, it
does not while seven requests are unanswered. -/
theorem C74_spinner_wrong (github : String → Commit) : ∃ s,
    changelogSteps currentVersion github (.clickReleased :: List.replicate 7 (.gotReleased 0))
      (Changelog.start currentVersion) = some s ∧
    s.loadingReleased = false ∧ s.asked.length = 7 := by
  simp [changelogSteps, ChangelogEvent.step, Changelog.start, Changelog.getReleased, Changelog.arrive,
    currentVersion, List.replicate]

/-- **C74.** It is not true that all commits of the version are shown when all requests have been answered
and no error is shown: if the other tab is clicked after three answers, those three are removed, though
they are not in that tab; and then no click on the tab of the version brings them back. -/
theorem C74_missing_wrong (github : String → Commit) : ∃ s,
    changelogSteps currentVersion github
      (List.replicate 3 (.gotReleased 0) ++ [.clickCommits] ++ List.replicate 4 (.gotReleased 0) ++
        [.gotCommits []]) (Changelog.start currentVersion) = some s ∧
    s.asked = [] ∧ s.history = 0 ∧ s.loadingReleased = false ∧ s.releasedError = none ∧
    s.released = (currentVersion.drop 3).map github ∧
    ∀ n, changelogSteps currentVersion github (List.replicate n .clickReleased) s = some s := by
  refine ⟨_, rfl, rfl, rfl, rfl, rfl, rfl, fun n => ?_⟩
  induction n with
  | zero => rfl
  | succ n ih => exact ih

/-- **C74.** It is not true that an error is shown only until the commits could be loaded: if all requests
fail and the tab is clicked again, the error stays although all commits are shown. -/
theorem C74_error_wrong (github : String → Commit) (m : String) : ∃ s,
    changelogSteps currentVersion github
      (List.replicate 7 (.lostReleased 0 m) ++ [.clickReleased] ++ List.replicate 7 (.gotReleased 0))
      (Changelog.start currentVersion) = some s ∧
    s.asked = [] ∧ s.released = currentVersion.map github ∧ s.releasedError = some m := by
  simp [changelogSteps, ChangelogEvent.step, Changelog.start, Changelog.getReleased, Changelog.arrive,
    Changelog.lose, currentVersion, List.replicate]

/-! ## Examples -/

/-- A session with patience: all commits come, in another order; the other tab is opened, which empties
the list; the first one is opened again, and the commits are loaded again. -/
example (github : String → Commit) : ∃ s,
    Waiting currentVersion github (List.replicate 7 (.gotReleased 0) ++ [.clickCommits, .gotCommits [],
      .clickReleased] ++ [.gotReleased 6, .gotReleased 0, .gotReleased 0]) (Changelog.start currentVersion) ∧
    changelogSteps currentVersion github (List.replicate 7 (.gotReleased 0) ++ [.clickCommits,
      .gotCommits [], .clickReleased] ++ [.gotReleased 6, .gotReleased 0, .gotReleased 0])
      (Changelog.start currentVersion) = some s ∧
    s.loadingReleased = true ∧ s.asked.length = 4 ∧ s.released.length = 3 := by
  simp [changelogSteps, ChangelogEvent.step, Changelog.start, Changelog.getReleased, Changelog.arrive,
    Changelog.getCommits, currentVersion, List.replicate, Waiting, ChangelogEvent.isClick]

end Mpp.Front
