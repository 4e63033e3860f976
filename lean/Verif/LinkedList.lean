import Verif.Names
/-!
# `lib/linkedlist.c` and the list part of `lib/watcher.c`

Nodes live in a heap; NULL is `none`. Reading or writing a node that does not exist is undefined
behaviour (`none`). Loops carry the number of nodes ever allocated as fuel: a walk over more nodes
than that has met a cycle and would not end; this outcome is also `none`.

`Repr` says that a heap pointer represents a list of values; the theorems at the end show that the
C functions are list operations, which is how the other layers use them.
-/
namespace Mpp.LL

variable {α : Type} [DecidableEq α]

/-- `LlNode` (`linkedlist.h:3-6`): a value pointer (compared by address) and the next node. -/
structure Node (α : Type) where
  value : α
  next : Option Nat

/-- The node heap. -/
structure Heap (α : Type) where
  node : Nat → Option (Node α)
  brk : Nat

/-- `create_ll_node` (`linkedlist.c:6-11`). -/
def create (h : Heap α) (v : α) (next : Option Nat) : Nat × Heap α :=
  (h.brk, { node := upd h.node h.brk (some ⟨v, next⟩), brk := h.brk + 1 })

/-- The walk to the last node (`linkedlist.c:14-17`, `watcher.c:28-31`). -/
def last (h : Heap α) : Nat → Nat → Option Nat
  | 0, _ => none
  | fuel + 1, cur =>
    match h.node cur with
    | none => none
    | some n => match n.next with
      | none => some cur
      | some p => last h fuel p

/-- `push_ll_node` (`linkedlist.c:13-22`) for a given head pointer. -/
def push (h : Heap α) (head : Option Nat) (v : α) (next : Option Nat) : Option (Nat × Heap α) :=
  match head with
  | none => none
  | some a =>
    match last h h.brk a with
    | none => none
    | some cur =>
      let (p, h1) := create h v next
      match h1.node cur with
      | none => none
      | some n => some (p, { h1 with node := upd h1.node cur (some { n with next := some p }) })

/-- Result of `get_node_from_value` (`linkedlist.h:11-16`). -/
structure Found where
  prev : Option Nat
  node : Option Nat
  next : Option Nat
  found : Bool

/-- The search loop (`linkedlist.c:27-47`). -/
def search (h : Heap α) (v : α) : Nat → Option Nat → Option Nat → Option Found
  | _, prev, none => some ⟨prev, none, none, false⟩
  | 0, _, some _ => none
  | fuel + 1, prev, some cur =>
    match h.node cur with
    | none => none
    | some n =>
      if n.value = v then some ⟨prev, some cur, n.next, true⟩
      else search h v fuel (some cur) n.next

/-- `get_node_from_value` (`linkedlist.c:24-48`). -/
def getNode (h : Heap α) (head : Option Nat) (v : α) : Option Found := search h v h.brk none head

/-- `delete_node_from_value` (`linkedlist.c:57-72`): returned flag, new head, heap. -/
def delete (h : Heap α) (head : Option Nat) (v : α) : Option (Bool × Option Nat × Heap α) :=
  match getNode h head v with
  | none => none
  | some t =>
    if t.found = false then some (false, head, h)
    else match t.node with
      | none => none
      | some a =>
        match h.node a with
        | none => none
        | some n =>
          match t.prev with
          | none => some (true, n.next, { h with node := upd h.node a none })
          | some p =>
            match h.node p with
            | none => none
            | some pn =>
              some (true, head,
                { h with node := upd (upd h.node p (some { pn with next := n.next })) a none })

/-- `register_watcher` (`watcher.c:22-34`), with the list head as an argument; also the list part
of `subscribe_to` (`pubsub.c:44-48`). -/
def append (h : Heap α) (head : Option Nat) (v : α) : Option (Option Nat × Heap α) :=
  match head with
  | none => let (p, h1) := create h v none; some (some p, h1)
  | some _ => (push h head v none).map fun r => (head, r.2)

/-! ## Representation of lists -/

/-- The nodes from pointer `p` on are at the addresses and hold the values of `xs`. -/
def Seg (h : Heap α) : Option Nat → List (Nat × α) → Prop
  | p, [] => p = none
  | p, (a, v) :: xs => p = some a ∧ ∃ q, h.node a = some ⟨v, q⟩ ∧ Seg h q xs

/-- Pointer `p` represents the list of values `vs`. -/
def Repr (h : Heap α) (p : Option Nat) (vs : List α) : Prop :=
  ∃ xs : List (Nat × α), Seg h p xs ∧ (xs.map Prod.fst).Nodup ∧
    (∀ a ∈ xs.map Prod.fst, a < h.brk) ∧ xs.map Prod.snd = vs

omit [DecidableEq α] in
theorem Seg.frame {h h' : Heap α} {p : Option Nat} {xs : List (Nat × α)} (hs : Seg h p xs)
    (hf : ∀ a ∈ xs.map Prod.fst, h'.node a = h.node a) : Seg h' p xs := by
  induction xs generalizing p with
  | nil => exact hs
  | cons x xs ih =>
    obtain ⟨a, v⟩ := x
    obtain ⟨h1, q, h2, h3⟩ := hs
    refine ⟨h1, q, ?_, ih h3 (fun b hb => hf b (by simp [hb]))⟩
    rw [hf a (by simp), h2]

theorem length_le_of_nodup_lt {xs : List Nat} {n : Nat} (hn : xs.Nodup) (hl : ∀ a ∈ xs, a < n) :
    xs.length ≤ n := by
  have h2 : xs ⊆ List.range n := fun a ha => List.mem_range.2 (hl a ha)
  simpa using hn.length_le_of_subset h2

omit [DecidableEq α] in
theorem last_seg {h : Heap α} {xs : List (Nat × α)} {x : Nat × α} {a : Nat}
    (hs : Seg h (some a) (xs ++ [x])) (fuel : Nat) (hf : xs.length < fuel) :
    last h fuel a = some x.1 := by
  induction xs generalizing a fuel with
  | nil =>
    obtain ⟨b, v⟩ := x
    obtain ⟨h1, q, h2, h3⟩ := hs
    cases fuel with
    | zero => simp at hf
    | succ fuel =>
      cases h1
      cases h3
      simp [last, h2]
  | cons y ys ih =>
    obtain ⟨b, v⟩ := y
    obtain ⟨h1, q, h2, h3⟩ := hs
    cases fuel with
    | zero => simp at hf
    | succ fuel =>
      cases h1
      cases q with
      | none =>
        cases ys with
        | nil => obtain ⟨e, _⟩ := h3; cases e
        | cons z zs => obtain ⟨e, _⟩ := h3; cases e
      | some q =>
        simp only [last, h2]
        exact ih h3 fuel (by simpa using hf)

omit [DecidableEq α] in
theorem append_repr {h : Heap α} {head : Option Nat} {vs : List α} (hr : Repr h head vs) (v : α) :
    ∃ head' h', append h head v = some (head', h') ∧ Repr h' head' (vs ++ [v]) := by
  obtain ⟨xs, hs, hnd, hlt, rfl⟩ := hr
  rcases List.eq_nil_or_concat xs with rfl | ⟨ys, y, rfl⟩
  · cases hs
    refine ⟨some h.brk, _, rfl, [(h.brk, v)], ⟨rfl, none, by simp, rfl⟩, by simp, ?_, by simp⟩
    simp
  · obtain ⟨b, w⟩ := y
    rw [List.concat_eq_append] at *
    cases head with
    | none => cases ys with
      | nil => obtain ⟨e, _⟩ := hs; cases e
      | cons z zs => obtain ⟨e, _⟩ := hs; cases e
    | some a =>
      have hlen := length_le_of_nodup_lt hnd hlt
      simp at hlen
      have hl := last_seg hs h.brk (by omega)
      have hb : b < h.brk := hlt b (by simp)
      have hbn : ∃ q, h.node b = some ⟨w, q⟩ := by
        clear hl hnd hlt hlen hb
        generalize some a = p at hs
        induction ys generalizing p with
        | nil => obtain ⟨_, q, h2, _⟩ := hs; exact ⟨q, h2⟩
        | cons z zs ih => obtain ⟨_, q, _, h3⟩ := hs; exact ih q h3
      obtain ⟨q, hbn⟩ := hbn
      have hne : b ≠ h.brk := by omega
      have e1 : (upd h.node h.brk (some ⟨v, none⟩)) b = some ⟨w, q⟩ := by
        rw [upd_ne _ _ hne, hbn]
      refine ⟨some a, _, by simp only [append, push, hl, create, e1, Option.map_some]; rfl, ?_⟩
      refine ⟨ys ++ [(b, w)] ++ [(h.brk, v)], ?_, ?_, ?_, by simp⟩
      · -- the segment
        have hnd' : (ys.map Prod.fst ++ [b]).Nodup := by simpa using hnd
        have key : ∀ (zs : List (Nat × α)) (p : Option Nat), Seg h p (zs ++ [(b, w)]) →
            (∀ c ∈ zs.map Prod.fst, c ≠ b ∧ c ≠ h.brk) →
            Seg { node := upd (upd h.node h.brk (some ⟨v, none⟩)) b (some ⟨w, some h.brk⟩),
                  brk := h.brk + 1 } p (zs ++ [(b, w)] ++ [(h.brk, v)]) := by
          intro zs
          induction zs with
          | nil =>
            intro p hp _
            obtain ⟨h1, q', h2, h3⟩ := hp
            refine ⟨h1, some h.brk, by simp, rfl, none, ?_, rfl⟩
            simp only
            rw [upd_ne _ _ (Ne.symm hne), upd_same]
          | cons z zs ih =>
            intro p hp hc
            obtain ⟨c, u⟩ := z
            obtain ⟨h1, q', h2, h3⟩ := hp
            have := hc c (by simp)
            refine ⟨h1, q', ?_, ih q' h3 (fun d hd => hc d (by simp at hd ⊢; right; exact hd))⟩
            simp only
            rw [upd_ne _ _ this.1, upd_ne _ _ this.2, h2]
        apply key ys _ hs
        intro c hc
        have hcl := hlt c (by rw [List.map_append]; exact List.mem_append_left _ hc)
        refine ⟨?_, by omega⟩
        intro e
        subst e
        exact (List.nodup_append.1 hnd').2.2 c hc c (by simp) rfl
      · rw [List.map_append]
        refine List.nodup_append.2 ⟨hnd, by simp, ?_⟩
        intro c hc d hd
        simp only [List.map_cons, List.map_nil, List.mem_singleton] at hd
        subst hd
        have := hlt c hc
        omega
      · intro c hc
        rw [List.map_append] at hc
        rcases List.mem_append.1 hc with hc | hc
        · have := hlt c hc; show c < h.brk + 1; omega
        · simp at hc; subst hc; show h.brk < h.brk + 1; omega

/-- The search finds the first node with the value: its address, its predecessor and successor. -/
theorem search_spec {h : Heap α} {v : α} (xs : List (Nat × α)) {p : Option Nat} (hs : Seg h p xs)
    (fuel : Nat) (hf : xs.length ≤ fuel) (prev : Option Nat) :
    (v ∉ xs.map Prod.snd ∧ ∃ pr, search h v fuel prev p = some ⟨pr, none, none, false⟩) ∨
    (∃ ys a zs q, xs = ys ++ (a, v) :: zs ∧ v ∉ ys.map Prod.snd ∧ h.node a = some ⟨v, q⟩ ∧
      search h v fuel prev p =
        some ⟨match ys.getLast? with | none => prev | some y => some y.1, some a, q, true⟩) := by
  induction xs generalizing p prev fuel with
  | nil =>
    cases hs
    left
    refine ⟨by simp, prev, ?_⟩
    cases fuel <;> rfl
  | cons x xs ih =>
    obtain ⟨a, w⟩ := x
    obtain ⟨h1, q, h2, h3⟩ := hs
    subst h1
    cases fuel with
    | zero => simp at hf
    | succ fuel =>
      simp only [search, h2]
      by_cases hw : w = v
      · right
        subst hw
        exact ⟨[], a, xs, q, rfl, by simp, h2, by simp⟩
      · simp only [hw, if_false]
        rcases ih h3 fuel (by simpa using hf) (some a) with ⟨hn, pr, he⟩ | ⟨ys, b, zs, r, he, hn, hb, hse⟩
        · left
          refine ⟨?_, pr, he⟩
          simp only [List.map_cons, List.mem_cons, not_or]
          exact ⟨fun e => hw e.symm, hn⟩
        · right
          refine ⟨(a, w) :: ys, b, zs, r, by rw [he]; rfl, ?_, hb, ?_⟩
          · simp only [List.map_cons, List.mem_cons, not_or]
            exact ⟨fun e => hw e.symm, hn⟩
          · rw [hse]
            rw [List.getLast?_cons]
            cases hg : ys.getLast? <;> simp

omit [DecidableEq α] in
/-- Removing the node after `b` from a segment, by redirecting `b` and freeing the node. -/
theorem seg_unlink {h : Heap α} {a b : Nat} {v u : α} {q : Option Nat} (zs : List (Nat × α))
    (hq : h.node a = some ⟨v, q⟩) (hab : a ≠ b) (hz : ∀ c ∈ zs.map Prod.fst, c ≠ a ∧ c ≠ b)
    (us : List (Nat × α)) (p : Option Nat) (hs : Seg h p (us ++ (b, u) :: (a, v) :: zs))
    (hu : ∀ c ∈ us.map Prod.fst, c ≠ a ∧ c ≠ b) :
    Seg { h with node := upd (upd h.node b (some ⟨u, q⟩)) a none } p (us ++ (b, u) :: zs) := by
  induction us generalizing p with
  | nil =>
    obtain ⟨h1, r, h2, h3, s, h4, h5⟩ := hs
    have : s = q := by rw [hq] at h4; cases h4; rfl
    subst this
    refine ⟨h1, s, ?_, h5.frame ?_⟩
    · simp only
      rw [upd_ne _ _ (Ne.symm hab), upd_same]
    · intro c hc
      have := hz c hc
      simp only
      rw [upd_ne _ _ this.1, upd_ne _ _ this.2]
  | cons w us ih =>
    obtain ⟨c, x⟩ := w
    obtain ⟨h1, r, h2, h3⟩ := hs
    have := hu c (by simp)
    refine ⟨h1, r, ?_, ih r h3 (fun d hd => hu d (by simp at hd ⊢; right; exact hd))⟩
    simp only
    rw [upd_ne _ _ this.1, upd_ne _ _ this.2, h2]

omit [DecidableEq α] in
theorem seg_node {h : Heap α} {b : Nat} {u : α} {zs : List (Nat × α)} (us : List (Nat × α))
    (p : Option Nat) (hs : Seg h p (us ++ (b, u) :: zs)) : ∃ r, h.node b = some ⟨u, r⟩ := by
  induction us generalizing p with
  | nil => obtain ⟨_, r, h2, _⟩ := hs; exact ⟨r, h2⟩
  | cons w us ih => obtain ⟨_, r, _, h3⟩ := hs; exact ih r h3

theorem erase_first {ys zs : List α} {v : α} (h : v ∉ ys) : (ys ++ v :: zs).erase v = ys ++ zs := by
  rw [List.erase_append_right _ h]
  simp

theorem delete_repr {h : Heap α} {head : Option Nat} {vs : List α} (hr : Repr h head vs) (v : α) :
    ∃ head' h', delete h head v = some (decide (v ∈ vs), head', h') ∧ Repr h' head' (vs.erase v) ∧
      (v ∉ vs → head' = head ∧ h' = h) := by
  obtain ⟨xs, hs, hnd, hlt, rfl⟩ := hr
  have hlen := length_le_of_nodup_lt hnd hlt
  rw [List.length_map] at hlen
  rcases search_spec (v := v) xs hs h.brk hlen none with ⟨hn, pr, he⟩ | ⟨ys, a, zs, q, rfl, hn, ha, he⟩
  · refine ⟨head, h, by simp [delete, getNode, he, hn], ?_, fun _ => ⟨rfl, rfl⟩⟩
    rw [List.erase_of_not_mem hn]
    exact ⟨xs, hs, hnd, hlt, rfl⟩
  · have hmem : v ∈ (ys ++ (a, v) :: zs).map Prod.snd := by simp
    have herase : ((ys ++ (a, v) :: zs).map Prod.snd).erase v = (ys ++ zs).map Prod.snd := by
      simp only [List.map_append, List.map_cons]
      rw [erase_first hn]
    have hnd2 : ((ys ++ zs).map Prod.fst).Nodup := by
      simp only [List.map_append, List.map_cons] at hnd ⊢
      exact List.Nodup.sublist (List.Sublist.append_left (List.sublist_cons_self _ _) _) hnd
    have hlt2 : ∀ c ∈ (ys ++ zs).map Prod.fst, c < h.brk := by
      intro c hc
      apply hlt
      simp only [List.map_append, List.map_cons, List.mem_append, List.mem_cons] at hc ⊢
      rcases hc with hc | hc
      · left; exact hc
      · right; right; exact hc
    have hnd3 := hnd
    simp only [List.map_append, List.map_cons] at hnd3
    obtain ⟨hndy, hndz, hdis⟩ := List.nodup_append.1 hnd3
    have haz : ∀ c ∈ zs.map Prod.fst, c ≠ a := by
      intro c hc e
      subst e
      exact (List.nodup_cons.1 hndz).1 hc
    rcases List.eq_nil_or_concat ys with rfl | ⟨us, y, rfl⟩
    · obtain ⟨h1, r, h2, h3⟩ := hs
      have : r = q := by rw [ha] at h2; cases h2; rfl
      subst this
      refine ⟨r, { h with node := upd h.node a none }, ?_, ?_, fun h' => absurd hmem h'⟩
      · simp [delete, getNode, he, ha]
      · rw [herase]
        refine ⟨zs, h3.frame ?_, by simpa using hnd2, by simpa using hlt2, by simp⟩
        intro c hc
        simp only
        rw [upd_ne _ _ (haz c hc)]
    · obtain ⟨b, u⟩ := y
      rw [List.concat_eq_append] at *
      obtain ⟨r, hb⟩ := seg_node us head (by simpa using hs)
      refine ⟨head, { h with node := upd (upd h.node b (some ⟨u, q⟩)) a none }, ?_, ?_,
        fun h' => absurd hmem h'⟩
      · rw [decide_eq_true hmem]
        simp [delete, getNode, he, ha, hb]
      · rw [herase]
        have hba : a ≠ b := fun e => hdis b (by simp) a (by simp) e.symm
        refine ⟨us ++ [(b, u)] ++ zs, ?_, hnd2, hlt2, rfl⟩
        rw [List.append_assoc]
        apply seg_unlink (a := a) (v := v) zs ha hba
        · intro c hc
          exact ⟨haz c hc, fun e => hdis b (by simp) c (by simp [List.mem_map] at hc ⊢; right; exact hc) e.symm⟩
        · simpa using hs
        · intro c hc
          refine ⟨fun e => hdis c ?_ a (by simp) e, ?_⟩
          · rw [List.map_append]; exact List.mem_append_left _ hc
          · intro e
            rw [List.map_append] at hndy
            exact (List.nodup_append.1 hndy).2.2 c hc b (by simp) e

/-- `get_register`-style walk (`watcher.c:41-51`): the first value satisfying a test. -/
def findFirst (h : Heap α) (test : α → Bool) : Nat → Option Nat → Option (Option α)
  | _, none => some none
  | 0, some _ => none
  | fuel + 1, some cur =>
    match h.node cur with
    | none => none
    | some n => if test n.value then some (some n.value) else findFirst h test fuel n.next

omit [DecidableEq α] in
theorem findFirst_repr {h : Heap α} {head : Option Nat} {vs : List α} (hr : Repr h head vs)
    (test : α → Bool) : findFirst h test h.brk head = some (vs.find? test) := by
  obtain ⟨xs, hs, hnd, hlt, rfl⟩ := hr
  have hlen := length_le_of_nodup_lt hnd hlt
  rw [List.length_map] at hlen
  clear hnd hlt
  generalize h.brk = fuel at hlen
  induction xs generalizing head fuel with
  | nil => cases hs; cases fuel <;> rfl
  | cons x xs ih =>
    obtain ⟨a, w⟩ := x
    obtain ⟨h1, q, h2, h3⟩ := hs
    subst h1
    cases fuel with
    | zero => simp at hlen
    | succ fuel =>
      simp only [findFirst, h2, List.map_cons, List.find?_cons]
      cases ht : test w
      · simpa using ih h3 fuel (by simpa using hlen)
      · simp

end Mpp.LL
