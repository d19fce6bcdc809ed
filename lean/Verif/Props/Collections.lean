import Verif.Model.Collections
import Mathlib.Data.List.Sublists
import Mathlib.Data.List.Infix
import Mathlib.Algebra.BigOperators.Group.Finset.Basic
import Mathlib.Data.Nat.Choose.Sum

set_option linter.unusedSimpArgs false
set_option linter.unusedVariables false

/-! Properties C05, C06, C07, C08 (collection utilities). -/

namespace PB.CollProps
open PB PB.Coll

variable {α : Type}

/-! ### C05 powerset -/

theorem mem_combinations (l s : List α) (k : Nat) :
    s ∈ combinations l k ↔ s.Sublist l ∧ s.length = k := by
  induction l generalizing s k with
  | nil =>
    cases k with
    | zero => simp only [combinations, List.mem_singleton, List.sublist_nil]
              constructor
              · rintro rfl; simp
              · exact fun h => h.1
    | succ k => simp only [combinations, List.not_mem_nil, false_iff, List.sublist_nil]
                rintro ⟨rfl, h⟩; simp at h
  | cons x xs ih =>
    cases k with
    | zero => simp only [combinations, List.mem_singleton]
              constructor
              · rintro rfl; simp
              · exact fun h => List.length_eq_zero_iff.1 h.2
    | succ k =>
      simp only [combinations, List.mem_append, List.mem_map, ih]
      constructor
      · rintro (⟨t, ⟨h1, h2⟩, rfl⟩ | ⟨h1, h2⟩)
        · exact ⟨h1.cons_cons x, by simp [h2]⟩
        · exact ⟨h1.cons x, h2⟩
      · rintro ⟨h1, h2⟩
        cases h1 with
        | cons _ h => exact Or.inr ⟨h, h2⟩
        | cons_cons _ h => exact Or.inl ⟨_, ⟨h, by simpa using h2⟩, rfl⟩

theorem length_combinations (l : List α) (k : Nat) :
    (combinations l k).length = l.length.choose k := by
  induction l generalizing k with
  | nil => cases k <;> simp [combinations]
  | cons x xs ih =>
    cases k with
    | zero => simp [combinations]
    | succ k => simp [combinations, ih, Nat.choose_succ_succ]

/-- C05: a sequence is produced by `powerset` iff it arises from the input by deleting elements. -/
theorem C05_powerset_mem (l s : List α) : s ∈ powerset l ↔ s.Sublist l := by
  simp only [powerset, List.mem_flatMap, List.mem_range, mem_combinations]
  constructor
  · rintro ⟨_, _, h, _⟩; exact h
  · intro h; exact ⟨s.length, Nat.lt_succ_of_le h.length_le, h, rfl⟩

/-- C05: `powerset` yields exactly 2^n results. -/
theorem C05_powerset_length (l : List α) : (powerset l).length = 2 ^ l.length := by
  simp only [powerset, List.length_flatMap, length_combinations]
  rw [← Nat.sum_range_choose l.length]
  induction (l.length + 1) with
  | zero => rfl
  | succ n ih =>
    rw [List.range_succ, Finset.sum_range_succ]
    simp [ih]

theorem nodup_combinations (l : List α) (h : l.Nodup) (k : Nat) : (combinations l k).Nodup := by
  induction l generalizing k with
  | nil => cases k <;> simp [combinations]
  | cons x xs ih =>
    rw [List.nodup_cons] at h
    cases k with
    | zero => simp [combinations]
    | succ k =>
      simp only [combinations]
      rw [List.nodup_append]
      refine ⟨(ih h.2 k).map (fun a b hab => by simpa using hab), ih h.2 (k+1), ?_⟩
      intro a ha b hb hab
      subst hab
      simp only [List.mem_map] at ha
      obtain ⟨t, _, rfl⟩ := ha
      rw [mem_combinations] at hb
      exact h.1 (hb.1.subset (by simp))

/-- C05: for a duplicate-free input no result is repeated. -/
theorem C05_powerset_nodup (l : List α) (h : l.Nodup) : (powerset l).Nodup := by
  simp only [powerset]
  rw [List.nodup_flatMap]
  refine ⟨fun k _ => nodup_combinations l h k, ?_⟩
  refine List.Pairwise.imp_of_mem ?_ (List.nodup_range (n := l.length + 1))
  intro i j _ _ hij s hs ht
  rw [mem_combinations] at hs ht
  exact hij (hs.2.symm.trans ht.2)

example : ([1, 2, 3] : List Nat).Nodup := by decide

/-- C05: for a duplicate-free input, two results have the same elements only if they are the same result: every
*subset* is produced exactly once. -/
theorem C05_powerset_subset_unique [DecidableEq α] (l : List α) (h : l.Nodup) (p : α → Prop)
    [DecidablePred p] :
    ∃! s, s ∈ powerset l ∧ ∀ x, x ∈ s ↔ x ∈ l ∧ p x := by
  refine ⟨l.filter (fun x => decide (p x)), ⟨?_, ?_⟩, ?_⟩
  · rw [C05_powerset_mem]; exact List.filter_sublist
  · intro x; simp
  · rintro t ⟨ht, hx⟩
    rw [C05_powerset_mem] at ht
    have ht' : t.Nodup := h.sublist ht
    induction l generalizing t with
    | nil => simpa using ht
    | cons y ys ih =>
      rw [List.nodup_cons] at h
      have hnot : ∀ x ∈ ys, x ≠ y := fun x hx e => h.1 (e ▸ hx)
      cases ht with
      | cons _ hs =>
        have hy : ¬ p y := by
          intro hp
          have : y ∈ t := (hx y).2 ⟨by simp, hp⟩
          exact h.1 (hs.subset this)
        rw [List.filter_cons_of_neg (by simpa using hy)]
        refine ih h.2 t hs (fun x => ?_) ht'
        rw [hx x]
        constructor
        · rintro ⟨h1, h2⟩
          rcases List.mem_cons.1 h1 with rfl | h1
          · exact absurd h2 hy
          · exact ⟨h1, h2⟩
        · rintro ⟨h1, h2⟩; exact ⟨List.mem_cons_of_mem _ h1, h2⟩
      | cons_cons _ hs =>
        rename_i t'
        have hy : p y := ((hx y).1 (by simp)).2
        rw [List.filter_cons_of_pos (by simpa using hy)]
        congr 1
        rw [List.nodup_cons] at ht'
        refine ih h.2 t' hs (fun x => ?_) ht'.2
        constructor
        · intro hx'
          have := (hx x).1 (List.mem_cons_of_mem _ hx')
          exact ⟨hs.subset hx', this.2⟩
        · rintro ⟨h1, h2⟩
          have := (hx x).2 ⟨List.mem_cons_of_mem _ h1, h2⟩
          rcases List.mem_cons.1 this with rfl | h3
          · exact absurd rfl (hnot _ h1)
          · exact h3

/-- C05: results come in order of increasing size. -/
theorem C05_powerset_sorted (l : List α) :
    (powerset l).Pairwise (fun s t => s.length ≤ t.length) := by
  simp only [powerset]
  rw [List.pairwise_flatMap]
  refine ⟨fun k _ => ?_, ?_⟩
  · refine List.pairwise_of_forall_mem_list ?_
    intro s hs t ht
    rw [mem_combinations] at hs ht
    omega
  · refine List.Pairwise.imp_of_mem ?_ (List.pairwise_lt_range (n := l.length + 1))
    intro i j _ _ hij s hs t ht
    rw [mem_combinations] at hs ht
    omega

/-! ### C06 sliding window and pairs -/

/-- C06: every window has exactly the requested size and is a contiguous part of the input. -/
theorem C06_window_size (l : List α) (size step : Nat) (w : List α)
    (h : w ∈ slidingWindow l size step) : w.length = size ∧ w <:+: l := by
  unfold slidingWindow at h
  split at h
  · simp at h
  · rename_i hlen
    simp only [rangeStep, List.mem_map, List.mem_filter, List.mem_range] at h
    obtain ⟨i, ⟨hi, _⟩, rfl⟩ := h
    constructor
    · simp; omega
    · exact (List.take_prefix _ _).isInfix.trans (List.drop_suffix _ _).isInfix

/-- C06: with step 1, the windows are exactly the contiguous parts of the requested size. -/
theorem C06_window_complete (l w : List α) (size : Nat) :
    w ∈ slidingWindow l size 1 ↔ w.length = size ∧ w <:+: l := by
  constructor
  · exact C06_window_size l size 1 w
  · rintro ⟨hs, pre, post, rfl⟩
    unfold slidingWindow
    rw [if_neg (by simp; omega)]
    simp only [rangeStep, List.mem_map, List.mem_filter, List.mem_range]
    refine ⟨pre.length, ⟨?_, by simp [Nat.mod_one]⟩, ?_⟩
    · simp; omega
    · simp [← hs]

/-- C06: the number of windows with step 1 is `len - size + 1` (zero if the window is longer than the input). -/
theorem C06_window_count (l : List α) (size : Nat) :
    (slidingWindow l size 1).length = if l.length < size then 0 else l.length - size + 1 := by
  unfold slidingWindow
  split
  · simp
  · simp [rangeStep, Nat.mod_one]

/-- C06: for any positive step, the k-th window starts at position k * step. -/
theorem C06_window_position (l : List α) (size step : Nat) (hs : 0 < step) (i : Nat) :
    (∃ h : i * step + size ≤ l.length, (l.drop (i * step)).take size ∈ slidingWindow l size step) ↔
      i * step + size ≤ l.length := by
  constructor
  · rintro ⟨h, _⟩; exact h
  · intro h
    refine ⟨h, ?_⟩
    unfold slidingWindow
    rw [if_neg (by omega)]
    simp only [rangeStep, List.mem_map, List.mem_filter, List.mem_range]
    exact ⟨i * step, ⟨by omega, by simp⟩, rfl⟩

example : ([1, 2, 3, 4] : List Nat).length ≥ 1 * 2 + 2 := by decide

/-- C06: `pairs` yields `(a, b)` iff `a` occurs at an earlier position than `b`. -/
theorem C06_pairs_mem (l : List α) (a b : α) :
    (a, b) ∈ pairs l ↔ ∃ i j : Nat, i < j ∧ l[i]? = some a ∧ l[j]? = some b := by
  simp only [pairs, List.mem_flatMap, List.mem_filterMap, Prod.exists]
  constructor
  · rintro ⟨x, i, hx, y, j, hy, h⟩
    split at h
    · cases h
    · simp only [Option.some.injEq, Prod.mk.injEq] at h
      obtain ⟨rfl, rfl⟩ := h
      rw [List.mem_zipIdx_iff_getElem?] at hx hy
      exact ⟨i, j, by omega, hx, hy⟩
  · rintro ⟨i, j, hij, hi, hj⟩
    refine ⟨a, i, by rw [List.mem_zipIdx_iff_getElem?]; exact hi, b, j,
      by rw [List.mem_zipIdx_iff_getElem?]; exact hj, ?_⟩
    rw [if_neg (by omega)]

/-- C06: for a duplicate-free input, `pairs` yields each unordered pair of distinct elements in
exactly one orientation. -/
theorem C06_pairs_unordered (l : List α) (h : l.Nodup) (a b : α) (hab : a ≠ b)
    (ha : a ∈ l) (hb : b ∈ l) :
    ((a, b) ∈ pairs l ∧ (b, a) ∉ pairs l) ∨ ((b, a) ∈ pairs l ∧ (a, b) ∉ pairs l) := by
  obtain ⟨i, hi⟩ := List.getElem?_of_mem ha
  obtain ⟨j, hj⟩ := List.getElem?_of_mem hb
  have inj : ∀ {m n : Nat} {x : α}, l[m]? = some x → l[n]? = some x → m = n := by
    intro m n x hm hn
    have hlt : m < l.length := (List.getElem?_eq_some_iff.1 hm).1
    exact (List.getElem?_inj hlt h).1 (hm.trans hn.symm)
  rcases Nat.lt_trichotomy i j with hij | hij | hij
  · left
    refine ⟨(C06_pairs_mem l a b).2 ⟨i, j, hij, hi, hj⟩, ?_⟩
    rw [C06_pairs_mem]
    rintro ⟨m, n, hmn, hm, hn⟩
    have := inj hm hj; have := inj hn hi; omega
  · subst hij; rw [hi] at hj; exact absurd (Option.some.inj hj) hab
  · right
    refine ⟨(C06_pairs_mem l b a).2 ⟨j, i, hij, hj, hi⟩, ?_⟩
    rw [C06_pairs_mem]
    rintro ⟨m, n, hmn, hm, hn⟩
    have := inj hm hi; have := inj hn hj; omega

/-- C06: for a duplicate-free input no element is paired with itself. -/
theorem C06_pairs_irrefl (l : List α) (h : l.Nodup) (a : α) : (a, a) ∉ pairs l := by
  rw [C06_pairs_mem]
  rintro ⟨m, n, hmn, hm, hn⟩
  have hlt : m < l.length := (List.getElem?_eq_some_iff.1 hm).1
  have := (List.getElem?_inj hlt h).1 (hm.trans hn.symm)
  omega

/-- C06: for a duplicate-free input no pair is repeated. -/
theorem C06_pairs_nodup (l : List α) (h : l.Nodup) : (pairs l).Nodup := by
  have inj : ∀ {m n : Nat} {x : α}, l[m]? = some x → l[n]? = some x → m = n := by
    intro m n x hm hn
    have hlt : m < l.length := (List.getElem?_eq_some_iff.1 hm).1
    exact (List.getElem?_inj hlt h).1 (hm.trans hn.symm)
  have hz : l.zipIdx.Nodup := by
    have : (l.zipIdx.map Prod.fst).Nodup := by simpa using h
    exact List.Nodup.of_map _ this
  unfold pairs
  rw [List.nodup_flatMap]
  constructor
  · rintro ⟨a, i⟩ ha
    refine List.pairwise_filterMap.2 (List.Pairwise.imp_of_mem ?_ hz)
    rintro ⟨b, j⟩ ⟨b', j'⟩ hb hb' hne c hc c' hc' hcc
    simp only at hc hc'
    split at hc
    · simp at hc
    · split at hc'
      · simp at hc'
      · simp only [Option.some.injEq] at hc hc'
        rw [← hc, ← hc'] at hcc
        simp only [Prod.mk.injEq, true_and] at hcc
        rw [List.mem_zipIdx_iff_getElem?] at hb hb'
        simp only at hb hb'
        rw [hcc] at hb
        exact hne (Prod.ext hcc (inj hb hb'))
  · refine List.Pairwise.imp_of_mem ?_ hz
    rintro ⟨a, i⟩ ⟨a', i'⟩ hm hm' hne
    intro p hp hp'
    simp only [List.mem_filterMap, Prod.exists] at hp hp'
    obtain ⟨b, j, hb, hb'⟩ := hp
    obtain ⟨c, k, hc, hc'⟩ := hp'
    split at hb'
    · simp at hb'
    · split at hc'
      · simp at hc'
      · simp only [Option.some.injEq] at hb' hc'
        rw [← hc'] at hb'
        simp only [Prod.mk.injEq] at hb'
        rw [List.mem_zipIdx_iff_getElem?] at hm hm'
        simp only at hm hm'
        rw [hb'.1] at hm
        exact hne (Prod.ext hb'.1 (inj hm hm'))

/-- `set_union` contains exactly the elements of the given sets. -/
theorem C06_setUnion_mem [DecidableEq α] (sets : List (List α)) (x : α) :
    x ∈ setUnion sets ↔ ∃ s ∈ sets, x ∈ s := by
  have hu : ∀ a b : List α, x ∈ Coll.union a b ↔ x ∈ a ∨ x ∈ b := by
    intro a b
    simp only [Coll.union, List.mem_append, List.mem_eraseDups, List.mem_filter, decide_eq_true_eq]
    tauto
  have : ∀ acc, x ∈ sets.foldl Coll.union acc ↔ x ∈ acc ∨ ∃ s ∈ sets, x ∈ s := by
    induction sets with
    | nil => simp
    | cons s ss ih =>
      intro acc
      rw [List.foldl_cons, ih, hu]
      simp [or_assoc]
  simp [setUnion, this]

/-! ### C07 Queue

Specification: at every point, the elements popped so far followed by the elements still in the queue
are the elements added so far, in the order in which they were added. -/

/-- All elements added by a history, in order. -/
def added : List (QueueOp α) → List α
  | [] => []
  | .enqueue x :: ops => x :: added ops
  | .extend xs :: ops => xs ++ added ops
  | .pop :: ops => added ops

/-- C07 violated: popping a falsy element (e.g. the integer 0) does not remove it, so it is delivered twice. -/
theorem C07_fifo_violated :
    queueRun (fun n : Nat => n != 0) [] [.enqueue 0, .enqueue 1, .pop, .pop] = ([0, 1], [0, 0]) := by
  decide

/-- C07 partial: for every history in which all payloads are truthy, elements leave in the order in which
they were added: popped ++ remaining = initial ++ added. Missing: falsy payloads. -/
theorem C07_fifo_partial (truthy : α → Bool) (q : List α) (ops : List (QueueOp α))
    (hq : ∀ x ∈ q, truthy x = true) (ha : ∀ x ∈ added ops, truthy x = true) :
    (queueRun truthy q ops).2 ++ (queueRun truthy q ops).1 = q ++ added ops := by
  induction ops generalizing q with
  | nil => simp [queueRun, added]
  | cons op ops ih =>
    cases op with
    | enqueue x =>
      simp only [queueRun, queueStep, added, enqueue] at *
      rw [Option.toList_none, List.nil_append, ih (q ++ [x])]
      · simp
      · intro y hy
        rcases List.mem_append.1 hy with h | h
        · exact hq y h
        · simp at h; subst h; exact ha y (by simp)
      · intro y hy; exact ha y (by simp [hy])
    | extend xs =>
      simp only [queueRun, queueStep, added, queueExtend] at *
      rw [Option.toList_none, List.nil_append, ih (q ++ xs)]
      · simp
      · intro y hy
        rcases List.mem_append.1 hy with h | h
        · exact hq y h
        · exact ha y (by simp [h])
      · intro y hy; exact ha y (by simp [hy])
    | pop =>
      cases q with
      | nil =>
        simp only [queueRun, queueStep, added, queuePop, queueHead, List.head?_nil] at *
        rw [Option.toList_none, List.nil_append, ih [] (by simp) ha]
      | cons x xs =>
        have hx : truthy x = true := hq x (by simp)
        simp only [queueRun, queueStep, added, queuePop, queueHead, List.head?_cons, hx, if_true,
          List.tail_cons] at *
        rw [Option.toList_some, List.append_assoc, ih xs (fun y hy => hq y (by simp [hy])) ha]
        rfl

/-- C07 partial: a pop fails (returns nothing) only on an empty queue, and otherwise removes exactly the head. -/
theorem C07_pop_partial (truthy : α → Bool) (q : List α) (hq : ∀ x ∈ q, truthy x = true) :
    queuePop truthy q = (q.tail, q.head?) := by
  cases q with
  | nil => rfl
  | cons x xs => simp [queuePop, queueHead, hq x (by simp)]

example : ∀ x ∈ added [QueueOp.enqueue 3, .pop, .extend [4, 5]], (fun n : Nat => n != 0) x = true := by
  decide

/-! ### C08 SizedQueue -/

/-- C08: a queue that starts within its capacity never exceeds it, whatever operations are applied. -/
theorem C08_capacity (q q' : SizedQueue α) (ops : List (QueueOp α))
    (h : q.data.length ≤ q.capacity) (hr : q.run ops = some q') :
    q'.capacity = q.capacity ∧ q'.data.length ≤ q'.capacity := by
  induction ops generalizing q with
  | nil =>
    simp only [SizedQueue.run, List.foldlM_nil, Option.pure_def, Option.some.injEq] at hr
    subst hr; exact ⟨rfl, h⟩
  | cons op ops ih =>
    simp only [SizedQueue.run, List.foldlM_cons, Option.bind_eq_bind, Option.bind_eq_some_iff] at hr
    obtain ⟨q1, h1, h2⟩ := hr
    have key : q1.capacity = q.capacity ∧ q1.data.length ≤ q1.capacity := by
      cases op with
      | enqueue x =>
        simp only [SizedQueue.step, SizedQueue.append] at h1
        split at h1
        · rename_i hge
          cases hd : q.data with
          | nil => rw [hd] at h1; cases h1
          | cons y ys =>
            rw [hd] at h1
            cases h1
            simp only [true_and]
            rw [hd] at h
            simpa using h
        · cases h1
          simp only [true_and, List.length_append, List.length_singleton]
          omega
      | extend xs =>
        simp only [SizedQueue.step, SizedQueue.extend, Option.some.injEq] at h1
        subst h1
        exact ⟨rfl, by simp⟩
      | pop =>
        simp only [SizedQueue.step, SizedQueue.pop, Option.some.injEq] at h1
        subst h1
        cases hd : q.data with
        | nil => simp [hd]
        | cons y ys => rw [hd] at h; simp at h ⊢; omega
    have := ih q1 key.2 h2
    exact ⟨this.1.trans key.1, this.2⟩

/-- C08: with a positive capacity no operation raises. -/
theorem C08_no_error (q : SizedQueue α) (ops : List (QueueOp α)) (hc : 0 < q.capacity) :
    ∃ q', q.run ops = some q' := by
  induction ops generalizing q with
  | nil => exact ⟨q, rfl⟩
  | cons op ops ih =>
    have key : ∃ q1, q.step op = some q1 ∧ q1.capacity = q.capacity := by
      cases op with
      | enqueue x =>
        simp only [SizedQueue.step, SizedQueue.append]
        split
        · rename_i hge
          cases hd : q.data with
          | nil => simp [hd] at hge; omega
          | cons y ys => exact ⟨_, rfl, rfl⟩
        · exact ⟨_, rfl, rfl⟩
      | extend xs => exact ⟨_, rfl, rfl⟩
      | pop =>
        refine ⟨_, rfl, ?_⟩
        simp only [SizedQueue.pop]
        split <;> rfl
    obtain ⟨q1, h1, h2⟩ := key
    obtain ⟨q', hq'⟩ := ih q1 (by omega)
    refine ⟨q', ?_⟩
    simp only [SizedQueue.run, List.foldlM_cons, Option.bind_eq_bind, h1, Option.bind_some]
    exact hq'

example : (⟨2, [7, 8]⟩ : SizedQueue Nat).data.length ≤ 2 ∧ 0 < 2 := by decide

/-- C08 violated: `extend` on a full queue drops the *new* elements instead of the oldest ones. -/
theorem C08_extend_violated :
    (SizedQueue.extend ⟨2, [1, 2]⟩ [3]).data = [1, 2] ∧
    (SizedQueue.append ⟨2, [1, 2]⟩ 3).map (·.data) = some [2, 3] := by
  decide

/-- C08 partial: for every sequence of single appends, the queue holds exactly the most recent
`capacity` elements in order of arrival. Missing: `extend` (see `C08_extend_violated`). -/
theorem C08_most_recent_partial (q : SizedQueue α) (xs : List α) (hc : 0 < q.capacity)
    (h : q.data.length ≤ q.capacity) :
    q.run (xs.map .enqueue) = some { q with
      data := (q.data ++ xs).drop ((q.data ++ xs).length - q.capacity) } := by
  induction xs generalizing q with
  | nil =>
    have : q.data.length - q.capacity = 0 := by omega
    simp [SizedQueue.run, this]
  | cons x xs ih =>
    simp only [List.map_cons, SizedQueue.run, List.foldlM_cons, Option.bind_eq_bind]
    by_cases hge : q.data.length ≥ q.capacity
    · cases hd : q.data with
      | nil => rw [hd] at hge; simp at hge; omega
      | cons y ys =>
        have e : q.step (.enqueue x) = some { q with data := ys ++ [x] } := by
          simp only [SizedQueue.step, SizedQueue.append]
          rw [if_pos hge, hd]
        rw [e, Option.bind_some]
        have hl : ys.length + 1 = q.capacity := by
          rw [hd] at hge h; simp at hge h; omega
        have := ih { q with data := ys ++ [x] } hc (by simp; omega)
        simp only [SizedQueue.run] at this
        rw [this]
        simp only [List.append_assoc, List.nil_append, List.cons_append,
          List.length_append, List.length_cons]
        have e2 : ys.length + (xs.length + 1) + 1 - q.capacity
            = (ys.length + (xs.length + 1) - q.capacity) + 1 := by omega
        rw [e2, List.drop_succ_cons]
    · have e : q.step (.enqueue x) = some { q with data := q.data ++ [x] } := by
        simp only [SizedQueue.step, SizedQueue.append]
        rw [if_neg hge]
      rw [e, Option.bind_some]
      have := ih { q with data := q.data ++ [x] } hc (by simp; omega)
      simp only [SizedQueue.run] at this
      rw [this]
      simp [List.append_assoc]

end PB.CollProps
