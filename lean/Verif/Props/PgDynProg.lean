import Verif.Model.PgDynProg
import Verif.Props.DynProg

/-! Properties of the dynamic programming enumerator in the style of Postgres. -/

set_option linter.unusedSimpArgs false
set_option linter.unusedVariables false
set_option linter.unusedSectionVars false
set_option linter.unnecessarySimpa false

namespace PB.PgDynProgProps
open PB PB.Hints PB.PgDynProg PB.QueryPredsProps PB.Qal PB.DynProgProps

/-! ### C29: adding paths -/

theorem sameSorting_length {a b : List SortKey} (h : sameSorting a b = true) : a.length = b.length := by
  unfold sameSorting at h
  split at h
  · simp at h
  · rename_i hh; simpa using hh

theorem loop_same (a b : List SortKey) (hl : a.length = b.length) (h : subsumesLoop a b = true) : sameSorting a b = true := by
  unfold sameSorting
  rw [if_neg (by simpa using hl)]
  induction a generalizing b with
  | nil => simp
  | cons x xs ih =>
    cases b with
    | nil => simp at hl
    | cons y ys =>
      unfold subsumesLoop at h
      split at h
      · simp at h
      · rename_i hc
        simp only [List.zip_cons_cons, List.all_cons, Bool.and_eq_true]
        exact ⟨by simpa using hc, ih ys (by simpa using hl) h⟩

/-- A sorting that subsumes another one is the same or longer. -/
theorem subsumes_cases {a b : List SortKey} (h : sortingSubsumes a b = true) : sameSorting a b = true ∨ b.length < a.length := by
  unfold sortingSubsumes at h
  split at h
  · rename_i hc
    simp only [Bool.and_eq_true, Bool.not_eq_true', List.isEmpty_iff] at hc
    right
    rw [hc.2]
    cases a with
    | nil => simp at hc
    | cons => simp
  · split at h
    · simp at h
    · split at h
      · simp at h
      · rename_i hl
        rcases Nat.lt_or_ge b.length a.length with hlt | hge
        · exact .inr hlt
        · exact .inl (loop_same a b (by omega) h)

section add
variable {α : Type} (cost : α → Rat) (sort : α → List SortKey)

theorem mem_addLoop (new : α) (l : List α) (x : α) (h : x ∈ addLoop cost sort new l) : x = new ∨ x ∈ l := by
  induction l with
  | nil => simpa [addLoop] using h
  | cons o l ih =>
    unfold addLoop at h
    split at h
    · rcases List.mem_cons.1 h with rfl | h
      · simp
      · rcases ih h with h | h <;> simp [h]
    · split at h
      · rcases ih h with h | h <;> simp [h]
      · exact .inr h

theorem addLoop_ne (new : α) (l : List α) : addLoop cost sort new l ≠ [] := by
  induction l with
  | nil => simp [addLoop]
  | cons o l ih =>
    unfold addLoop
    split
    · simp
    · split
      · exact ih
      · simp

/-- A measure that the loop never increases. -/
theorem addLoop_measure (w : α → Rat) (new : α) (l : List α)
    (hdom : ∀ o ∈ l, sortingSubsumes (sort new) (sort o) = true → dominates cost sort new o = true → w new ≤ w o)
    (hkeep : ∀ o ∈ l, sortingSubsumes (sort new) (sort o) = true → dominates cost sort new o = false → w o ≤ w new) :
    ∀ c ∈ new :: l, ∃ k ∈ addLoop cost sort new l, w k ≤ w c := by
  induction l with
  | nil => simp [addLoop]
  | cons o l ih =>
    have ih' := ih (fun o' h => hdom o' (by simp [h])) (fun o' h => hkeep o' (by simp [h]))
    intro c hc
    unfold addLoop
    cases hs : sortingSubsumes (sort new) (sort o) with
    | false =>
      simp only [Bool.not_false, if_true]
      rcases List.mem_cons.1 hc with rfl | hc'
      · obtain ⟨k, hk, h⟩ := ih' c (by simp)
        exact ⟨k, by simp [hk], h⟩
      · rcases List.mem_cons.1 hc' with rfl | hc''
        · exact ⟨c, by simp, le_refl _⟩
        · obtain ⟨k, hk, h⟩ := ih' c (by simp [hc''])
          exact ⟨k, by simp [hk], h⟩
    | true =>
      simp only [Bool.not_true, Bool.false_eq_true, if_false]
      cases hd : dominates cost sort new o with
      | true =>
        simp only [if_true]
        rcases List.mem_cons.1 hc with rfl | hc'
        · exact ih' c (by simp)
        · rcases List.mem_cons.1 hc' with rfl | hc''
          · obtain ⟨k, hk, h⟩ := ih' new (by simp)
            exact ⟨k, hk, le_trans h (hdom c (by simp) hs hd)⟩
          · exact ih' c (by simp [hc''])
      | false =>
        simp only [Bool.false_eq_true, if_false]
        rcases List.mem_cons.1 hc with rfl | hc'
        · exact ⟨o, by simp, hkeep o (by simp) hs hd⟩
        · exact ⟨c, hc', le_refl _⟩

end add

section seq
variable {α : Type} (cost : α → Option Rat) (sort : α → List SortKey)

/-- The kept paths after a sequence of additions. -/
def kept (cands : List α) : List α := cands.foldl (addPath cost sort) []

theorem addPath_some (cur : List α) (p : α) (h : (cost p).isSome = true) :
    addPath cost sort cur p = addLoop (fun p => (cost p).getD 0) sort p cur := by
  unfold addPath standardAddPath
  have : (cost p).isNone = false := by simpa [Option.isNone_eq_false_iff] using h
  rw [this]
  cases cur <;> simp [addLoop]

theorem addPath_none (cur : List α) (p : α) (h : cost p = none) : addPath cost sort cur p = cur := by
  simp [addPath, h]

theorem fold_inv (cur cands : List α) (P : List α → List α → Prop) (h0 : P cur [])
    (hstep : ∀ cur done p, P cur done → P (addPath cost sort cur p) (done ++ [p])) :
    P (cands.foldl (addPath cost sort) cur) cands := by
  suffices ∀ done cur, P cur done → P (cands.foldl (addPath cost sort) cur) (done ++ cands) by simpa using this [] cur h0
  induction cands with
  | nil => intro done cur h; simpa using h
  | cons p ps ih =>
    intro done cur h
    have := ih (done ++ [p]) (addPath cost sort cur p) (hstep cur done p h)
    simpa using this

/-- **C29.** Kept paths are candidates of finite cost, and there is one as soon as some candidate has finite cost. -/
theorem C29_kept (cands : List α) :
    (∀ k ∈ kept cost sort cands, k ∈ cands ∧ cost k ≠ none) ∧
    (kept cost sort cands = [] ↔ ∀ c ∈ cands, cost c = none) := by
  refine fold_inv cost sort [] cands (fun cur done => (∀ k ∈ cur, k ∈ done ∧ cost k ≠ none) ∧ (cur = [] ↔ ∀ c ∈ done, cost c = none))
    (by simp) ?_
  rintro cur done p ⟨h1, h2⟩
  cases hp : cost p with
  | none =>
    rw [addPath_none cost sort cur p hp]
    refine ⟨fun k hk => ⟨by simp [(h1 k hk).1], (h1 k hk).2⟩, ?_⟩
    rw [h2]
    simp [or_imp, forall_and, hp]
  | some x =>
    rw [addPath_some cost sort cur p (by simp [hp])]
    refine ⟨fun k hk => ?_, ?_⟩
    · rcases mem_addLoop _ _ _ _ _ hk with rfl | h
      · simp [hp]
      · exact ⟨by simp [(h1 k h).1], (h1 k h).2⟩
    · constructor
      · intro h; exact absurd h (addLoop_ne _ _ _ _)
      · intro h
        have := h p (by simp)
        rw [hp] at this; simp at this

/-- A measure that additions never increase. -/
theorem kept_measure (w : α → Rat) (cands : List α)
    (hdom : ∀ n ∈ cands, ∀ o ∈ cands, cost n ≠ none → cost o ≠ none → sortingSubsumes (sort n) (sort o) = true →
      (dominates (fun p => (cost p).getD 0) sort n o = true → w n ≤ w o) ∧
      (dominates (fun p => (cost p).getD 0) sort n o = false → w o ≤ w n)) :
    ∀ c ∈ cands, cost c ≠ none → ∃ k ∈ kept cost sort cands, w k ≤ w c := by
  have : ∀ done cur rest, done ++ rest = cands → (∀ k ∈ cur, k ∈ done ∧ cost k ≠ none) →
      (∀ c ∈ done, cost c ≠ none → ∃ k ∈ cur, w k ≤ w c) →
      ∀ c ∈ cands, cost c ≠ none → ∃ k ∈ rest.foldl (addPath cost sort) cur, w k ≤ w c := by
    intro done cur rest
    induction rest generalizing done cur with
    | nil => intro hd _ h; simpa [← hd] using h
    | cons p rest ih =>
      intro hd h1 h2
      rw [List.foldl_cons]
      refine ih (done ++ [p]) _ (by simpa using hd) ?_ ?_
      · cases hp : cost p with
        | none =>
          rw [addPath_none cost sort cur p hp]
          exact fun k hk => ⟨by simp [(h1 k hk).1], (h1 k hk).2⟩
        | some x =>
          rw [addPath_some cost sort cur p (by simp [hp])]
          intro k hk
          rcases mem_addLoop _ _ _ _ _ hk with rfl | h
          · simp [hp]
          · exact ⟨by simp [(h1 k h).1], (h1 k h).2⟩
      · cases hp : cost p with
        | none =>
          rw [addPath_none cost sort cur p hp]
          intro c hc hcn
          rcases List.mem_append.1 hc with hc | hc
          · exact h2 c hc hcn
          · rw [List.mem_singleton] at hc; subst hc; exact absurd hp hcn
        | some x =>
          rw [addPath_some cost sort cur p (by simp [hp])]
          have hm := addLoop_measure (fun p => (cost p).getD 0) sort w p cur
            (fun o ho hs => (hdom p (by simp [← hd]) o (by simp [← hd, (h1 o ho).1]) (by simp [hp]) (h1 o ho).2 hs).1)
            (fun o ho hs => (hdom p (by simp [← hd]) o (by simp [← hd, (h1 o ho).1]) (by simp [hp]) (h1 o ho).2 hs).2)
          intro c hc hcn
          rcases List.mem_append.1 hc with hc | hc
          · obtain ⟨k, hk, hle⟩ := h2 c hc hcn
            obtain ⟨k', hk', hle'⟩ := hm k (by simp [hk])
            exact ⟨k', hk', le_trans hle' hle⟩
          · rw [List.mem_singleton] at hc
            subst hc
            exact hm c (by simp)
  exact this [] [] cands rfl (by simp) (by simp)

/-- **C29 (cost part).** If paths have at most one sort key, as it is the case for all paths that the enumerator creates, then for
every candidate there is a kept path that is not more expensive, or costs at most 1 % more and is sorted although the candidate is
not. What is missing: the kept path need not be sorted like the candidate (`C29_sorted_lost_violated`). -/
theorem C29_cost_partial (cands : List α) (hsort : ∀ c ∈ cands, (sort c).length ≤ 1)
    (hpos : ∀ c ∈ cands, ∀ x, cost c = some x → 0 ≤ x) (c : α) (hc : c ∈ cands) (x : Rat) (hx : cost c = some x) :
    ∃ k ∈ kept cost sort cands, ∃ y, cost k = some y ∧
      (y ≤ x ∨ (sort c = [] ∧ sort k ≠ [] ∧ y ≤ 101 / 100 * x)) := by
  have key := kept_measure cost sort (fun p => if sort p = [] then 101 / 100 * (cost p).getD 0 else (cost p).getD 0) cands (by
    intro n hn o ho hcn hco hs
    have hl := hsort n hn
    have hlo := hsort o ho
    obtain ⟨yn, hyn⟩ := Option.ne_none_iff_exists'.1 hcn
    obtain ⟨yo, hyo⟩ := Option.ne_none_iff_exists'.1 hco
    have hpn := hpos n hn yn hyn
    have hpo := hpos o ho yo hyo
    unfold dominates
    rcases subsumes_cases hs with hsame | hlt
    · have hlen := sameSorting_length hsame
      have hiff : sort n = [] ↔ sort o = [] := by rw [← List.length_eq_zero_iff, ← List.length_eq_zero_iff, hlen]
      simp only [hsame, if_true, hyn, hyo, Option.getD_some, decide_eq_true_eq, decide_eq_false_iff_not, not_lt, hiff]
      constructor <;> intro h <;> split <;> linarith
    · have ho0 : sort o = [] := by rw [← List.length_eq_zero_iff]; omega
      have hn0 : sort n ≠ [] := by intro h; rw [h] at hlt; simp at hlt
      have hns : sameSorting (sort n) (sort o) = false := by
        cases hh : sameSorting (sort n) (sort o) with
        | false => rfl
        | true => have := sameSorting_length hh; omega
      rw [ho0] at hns
      simp only [hns, Bool.false_eq_true, if_false, hyn, hyo, Option.getD_some, decide_eq_true_eq, decide_eq_false_iff_not, not_le, hn0, ho0,
        if_true]
      constructor <;> intro h <;> linarith) c hc (by simp [hx])
  obtain ⟨k, hk, hle⟩ := key
  obtain ⟨hkm, hkn⟩ := (C29_kept cost sort cands).1 k hk
  obtain ⟨y, hy⟩ := Option.ne_none_iff_exists'.1 hkn
  have hy0 := hpos k hkm y hy
  have hx0 := hpos c hc x hx
  refine ⟨k, hk, y, hy, ?_⟩
  simp only [hx, hy, Option.getD_some] at hle
  by_cases hcs : sort c = [] <;> by_cases hks : sort k = []
  · left; simp only [hcs, hks, if_true] at hle; linarith
  · right; simp only [hcs, hks, if_true, if_false] at hle; exact ⟨hcs, hks, hle⟩
  · left; simp only [hcs, hks, if_true, if_false] at hle; linarith
  · left; simp only [hcs, hks, if_false] at hle; exact hle

/-- **C29 (unsorted paths).** If no candidate is sorted, exactly the first cheapest candidate is kept. -/
theorem C29_unsorted (cands : List α) (hsort : ∀ c ∈ cands, sort c = []) (hc : ∃ c ∈ cands, cost c ≠ none) :
    ∃ k x, kept cost sort cands = [k] ∧ k ∈ cands ∧ cost k = some x ∧ ∀ c ∈ cands, ∀ y, cost c = some y → x ≤ y := by
  have : ∀ done cur rest, done ++ rest = cands → ((cur = [] ∧ ∀ c ∈ done, cost c = none) ∨
      ∃ k x, cur = [k] ∧ k ∈ done ∧ cost k = some x ∧ ∀ c ∈ done, ∀ y, cost c = some y → x ≤ y) →
      ((rest.foldl (addPath cost sort) cur = [] ∧ ∀ c ∈ cands, cost c = none) ∨
      ∃ k x, rest.foldl (addPath cost sort) cur = [k] ∧ k ∈ cands ∧ cost k = some x ∧ ∀ c ∈ cands, ∀ y, cost c = some y → x ≤ y) := by
    intro done cur rest
    induction rest generalizing done cur with
    | nil => intro hd h; simpa [← hd] using h
    | cons p rest ih =>
      intro hd h
      rw [List.foldl_cons]
      refine ih (done ++ [p]) _ (by simpa using hd) ?_
      have hps : sort p = [] := hsort p (by simp [← hd])
      cases hp : cost p with
      | none =>
        rw [addPath_none cost sort cur p hp]
        rcases h with ⟨h, h'⟩ | ⟨k, x, h1, h2, h3, h4⟩
        · exact .inl ⟨h, by simp [or_imp, forall_and, hp]; exact h'⟩
        · exact .inr ⟨k, x, h1, by simp [h2], h3, by simp [or_imp, forall_and, hp]; exact h4⟩
      | some z =>
        rw [addPath_some cost sort cur p (by simp [hp])]
        right
        rcases h with ⟨h, h'⟩ | ⟨k, x, h1, h2, h3, h4⟩
        · subst h
          refine ⟨p, z, rfl, by simp, hp, fun c hc y hy => ?_⟩
          rcases List.mem_append.1 hc with hc | hc
          · rw [h' c hc] at hy; simp at hy
          · rw [List.mem_singleton] at hc
            subst hc
            rw [hp] at hy; injection hy with hy; linarith
        · subst h1
          have hks : sort k = [] := hsort k (by simp [← hd, h2])
          have hsub : sortingSubsumes ([] : List SortKey) [] = true := by simp [sortingSubsumes, subsumesLoop]
          have hsame : sameSorting ([] : List SortKey) [] = true := by simp [sameSorting]
          simp only [addLoop, hps, hks, hsub, Bool.not_true, Bool.false_eq_true, if_false, dominates, hsame, if_true, h3, hp,
            Option.getD_some, decide_eq_true_eq]
          split
          · rename_i hlt
            refine ⟨p, z, rfl, by simp, hp, fun c hc y hy => ?_⟩
            rcases List.mem_append.1 hc with hc | hc
            · exact le_trans (le_of_lt hlt) (h4 c hc y hy)
            · rw [List.mem_singleton] at hc; subst hc
              rw [hp] at hy; injection hy with hy; linarith
          · rename_i hlt
            refine ⟨k, x, rfl, by simp [h2], h3, fun c hc y hy => ?_⟩
            rcases List.mem_append.1 hc with hc | hc
            · exact h4 c hc y hy
            · rw [List.mem_singleton] at hc; subst hc
              rw [hp] at hy; injection hy with hy; linarith
  rcases this [] [] cands rfl (.inl ⟨rfl, by simp⟩) with ⟨_, h⟩ | h
  · obtain ⟨c, hc1, hc2⟩ := hc
    exact absurd (h c hc1) hc2
  · exact h

end seq

/-- A candidate for the examples: a cost and sort keys. -/
abbrev Cand := Option Rat × List SortKey

/-- **C29 does not hold for sort orders.** An index scan that is sorted by column 7 is not kept if a cheaper unsorted path was added
before, although no other path is sorted by that column. If the two are added in the other order, both are kept. -/
theorem C29_sorted_lost_violated :
    kept (α := Cand) Prod.fst Prod.snd [(some 100, []), (some 150, [SortKey.of 7])] = [(some 100, [])] ∧
    kept (α := Cand) Prod.fst Prod.snd [(some 150, [SortKey.of 7]), (some 100, [])] = [(some 150, [SortKey.of 7]), (some 100, [])] := by
  constructor <;> decide +kernel

/-- **C29 does not hold for sort orders.** A kept sorted path is evicted by a cheaper path of the same order, which is then dropped
itself. -/
theorem C29_evicted_violated :
    kept (α := Cand) Prod.fst Prod.snd [(some 10, [SortKey.of 7]), (some 1, [])] = [(some 10, [SortKey.of 7]), (some 1, [])] ∧
    kept (α := Cand) Prod.fst Prod.snd [(some 10, [SortKey.of 7]), (some 1, []), (some 5, [SortKey.of 7])] = [(some 1, [])] := by
  constructor <;> decide +kernel

/-- **C29: the fuzz factor adds up** for paths with several sort keys: the only kept path costs more than 1 % more than the first
candidate. -/
theorem C29_fuzz_violated :
    kept (α := Cand) Prod.fst Prod.snd
      [(some 100, []), (some 101, [SortKey.of 7]), (some 102, [SortKey.of 7, SortKey.of 8])] = [(some 102, [SortKey.of 7, SortKey.of 8])] ∧
    (101 / 100 * 100 : Rat) < 102 := by
  constructor <;> decide +kernel

/-- The hypotheses of `C29_cost_partial`: the kept path is the sorted one, which costs 0.5 % more. -/
example : ∃ k ∈ kept (α := Cand) Prod.fst Prod.snd [(some 100, []), (none, []), (some (201 / 2), [SortKey.of 7])],
    ∃ y, k.1 = some y ∧ (y ≤ 100 ∨ (([] : List SortKey) = [] ∧ k.2 ≠ [] ∧ y ≤ 101 / 100 * 100)) :=
  C29_cost_partial (α := Cand) Prod.fst Prod.snd _ (by decide +kernel)
    (by intro c hc x hx; simp at hc; rcases hc with rfl | rfl | rfl <;> simp at hx <;> subst hx <;> norm_num) (some 100, []) (by simp) 100 rfl

example : kept (α := Cand) Prod.fst Prod.snd [(some 3, []), (some 2, []), (some 5, [])] = [(some 2, [])] := by decide +kernel

/-! ### C99: merge joins -/

/-- **C99 is violated.** No merge join is ever created, whatever the join keys are: either the attempt yields nothing or it raises an
exception. -/
theorem C99_merge_violated {Q α : Type} (mk : Col × Col → List α) (keys : List (Expr Q)) (r : List α)
    (h : mergePaths mk keys = some r) : r = [] := by
  induction keys generalizing r with
  | nil => simpa [mergePaths, eq_comm] using h
  | cons k ks ih =>
    rw [mergePaths] at h
    cases hp : k.joinPartners with
    | none => rw [hp] at h; simp at h
    | some ps =>
      rw [hp, Option.bind_some, extractJoinColumns] at h
      by_cases hc : ps.card ≠ 2
      · rw [if_pos hc] at h
        exact ih r h
      · rw [if_neg hc] at h
        simp at h

/-- For a plain join predicate, nothing is created. -/
theorem C99_plain_violated :
    mergePaths (fun cs => [cs]) [PredProps.jXY] = some [] ∧ PredProps.jXY.joinPartners = some {(ExprProps.cx, ExprProps.cy)} := by
  constructor <;> decide +kernel

/-- **C99: a sorted path is never recognized**: a path that is sorted by column `c` is not compatible with column `c`. -/
theorem C99_sorted_violated (c : Nat) : (SortKey.of c).compatibleWithColumn c = false ∧ (SortKey.of c).compatible (SortKey.of c) = true := by
  simp [SortKey.compatibleWithColumn, SortKey.compatible, SortKey.of]

/-- **C99.** Compatible sort keys can be merged, and the merged key is compatible with both. -/
theorem C99_merge_keys (a b : SortKey) :
    ((a.mergeWith b).isSome = true ↔ a.asc = b.asc) ∧
    ∀ k, a.mergeWith b = some k → k.asc = a.asc ∧ ∀ x, x ∈ k.members ↔ x ∈ a.members ∨ x ∈ b.members := by
  unfold SortKey.mergeWith
  split
  · simp_all
  · refine ⟨by simp_all, fun k hk => ?_⟩
    injection hk with hk
    subst hk
    simp

theorem C99_merged_compatible (a b k : SortKey) (ha : a.members.Nonempty) (hb : b.members.Nonempty) (h : a.mergeWith b = some k) :
    k.compatible a = true ∧ k.compatible b = true := by
  unfold SortKey.mergeWith at h
  split at h
  · simp at h
  · rename_i hasc
    simp only [ne_eq, Decidable.not_not] at hasc
    injection h with h
    subst h
    obtain ⟨x, hx⟩ := ha
    obtain ⟨y, hy⟩ := hb
    unfold SortKey.compatible
    simp only [hasc, ne_eq, not_true_eq_false, if_false, decide_eq_true_eq, gt_iff_lt, Finset.card_pos]
    exact ⟨⟨x, by simp [hx]⟩, ⟨y, by simp [hy]⟩⟩

/-- Rows are sorted by a sort key: the values of each member are ascending (or descending). A row assigns a value to each
expression. -/
def SortedBy (k : SortKey) (rows : List (Nat → Int)) : Prop :=
  ∀ x ∈ k.members, rows.Pairwise fun r s => if k.asc then r x ≤ s x else s x ≤ r x

/-- The members of a sort key are equal in all rows. -/
def Equiv (k : SortKey) (rows : List (Nat → Int)) : Prop := ∀ r ∈ rows, ∀ x ∈ k.members, ∀ y ∈ k.members, r x = r y

/-- **C99.** Rows that are sorted by a key are also sorted by all compatible keys. -/
theorem C99_compatible_sound (a b : SortKey) (rows : List (Nat → Int)) (hb : Equiv b rows) (h : a.compatible b = true)
    (hs : SortedBy a rows) : SortedBy b rows := by
  unfold SortKey.compatible at h
  split at h
  · simp at h
  · rename_i hasc
    simp only [ne_eq, Decidable.not_not] at hasc
    simp only [decide_eq_true_eq, gt_iff_lt, Finset.card_pos] at h
    obtain ⟨m, hm⟩ := h
    rw [Finset.mem_inter] at hm
    intro x hx
    rw [← hasc]
    refine (hs m hm.1).imp_of_mem fun {r s} hr hs' hrs => ?_
    rw [← hb r hr m hm.2 x hx, ← hb s hs' m hm.2 x hx]
    exact hrs

/-- Two rows, sorted by the equal expressions 1 and 2. -/
example : Equiv ⟨{1, 2}, true⟩ [fun x => 3 + 0 * x, fun x => 4 + 0 * x] ∧ SortedBy ⟨{1}, true⟩ [fun x => 3 + 0 * x, fun x => 4 + 0 * x] ∧
    SortKey.compatible ⟨{1}, true⟩ ⟨{1, 2}, true⟩ = true := by
  refine ⟨?_, ?_, by decide +kernel⟩
  · intro r hr x _ y _
    simp only [List.mem_cons, List.not_mem_nil, or_false] at hr
    rcases hr with rfl | rfl <;> simp
  · intro x _
    simp

/-- **C99: compatibility is not transitive**, so that "the same sorting" is not an equivalence. -/
theorem C99_not_transitive_violated :
    ∃ a b c : SortKey, a.compatible b = true ∧ b.compatible c = true ∧ a.compatible c = false :=
  ⟨⟨{1}, true⟩, ⟨{1, 2}, true⟩, ⟨{2}, true⟩, by decide +kernel⟩

end PB.PgDynProgProps
