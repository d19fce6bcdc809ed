import Verif.Model.Analysis
import Mathlib.Data.List.Sections
import Mathlib.Data.List.Nodup
import Mathlib.Algebra.Order.Field.Basic
import Mathlib.Algebra.Order.Ring.Rat
import Mathlib.Tactic.Linarith
import Mathlib.Tactic.Positivity
import Mathlib.Tactic.FieldSimp

/-! Properties of the analysis utilities: the cardinality of star queries, similarity and depths of join trees, and the
side-by-side view of texts. -/

set_option linter.unusedSimpArgs false
set_option linter.unusedVariables false
set_option linter.unnecessarySimpa false

namespace PB.AnalysisProps

open PB.Analysis
open PB.PlanRead (jaccard)

/-! ### Star queries -/

section Star

variable {F D K : Type} [DecidableEq K]

/-- The result of a star query: each row of the fact table is combined with one matching row of each dimension table, in all
possible ways. -/
def StarResult (facts : List F) (dims : List (Dim F D)) : List (F × List D) :=
  facts.flatMap fun f => ((dims.map fun d => d.rows.filter (d.ok f)).sections).map fun ds => (f, ds)

theorem distinctKeys_nodup (key : F → K) (facts : List F) (h : (facts.map key).Nodup) :
    distinctKeys key facts = facts.map key := by
  induction facts with
  | nil => rfl
  | cons f fs ih =>
    simp only [List.map_cons, List.nodup_cons] at h
    simp only [distinctKeys, ih h.2, List.map_cons, List.cons.injEq, true_and]
    rw [List.filter_eq_self]
    intro k hk
    simp only [ne_eq, decide_eq_true_eq]
    rintro rfl
    exact h.1 hk

theorem filter_key (key : F → K) (facts : List F) (h : (facts.map key).Nodup) (f : F) (hf : f ∈ facts) :
    facts.filter (fun g => key g = key f) = [f] := by
  induction facts with
  | nil => simp at hf
  | cons g gs ih =>
    simp only [List.map_cons, List.nodup_cons] at h
    rcases List.mem_cons.mp hf with e | e
    · subst e
      have : gs.filter (fun g => key g = key f) = [] := by
        rw [List.filter_eq_nil_iff]
        intro x hx
        simp only [decide_eq_true_eq]
        intro e
        exact h.1 (e ▸ List.mem_map_of_mem hx)
      simp [List.filter_cons, this]
    · have hne : key g ≠ key f := fun e' => h.1 (e' ▸ List.mem_map_of_mem e)
      simp [List.filter_cons, hne, ih h.2 e]

theorem multiply_eq (key : F → K) (facts : List F) (k : K) (dims : List (Dim F D)) (c : Nat) :
    multiply key facts k c dims = c * (dims.map fun d => dimCard key facts d k).prod := by
  induction dims generalizing c with
  | nil => simp [multiply]
  | cons d ds ih =>
    simp only [multiply, List.map_cons, List.prod_cons]
    split
    · next h => simp [h]
    · rw [ih]; ring

theorem length_sections {α : Type} (L : List (List α)) : L.sections.length = (L.map List.length).prod := by
  induction L with
  | nil => simp [List.sections]
  | cons l ls ih =>
    simp only [List.sections, List.length_flatMap, List.length_map, List.map_cons, List.prod_cons, ← ih]
    simp [List.map_const', Nat.mul_comm]

/-- **C193** (partial).  For a key of the fact table, the computed cardinality is the number of rows of the result.

Missing: fact tables of which a single row satisfies the filters, see `C193_single_violated`. -/
theorem C193_star_partial (key : F → K) (facts : List F) (dims : List (Dim F D)) (h : (facts.map key).Nodup)
    (h1 : facts.length ≠ 1) : starCard key facts dims = some (StarResult facts dims).length := by
  have hids : idVals key facts = facts.map fun f => (key f, 1) := by
    unfold idVals
    rw [distinctKeys_nodup key facts h, List.map_map]
    apply List.map_congr_left
    intro f hf
    simp [filter_key key facts h f hf]
  have ht : ∀ fs : List F, fs ⊆ facts → total key facts dims (fs.map fun f => (key f, 1)) = (StarResult fs dims).length := by
    intro fs hs
    induction fs with
    | nil => rfl
    | cons f fs ih =>
      have hf : f ∈ facts := hs List.mem_cons_self
      simp only [List.map_cons, total, multiply_eq, StarResult, List.flatMap_cons, List.length_append, List.length_map]
      rw [ih fun x hx => hs (List.mem_cons_of_mem _ hx), length_sections, List.map_map]
      congr 1
      rw [one_mul]
      congr 1
      apply List.map_congr_left
      intro d _
      simp [dimCard, filter_key key facts h f hf]
  unfold starCard
  simp only [hids, List.length_map]
  rw [if_neg h1, ht facts (List.Subset.refl _)]

example : (([1, 2, 3] : List Nat).map id).Nodup ∧ ([1, 2, 3] : List Nat).length ≠ 1 ∧
    (StarResult [1, 2, 3] [(⟨[1, 1, 2], fun f d => f == d⟩ : Dim Nat Nat), ⟨[1, 2, 2, 5], fun f d => f == d⟩]).length = 4 := by
  decide

/-- If a single row of the fact table satisfies the filters, the cardinality cannot be computed. -/
theorem C193_single_violated (key : F → K) (f : F) (dims : List (Dim F D)) : starCard key [f] dims = none := by
  simp [starCard, idVals, distinctKeys]

/-- If the values of the column are not unique, the cardinality is wrong: for one value that occurs `n` times (beside another
one without partners) and one dimension table, it is the number of rows of the result multiplied by `n`. -/
theorem C193_key_violated (n m : Nat) (hn : 1 < n) (hm : 0 < m) :
    ∃ (facts : List Nat) (d : Dim Nat Nat), (StarResult facts [d]).length = n * m ∧
      starCard id facts [d] = some (n * (n * m)) ∧ n * (n * m) ≠ n * m := by
  refine ⟨1 :: List.replicate n 0, ⟨List.replicate m 0, fun f d => f == d⟩, ?_, ?_, ?_⟩
  · have h0 : (List.replicate m 0).filter (fun d => (0:Nat) == d) = List.replicate m 0 := by simp
    have h1 : (List.replicate m 0).filter (fun d => (1:Nat) == d) = [] := by simp [List.filter_replicate]
    simp only [StarResult, List.flatMap_cons, List.map_cons, List.map_nil, h1, List.length_append, List.length_map, length_sections]
    simp [List.length_flatMap, length_sections, h0, List.map_replicate]
  · have hd : ∀ k, distinctKeys (id : Nat → Nat) (List.replicate (k+1) 0) = [0] := by
      intro k
      induction k with
      | zero => rfl
      | succ k ih => rw [List.replicate_succ, distinctKeys, ih]; rfl
    obtain ⟨k, rfl⟩ : ∃ k, n = k + 1 := ⟨n - 1, by omega⟩
    have hk : distinctKeys (id : Nat → Nat) (1 :: List.replicate (k+1) 0) = [1, 0] := by
      rw [distinctKeys, hd]; rfl
    have f0 : (1 :: List.replicate (k+1) 0).filter (fun f => (id f : Nat) = 0) = List.replicate (k+1) 0 := by
      simp [List.filter_cons, List.filter_replicate]
    have f1 : (1 :: List.replicate (k+1) 0).filter (fun f => (id f : Nat) = 1) = [1] := by
      simp [List.filter_cons, List.filter_replicate]
    have g0 : (List.replicate m 0).filter (fun d => (0:Nat) == d) = List.replicate m 0 := by simp
    have g1 : (List.replicate m 0).filter (fun d => (1:Nat) == d) = [] := by simp [List.filter_replicate]
    simp only [starCard, idVals, hk, List.map_cons, List.map_nil, f0, f1, List.length_cons, List.length_nil]
    rw [if_neg (by omega)]
    simp only [total, multiply_eq, List.map_cons, List.map_nil, dimCard, f0, f1, List.prod_cons, List.prod_nil, List.flatMap_cons,
      g1, List.flatMap_nil, List.length_replicate]
    simp [List.length_flatMap, g0, List.map_replicate]
  · intro e
    have : n * m = n * (n * m) := e.symm
    have hnm : 0 < n * m := Nat.mul_pos (by omega) hm
    have : 1 * (n * m) < n * (n * m) := Nat.mul_lt_mul_of_pos_right hn hnm
    omega

end Star

/-! ### Similarity of join trees -/

variable {A : Type}

/-- A join tree without empty parts. -/
inductive Full : JT.Tree A → Prop
  | scan (c t a) : Full (.scan c t a)
  | join (c o i a) : Full o → Full i → Full (.join c o i a)

theorem Full.pos {t : JT.Tree A} (h : Full t) : 0 < t.tables.card := by
  induction h with
  | scan => simp [JT.Tree.tables]
  | join c o i a _ _ h1 _ =>
    simp only [JT.Tree.tables]
    exact Nat.lt_of_lt_of_le h1 (Finset.card_le_card Finset.subset_union_left)

theorem Full.notEmpty {t : JT.Tree A} (h : Full t) : t.isEmpty = false := by
  cases h <;> rfl

theorem jac_comm {α : Type} [DecidableEq α] (a b : Finset α) : jaccard a b = jaccard b a := by
  simp [jaccard, Finset.union_comm a b, Finset.inter_comm a b]

theorem jac_self {α : Type} [DecidableEq α] (a : Finset α) (h : 0 < a.card) : jaccard a a = some 1 := by
  have : (a.card : Rat) ≠ 0 := by exact_mod_cast h.ne'
  simp [jaccard, Finset.union_self, Finset.inter_self, Nat.pos_iff_ne_zero.mp h, this]

theorem jac_nonneg {α : Type} [DecidableEq α] {a b : Finset α} {q : Rat} (h : jaccard a b = some q) : 0 ≤ q := by
  unfold jaccard at h
  split at h
  · simp at h
  · simp at h; subst h; positivity

theorem jac_le_one {α : Type} [DecidableEq α] {a b : Finset α} {q : Rat} (h : jaccard a b = some q) : q ≤ 1 := by
  unfold jaccard at h
  split at h
  · simp at h
  · next hc =>
    simp at h; subst h
    have hp : (0 : Rat) < (a ∪ b).card := by exact_mod_cast Nat.pos_of_ne_zero hc
    rw [div_le_one hp]
    exact_mod_cast Finset.card_le_card (fun x hx => Finset.mem_union_left _ (Finset.mem_inter.mp hx).1)

theorem jac_some {α : Type} [DecidableEq α] {a : Finset α} (b : Finset α) (h : 0 < a.card) : ∃ q, jaccard a b = some q := by
  have : (a ∪ b).card ≠ 0 := by
    have := Finset.card_le_card (Finset.subset_union_left : a ⊆ a ∪ b)
    omega
  exact ⟨_, by simp only [jaccard]; rw [if_neg this]⟩

theorem pair_comm (ao ai bo bi : JT.Tree A) : pairScore ao ai bo bi = pairScore bo bi ao ai := by
  simp only [pairScore, jac_comm ai.tables, jac_comm ao.tables]

theorem pair_cross (ao ai bo bi : JT.Tree A) : pairScore ao ai bi bo = pairScore bo bi ai ao := by
  simp only [pairScore, jac_comm ai.tables, jac_comm ao.tables]
  rcases jaccard bo.tables ai.tables with _ | x <;> rcases jaccard bi.tables ao.tables with _ | y <;> simp [add_comm]


/-- The comparison of two joins. -/
theorem topdown_join (s : Bool) (g : Rat) (c : JT.Cls) (ao ai : JT.Tree A) (x : Option A) (c' : JT.Cls) (bo bi : JT.Tree A)
    (y : Option A) (ha : (JT.Tree.join c ao ai x).tables.card ≠ 1) (hb : (JT.Tree.join c' bo bi y).tables.card ≠ 1)
    (hn : ((JT.Tree.join c ao ai x).tables ∪ (JT.Tree.join c' bo bi y).tables).card ≠ 0) :
    topdown s g (.join c ao ai x) (.join c' bo bi y) =
      if ao.isEmpty || ai.isEmpty || bo.isEmpty || bi.isEmpty then none
      else (pairScore ao ai bo bi).bind fun sym =>
        (if s then pairScore ao ai bi bo else some 0).bind fun cross =>
          if s = true ∧ cross > sym then
            (topdown s g ai bo).bind fun u => (topdown s g ao bi).bind fun v =>
              some (1 / (((JT.Tree.join c ao ai x).tables ∪ (JT.Tree.join c' bo bi y).tables).card : Rat) * max sym cross +
                g * (u + v))
          else
            (topdown s g ai bi).bind fun u => (topdown s g ao bo).bind fun v =>
              some (1 / (((JT.Tree.join c ao ai x).tables ∪ (JT.Tree.join c' bo bi y).tables).card : Rat) * max sym cross +
                g * (u + v)) := by
  rw [topdown]
  simp only [hn, ha, hb, if_false, false_and]
  cases s <;> rfl

/-- All other comparisons. -/
theorem topdown_other (s : Bool) (g : Rat) (a b : JT.Tree A) (h : a.tables.card = 1 ∨ b.tables.card = 1 ∨
    (∀ c o i x, a ≠ .join c o i x) ∨ (∀ c o i x, b ≠ .join c o i x)) :
    topdown s g a b =
      if (a.tables ∪ b.tables).card = 0 then none
      else if a.tables.card = 1 ∧ b.tables.card = 1 then some (if a.tables = b.tables then 1 else 0)
      else if a.tables.card = 1 then leafScore (a.tables ∪ b.tables).card a b
      else if b.tables.card = 1 then leafScore (a.tables ∪ b.tables).card b a
      else none := by
  rw [topdown.eq_def]
  simp only
  split
  · rfl
  split
  · rfl
  split
  · rfl
  split
  · rfl
  next h1 h2 h3 h4 =>
  rcases h with h | h | h | h
  · exact absurd h h3
  · exact absurd h h4
  · split
    · next c o i x _ _ _ _ => exact absurd rfl (h _ _ _ _)
    · rfl
  · split
    · next c o i x _ _ _ _ => exact absurd rfl (h _ _ _ _)
    · rfl

theorem topdown_other_comm (s : Bool) (g : Rat) (a b : JT.Tree A) (h : a.tables.card = 1 ∨ b.tables.card = 1 ∨
    (∀ c o i x, a ≠ .join c o i x) ∨ (∀ c o i x, b ≠ .join c o i x)) : topdown s g a b = topdown s g b a := by
  rw [topdown_other s g a b h, topdown_other s g b a (by tauto), Finset.union_comm b.tables a.tables]
  by_cases h1 : a.tables.card = 1 <;> by_cases h2 : b.tables.card = 1 <;> simp [h1, h2, eq_comm]

theorem zero_union {a b : JT.Tree A} (h : (a.tables ∪ b.tables).card = 0) (s : Bool) (g : Rat) : topdown s g a b = none := by
  rw [topdown.eq_def]
  simp [h]

/-- **C194**.  The top-down similarity does not depend on the order of the join trees. -/
theorem C194_comm (s : Bool) (g : Rat) (a b : JT.Tree A) : topdown s g a b = topdown s g b a := by
  induction a generalizing b with
  | empty c => exact topdown_other_comm s g _ _ (Or.inr (Or.inr (Or.inl (by intros; simp))))
  | scan c t x => exact topdown_other_comm s g _ _ (Or.inr (Or.inr (Or.inl (by intros; simp))))
  | join c ao ai x iho ihi =>
    cases b with
    | empty c' => exact topdown_other_comm s g _ _ (Or.inr (Or.inr (Or.inr (by intros; simp))))
    | scan c' t y => exact topdown_other_comm s g _ _ (Or.inr (Or.inr (Or.inr (by intros; simp))))
    | join c' bo bi y =>
      by_cases ha : (JT.Tree.join c ao ai x).tables.card = 1
      · exact topdown_other_comm s g _ _ (Or.inl ha)
      by_cases hb : (JT.Tree.join c' bo bi y).tables.card = 1
      · exact topdown_other_comm s g _ _ (Or.inr (Or.inl hb))
      by_cases hn : ((JT.Tree.join c ao ai x).tables ∪ (JT.Tree.join c' bo bi y).tables).card = 0
      · rw [zero_union hn, zero_union (by rwa [Finset.union_comm])]
      have hn' : ((JT.Tree.join c' bo bi y).tables ∪ (JT.Tree.join c ao ai x).tables).card ≠ 0 := by rwa [Finset.union_comm]
      rw [topdown_join s g c ao ai x c' bo bi y ha hb hn, topdown_join s g c' bo bi y c ao ai x hb ha hn',
        Finset.union_comm (JT.Tree.join c' bo bi y).tables, ← pair_comm ao ai bo bi, ← pair_cross ao ai bo bi,
        ihi bo, iho bi, ihi bi, iho bo]
      have hc : (ao.isEmpty || ai.isEmpty || bo.isEmpty || bi.isEmpty) = (bo.isEmpty || bi.isEmpty || ao.isEmpty || ai.isEmpty) := by
        cases ao.isEmpty <;> cases ai.isEmpty <;> cases bo.isEmpty <;> cases bi.isEmpty <;> rfl
      rw [hc]
      congr 1
      congr 1
      funext sym
      congr 1
      funext cross
      congr 1
      rcases topdown s g bo ai with _ | u <;> rcases topdown s g bi ao with _ | v <;> simp [add_comm]

/-- Every comparison of join trees without empty parts has a result that is not negative. -/
theorem C194_defined (s : Bool) (g : Rat) (hg : 0 ≤ g) (a b : JT.Tree A) (ha : Full a) (hb : Full b) :
    ∃ q, topdown s g a b = some q ∧ 0 ≤ q := by
  have leaf : ∀ (n : Nat) (l t : JT.Tree A), Full l → Full t → t.tables.card ≠ 1 → ∃ q, leafScore n l t = some q ∧ 0 ≤ q := by
    intro n l t hl ht h1
    cases ht with
    | scan c t a => simp [JT.Tree.tables] at h1
    | join c o i x ho hi =>
      obtain ⟨p, hp⟩ := jac_some i.tables hl.pos
      obtain ⟨r, hr⟩ := jac_some o.tables hl.pos
      refine ⟨1 / (n : Rat) * max p r, by simp [leafScore, children, ho.notEmpty, hi.notEmpty, hp, hr], ?_⟩
      have := jac_nonneg hp
      positivity
  have other : ∀ a b : JT.Tree A, Full a → Full b → (a.tables.card = 1 ∨ b.tables.card = 1 ∨
      (∀ c o i x, a ≠ .join c o i x) ∨ (∀ c o i x, b ≠ .join c o i x)) → ∃ q, topdown s g a b = some q ∧ 0 ≤ q := by
    intro a b ha hb h
    have hu : (a.tables ∪ b.tables).card ≠ 0 := by
      have := Finset.card_le_card (Finset.subset_union_left : a.tables ⊆ a.tables ∪ b.tables)
      have := ha.pos
      omega
    rw [topdown_other s g a b h, if_neg hu]
    split
    · exact ⟨_, rfl, by split <;> norm_num⟩
    · next h' =>
      split
      · next h1 => exact leaf _ _ _ ha hb (by tauto)
      · next h1 =>
        split
        · exact leaf _ _ _ hb ha h1
        · next h2 =>
          exfalso
          rcases h with h | h | h | h
          · exact h1 h
          · exact h2 h
          · cases ha with
            | scan => simp [JT.Tree.tables] at h1
            | join => exact h _ _ _ _ rfl
          · cases hb with
            | scan => simp [JT.Tree.tables] at h2
            | join => exact h _ _ _ _ rfl
  have pair : ∀ ao ai bo bi : JT.Tree A, Full ao → Full ai → ∃ q, pairScore ao ai bo bi = some q ∧ 0 ≤ q := by
    intro ao ai bo bi h1 h2
    obtain ⟨p, hp⟩ := jac_some bi.tables h2.pos
    obtain ⟨r, hr⟩ := jac_some bo.tables h1.pos
    exact ⟨p + r, by simp [pairScore, hp, hr], add_nonneg (jac_nonneg hp) (jac_nonneg hr)⟩
  induction ha generalizing b with
  | scan c t x => exact other _ _ (.scan c t x) hb (Or.inl (by simp [JT.Tree.tables]))
  | join c ao ai x hao hai iho ihi =>
    cases hb with
    | scan c' t y => exact other _ _ (.join c ao ai x hao hai) (.scan c' t y) (Or.inr (Or.inl (by simp [JT.Tree.tables])))
    | join c' bo bi y hbo hbi =>
      by_cases h1 : (JT.Tree.join c ao ai x).tables.card = 1
      · exact other _ _ (.join c ao ai x hao hai) (.join c' bo bi y hbo hbi) (Or.inl h1)
      by_cases h2 : (JT.Tree.join c' bo bi y).tables.card = 1
      · exact other _ _ (.join c ao ai x hao hai) (.join c' bo bi y hbo hbi) (Or.inr (Or.inl h2))
      have hn : ((JT.Tree.join c ao ai x).tables ∪ (JT.Tree.join c' bo bi y).tables).card ≠ 0 := by
        have := Finset.card_le_card (Finset.subset_union_left :
          (JT.Tree.join c ao ai x).tables ⊆ (JT.Tree.join c ao ai x).tables ∪ (JT.Tree.join c' bo bi y).tables)
        have := (Full.join c ao ai x hao hai).pos
        omega
      rw [topdown_join s g c ao ai x c' bo bi y h1 h2 hn]
      obtain ⟨p, hp, hp0⟩ := pair ao ai bo bi hao hai
      obtain ⟨r, hr, hr0⟩ : ∃ r, (if s then pairScore ao ai bi bo else some 0) = some r ∧ 0 ≤ r := by
        split
        · exact pair ao ai bi bo hao hai
        · exact ⟨0, rfl, le_refl _⟩
      obtain ⟨u1, e1, n1⟩ := ihi bo hbo
      obtain ⟨u2, e2, n2⟩ := iho bi hbi
      obtain ⟨u3, e3, n3⟩ := ihi bi hbi
      obtain ⟨u4, e4, n4⟩ := iho bo hbo
      rw [hp, hr]
      simp only [hao.notEmpty, hai.notEmpty, hbo.notEmpty, hbi.notEmpty, Bool.or_self, Bool.false_eq_true, if_false,
        Option.bind_some, e1, e2, e3, e4]
      split
      · exact ⟨_, rfl, by positivity⟩
      · exact ⟨_, rfl, by positivity⟩

example : Full (A := Nat) (.join .generic (.scan .generic 0 none) (.join .generic (.scan .generic 1 none) (.scan .generic 2 none) none)
    none) := .join _ _ _ _ (.scan _ _ _) (.join _ _ _ _ (.scan _ _ _) (.scan _ _ _))

/-- `a` and `b` have a table in common. -/
def Shared (a b : JT.Tree A) : Prop := ∃ t, t ∈ a.tables ∧ t ∈ b.tables

theorem jac_shared {α : Type} [DecidableEq α] {a b : Finset α} {q : Rat} (h : jaccard a b = some q) :
    0 < q ↔ ∃ t, t ∈ a ∧ t ∈ b := by
  unfold jaccard at h
  split at h
  · simp at h
  · next hc =>
    simp at h; subst h
    have hp : (0 : Rat) < (a ∪ b).card := by exact_mod_cast Nat.pos_of_ne_zero hc
    rw [div_pos_iff_of_pos_right hp, Nat.cast_pos, Finset.card_pos]
    constructor
    · rintro ⟨t, ht⟩; exact ⟨t, Finset.mem_inter.mp ht⟩
    · rintro ⟨t, ht⟩; exact ⟨t, Finset.mem_inter.mpr ht⟩

/-- **C194**.  The score is positive only if the join trees have a table in common; the symmetric score is positive then. Without
reinforcement, it is at most 1, and a single table has the score 1 with itself and 0 with all others. -/
theorem C194_shared_partial (s : Bool) (g : Rat) (hg : 0 ≤ g) (a b : JT.Tree A) (ha : Full a) (hb : Full b) :
    ∃ q, topdown s g a b = some q ∧ (0 < q → Shared a b) ∧ (s = true → Shared a b → 0 < q) ∧ (g = 0 → q ≤ 1) ∧
      (a.tables.card = 1 → b.tables.card = 1 → (q = 1 ∨ q = 0) ∧ (q = 1 ↔ a.tables = b.tables)) := by
  have leaf : ∀ (n : Nat) (l t : JT.Tree A), 0 < n → Full l → Full t → t.tables.card ≠ 1 →
      ∃ q, leafScore n l t = some q ∧ (0 < q ↔ Shared l t) ∧ q ≤ 1 := by
    intro n l t hn hl ht h1
    cases ht with
    | scan c t a => simp [JT.Tree.tables] at h1
    | join c o i x ho hi =>
      obtain ⟨p, hp⟩ := jac_some i.tables hl.pos
      obtain ⟨r, hr⟩ := jac_some o.tables hl.pos
      refine ⟨1 / (n : Rat) * max p r, by simp [leafScore, children, ho.notEmpty, hi.notEmpty, hp, hr], ?_, ?_⟩
      · have hn' : (0 : Rat) < 1 / n := by positivity
        rw [mul_pos_iff_of_pos_left hn', lt_max_iff, jac_shared hp, jac_shared hr]
        constructor
        · rintro (⟨t, h1, h2⟩ | ⟨t, h1, h2⟩)
          · exact ⟨t, h1, by simp [JT.Tree.tables, h2]⟩
          · exact ⟨t, h1, by simp [JT.Tree.tables, h2]⟩
        · rintro ⟨t, h1, h2⟩
          simp only [JT.Tree.tables, Finset.mem_union] at h2
          rcases h2 with h2 | h2
          · exact Or.inr ⟨t, h1, h2⟩
          · exact Or.inl ⟨t, h1, h2⟩
      · have h1 : (1 : Rat) / n ≤ 1 := by
          rw [div_le_one (by exact_mod_cast hn)]
          exact_mod_cast hn
        have h2 : max p r ≤ 1 := max_le (jac_le_one hp) (jac_le_one hr)
        have h3 : 0 ≤ max p r := le_max_of_le_left (jac_nonneg hp)
        nlinarith
  have other : ∀ a b : JT.Tree A, Full a → Full b → (a.tables.card = 1 ∨ b.tables.card = 1) →
      ∃ q, topdown s g a b = some q ∧ (0 < q → Shared a b) ∧ (s = true → Shared a b → 0 < q) ∧ (g = 0 → q ≤ 1) ∧
      (a.tables.card = 1 → b.tables.card = 1 → (q = 1 ∨ q = 0) ∧ (q = 1 ↔ a.tables = b.tables)) := by
    intro a b ha hb h
    have hu : (a.tables ∪ b.tables).card ≠ 0 := by
      have := Finset.card_le_card (Finset.subset_union_left : a.tables ⊆ a.tables ∪ b.tables)
      have := ha.pos
      omega
    rw [topdown_other s g a b (by tauto), if_neg hu]
    split
    · next h' =>
      refine ⟨_, rfl, ?_⟩
      obtain ⟨t, ht⟩ := Finset.card_eq_one.mp h'.1
      obtain ⟨u, hu'⟩ := Finset.card_eq_one.mp h'.2
      by_cases e : a.tables = b.tables
      · rw [if_pos e]
        refine ⟨fun _ => ⟨t, by simp [ht], by rw [← e]; simp [ht]⟩, fun _ _ => by norm_num, fun _ => le_refl _, fun _ _ => ⟨Or.inl rfl, by simp [e]⟩⟩
      · rw [if_neg e]
        refine ⟨fun h => absurd h (lt_irrefl _), fun _ ⟨x, h1, h2⟩ => ?_, fun _ => by norm_num, fun _ _ => ⟨Or.inr rfl, by simp [e]⟩⟩
        rw [ht] at h1 e
        rw [hu'] at h2 e
        rw [Finset.mem_singleton] at h1 h2
        subst h1; subst h2
        exact absurd rfl e
    · next h' =>
      split
      · next h1 =>
        obtain ⟨q, e, h2, h3⟩ := leaf _ _ _ (Nat.pos_of_ne_zero hu) ha hb (by tauto)
        exact ⟨q, e, h2.1, fun _ => h2.2, fun _ => h3, fun x y => absurd ⟨x, y⟩ h'⟩
      · next h1 =>
        have h2 : b.tables.card = 1 := by tauto
        rw [if_pos h2]
        obtain ⟨q, e, h3, h4⟩ := leaf _ _ _ (Nat.pos_of_ne_zero hu) hb ha h1
        have sw : Shared b a ↔ Shared a b := ⟨fun ⟨t, x, y⟩ => ⟨t, y, x⟩, fun ⟨t, x, y⟩ => ⟨t, y, x⟩⟩
        rw [sw] at h3
        exact ⟨q, e, h3.1, fun _ => h3.2, fun _ => h4, fun x y => absurd ⟨x, y⟩ h'⟩
  have pair : ∀ ao ai bo bi : JT.Tree A, Full ao → Full ai →
      ∃ q, pairScore ao ai bo bi = some q ∧ 0 ≤ q ∧ q ≤ 2 ∧ (0 < q ↔ Shared ai bi ∨ Shared ao bo) := by
    intro ao ai bo bi h1 h2
    obtain ⟨p, hp⟩ := jac_some bi.tables h2.pos
    obtain ⟨r, hr⟩ := jac_some bo.tables h1.pos
    have p0 := jac_nonneg hp
    have r0 := jac_nonneg hr
    have p1 := jac_le_one hp
    have r1 := jac_le_one hr
    refine ⟨p + r, by simp [pairScore, hp, hr], add_nonneg p0 r0, by linarith, ?_⟩
    unfold Shared
    rw [← jac_shared hp, ← jac_shared hr]
    constructor
    · intro h
      by_contra hc
      push Not at hc
      linarith
    · rintro (h | h) <;> linarith
  induction ha generalizing b with
  | scan c t x => exact other _ _ (.scan c t x) hb (Or.inl (by simp [JT.Tree.tables]))
  | join c ao ai x hao hai iho ihi =>
    cases hb with
    | scan c' t y => exact other _ _ (.join c ao ai x hao hai) (.scan c' t y) (Or.inr (by simp [JT.Tree.tables]))
    | join c' bo bi y hbo hbi =>
      by_cases h1 : (JT.Tree.join c ao ai x).tables.card = 1
      · exact other _ _ (.join c ao ai x hao hai) (.join c' bo bi y hbo hbi) (Or.inl h1)
      by_cases h2 : (JT.Tree.join c' bo bi y).tables.card = 1
      · exact other _ _ (.join c ao ai x hao hai) (.join c' bo bi y hbo hbi) (Or.inr h2)
      have hle := Finset.card_le_card (Finset.subset_union_left :
          (JT.Tree.join c ao ai x).tables ⊆ (JT.Tree.join c ao ai x).tables ∪ (JT.Tree.join c' bo bi y).tables)
      have hpos := (Full.join c ao ai x hao hai).pos
      have hn : ((JT.Tree.join c ao ai x).tables ∪ (JT.Tree.join c' bo bi y).tables).card ≠ 0 := by omega
      have hn2 : 2 ≤ ((JT.Tree.join c ao ai x).tables ∪ (JT.Tree.join c' bo bi y).tables).card := by omega
      rw [topdown_join s g c ao ai x c' bo bi y h1 h2 hn]
      generalize hN : ((JT.Tree.join c ao ai x).tables ∪ (JT.Tree.join c' bo bi y).tables).card = N at hn hn2
      obtain ⟨p, hp, p0, p2, hps⟩ := pair ao ai bo bi hao hai
      obtain ⟨r, hr, r0, r2, hrs, hrs'⟩ : ∃ r, (if s then pairScore ao ai bi bo else some 0) = some r ∧ 0 ≤ r ∧ r ≤ 2 ∧
          (0 < r → Shared ai bo ∨ Shared ao bi) ∧ (s = true → Shared ai bo ∨ Shared ao bi → 0 < r) := by
        split
        · obtain ⟨r, e1, e2, e3, e4⟩ := pair ao ai bi bo hao hai
          exact ⟨r, e1, e2, e3, e4.1, fun _ => e4.2⟩
        · next hs => exact ⟨0, rfl, le_refl _, by norm_num, fun h => absurd h (lt_irrefl _), fun h => absurd h hs⟩
      obtain ⟨u1, e1, s1, t1, -, -⟩ := ihi bo hbo
      obtain ⟨u2, e2, s2, t2, -, -⟩ := iho bi hbi
      obtain ⟨u3, e3, s3, t3, -, -⟩ := ihi bi hbi
      obtain ⟨u4, e4, s4, t4, -, -⟩ := iho bo hbo
      have nn : ∀ {a b : JT.Tree A} {u : Rat}, Full a → Full b → topdown s g a b = some u → 0 ≤ u := by
        intro a b u h1 h2 h3
        obtain ⟨q, e, hq⟩ := C194_defined s g hg a b h1 h2
        rw [e] at h3; cases h3; exact hq
      have n1 := nn hai hbo e1
      have n2 := nn hao hbi e2
      have n3 := nn hai hbi e3
      have n4 := nn hao hbo e4
      have up : ∀ {w z : JT.Tree A}, (w = ao ∨ w = ai) → (z = bo ∨ z = bi) → Shared w z →
          Shared (JT.Tree.join c ao ai x) (JT.Tree.join c' bo bi y) := by
        rintro w z hx hz ⟨t, h3, h4⟩
        refine ⟨t, ?_, ?_⟩
        · rcases hx with rfl | rfl <;> simp [JT.Tree.tables, h3]
        · rcases hz with rfl | rfl <;> simp [JT.Tree.tables, h4]
      have down : Shared (JT.Tree.join c ao ai x) (JT.Tree.join c' bo bi y) →
          (Shared ai bi ∨ Shared ao bo) ∨ Shared ai bo ∨ Shared ao bi := by
        rintro ⟨t, h3, h4⟩
        simp only [JT.Tree.tables, Finset.mem_union] at h3 h4
        rcases h3 with h3 | h3 <;> rcases h4 with h4 | h4
        · exact Or.inl (Or.inr ⟨t, h3, h4⟩)
        · exact Or.inr (Or.inr ⟨t, h3, h4⟩)
        · exact Or.inr (Or.inl ⟨t, h3, h4⟩)
        · exact Or.inl (Or.inl ⟨t, h3, h4⟩)
      have hm0 : 0 ≤ max p r := le_max_of_le_left p0
      have hN0 : (0 : Rat) < 1 / N := by
        have : (0 : Rat) < N := by exact_mod_cast Nat.pos_of_ne_zero hn
        positivity
      have final : ∀ u v : Rat, 0 ≤ u → 0 ≤ v → (0 < u → Shared (JT.Tree.join c ao ai x) (JT.Tree.join c' bo bi y)) →
          (0 < v → Shared (JT.Tree.join c ao ai x) (JT.Tree.join c' bo bi y)) →
          ∃ q, some (1 / (N : Rat) * max p r + g * (u + v)) = some q ∧
            (0 < q → Shared (JT.Tree.join c ao ai x) (JT.Tree.join c' bo bi y)) ∧
            (s = true → Shared (JT.Tree.join c ao ai x) (JT.Tree.join c' bo bi y) → 0 < q) ∧ (g = 0 → q ≤ 1) ∧
            ((JT.Tree.join c ao ai x).tables.card = 1 → (JT.Tree.join c' bo bi y).tables.card = 1 → (q = 1 ∨ q = 0) ∧
              (q = 1 ↔ (JT.Tree.join c ao ai x).tables = (JT.Tree.join c' bo bi y).tables)) := by
        intro u v hu hv su sv
        refine ⟨_, rfl, ?_, ?_, ?_, fun h => absurd h h1⟩
        · intro h
          by_contra hc
          have a1 : u ≤ 0 := not_lt.mp fun h => hc (su h)
          have a2 : v ≤ 0 := not_lt.mp fun h => hc (sv h)
          have a3 : p ≤ 0 := not_lt.mp fun h => by
            rcases hps.1 h with k | k
            · exact hc (up (Or.inr rfl) (Or.inr rfl) k)
            · exact hc (up (Or.inl rfl) (Or.inl rfl) k)
          have a4 : r ≤ 0 := not_lt.mp fun h => by
            rcases hrs h with k | k
            · exact hc (up (Or.inr rfl) (Or.inl rfl) k)
            · exact hc (up (Or.inl rfl) (Or.inr rfl) k)
          have a5 : u = 0 := le_antisymm a1 hu
          have a6 : v = 0 := le_antisymm a2 hv
          have a7 : max p r = 0 := le_antisymm (max_le a3 a4) hm0
          rw [a5, a6, a7] at h
          simp at h
        · intro hs h
          have : 0 < max p r := by
            rcases down h with k | k
            · exact lt_max_of_lt_left (hps.2 k)
            · exact lt_max_of_lt_right (hrs' hs k)
          have h3 : 0 < 1 / (N : Rat) * max p r := mul_pos hN0 this
          have h4 : 0 ≤ g * (u + v) := mul_nonneg hg (add_nonneg hu hv)
          linarith
        · intro h
          rw [h, zero_mul, add_zero, one_div, inv_mul_le_iff₀ (by exact_mod_cast Nat.pos_of_ne_zero hn), mul_one]
          have : (2 : Rat) ≤ N := by exact_mod_cast hn2
          exact le_trans (max_le p2 r2) this
      rw [hp, hr]
      simp only [hao.notEmpty, hai.notEmpty, hbo.notEmpty, hbi.notEmpty, Bool.or_self, Bool.false_eq_true, if_false,
        Option.bind_some, e1, e2, e3, e4]
      split
      · exact final _ _ n1 n2 (fun h => up (Or.inr rfl) (Or.inl rfl) (s1 h)) (fun h => up (Or.inl rfl) (Or.inr rfl) (s2 h))
      · exact final _ _ n3 n4 (fun h => up (Or.inr rfl) (Or.inr rfl) (s3 h)) (fun h => up (Or.inl rfl) (Or.inl rfl) (s4 h))

example : Shared (A := Nat) (.join .generic (.scan .generic 0 none) (.scan .generic 1 none) none) (.scan .generic 1 none) :=
  ⟨1, by simp [JT.Tree.tables], by simp [JT.Tree.tables]⟩

/-- The score is documented to be between 0 and 1. For the default reinforcement factor 1.1 (and every factor of at least one
half), a join tree of at least two tables compared with itself has a score larger than 1. -/
theorem C194_range_violated (s : Bool) (g : Rat) (hg : 1 / 2 ≤ g) (t : JT.Tree A) (ht : Full t) (h : t.tables.card ≠ 1) :
    ∃ q, topdown s g t t = some q ∧ 1 < q := by
  have key : ∀ t : JT.Tree A, Full t → ∃ q, topdown s g t t = some q ∧ 1 ≤ q ∧ (t.tables.card ≠ 1 → 1 < q) := by
    intro t ht
    induction ht with
    | scan c t x =>
      refine ⟨1, ?_, le_refl _, by simp [JT.Tree.tables]⟩
      rw [topdown_other s g _ _ (Or.inl (by simp [JT.Tree.tables]))]
      simp [JT.Tree.tables]
    | join c o i x ho hi iho ihi =>
      by_cases h1 : (JT.Tree.join c o i x).tables.card = 1
      · refine ⟨1, ?_, le_refl _, fun h => absurd h1 h⟩
        rw [topdown_other s g _ _ (Or.inl h1)]
        simp [h1]
      · have hpos := (Full.join c o i x ho hi).pos
        have hn : ((JT.Tree.join c o i x).tables ∪ (JT.Tree.join c o i x).tables).card ≠ 0 := by
          rw [Finset.union_self]; omega
        rw [topdown_join s g c o i x c o i x h1 h1 hn]
        have hp : pairScore o i o i = some 2 := by
          simp [pairScore, jac_self _ ho.pos, jac_self _ hi.pos]; norm_num
        obtain ⟨r, hr, hr2⟩ : ∃ r, (if s then pairScore o i i o else some 0) = some r ∧ r ≤ 2 := by
          split
          · obtain ⟨p, hp⟩ := jac_some o.tables hi.pos
            obtain ⟨q, hq⟩ := jac_some i.tables ho.pos
            refine ⟨p + q, by simp [pairScore, hp, hq], ?_⟩
            have := jac_le_one hp
            have := jac_le_one hq
            linarith
          · exact ⟨0, rfl, by norm_num⟩
        obtain ⟨u, e1, n1, _⟩ := ihi
        obtain ⟨v, e2, n2, _⟩ := iho
        rw [hp, hr]
        simp only [ho.notEmpty, hi.notEmpty, Bool.or_self, Bool.false_eq_true, if_false, Option.bind_some, e1, e2]
        rw [if_neg (by rintro ⟨_, h⟩; exact absurd h (not_lt.mpr hr2))]
        have hcard : (0 : Rat) < ((JT.Tree.join c o i x).tables ∪ (JT.Tree.join c o i x).tables).card := by
          exact_mod_cast Nat.pos_of_ne_zero hn
        have hnode : 0 < 1 / (((JT.Tree.join c o i x).tables ∪ (JT.Tree.join c o i x).tables).card : Rat) * max 2 r := by
          have : (0 : Rat) < max 2 r := lt_of_lt_of_le (by norm_num) (le_max_left _ _)
          positivity
        have hgc : 1 ≤ g * (u + v) := by nlinarith
        exact ⟨_, rfl, by linarith, fun _ => by linarith⟩
  obtain ⟨q, h1, _, h2⟩ := key t ht
  exact ⟨q, h1, h2 h⟩

example : (JT.Tree.join .generic (.scan .generic 0 none) (.scan .generic 1 none) none : JT.Tree Nat).tables.card ≠ 1 ∧
    Full (JT.Tree.join .generic (.scan .generic 0 none) (.scan .generic 1 none) none : JT.Tree Nat) ∧ (1 / 2 : Rat) ≤ 11 / 10 := by
  refine ⟨by decide, .join _ _ _ _ (.scan _ _ _) (.scan _ _ _), by norm_num⟩

/-- The bottom-up similarity cannot be computed for any two join trees. -/
theorem C194_bottomup_violated (a b : JT.Tree A) : bottomup a b = none := by
  unfold bottomup
  rcases ha : a.iterjoins.map JT.Tree.tables with _ | ⟨x, xs⟩
  · rcases hb : b.iterjoins.map JT.Tree.tables with _ | ⟨y, ys⟩
    · simp [setOfSets, jaccard]
    · simp [setOfSets]
  · simp [setOfSets]

/-! ### Join depths -/

/-- The largest depth of a list of depths. -/
def largest (ds : List (Nat × Nat)) : Nat := (ds.map Prod.snd).foldr max 0

/-- The documented depths: 1 for a single table and for the tables of a join of two tables; a table that is joined with an
intermediate result gets one more than the largest depth of the intermediate result. -/
def Depths : JT.Tree A → List (Nat × Nat)
  | .empty _ => []
  | .scan _ t _ => [(t, 1)]
  | .join _ (.scan _ t _) (.scan _ t' _) _ => [(t, 1), (t', 1)]
  | .join _ (.scan _ t _) i _ => (t, largest (Depths i) + 1) :: Depths i
  | .join _ o (.scan _ t _) _ => (t, largest (Depths o) + 1) :: Depths o
  | .join _ o i _ => Depths o ++ Depths i

/-- **C195** (partial).  The depths of a single table and of the empty join tree are those documented.

Missing: joins, see `C195_join_violated`. -/
theorem C195_scan_partial (t : JT.Tree A) (h : t.isJoin = false ∨ t.isEmpty = true) :
    joinDepth t = some (Depths t) := by
  cases t with
  | empty c => rfl
  | scan c t x => rfl
  | join c o i x => simp [JT.Tree.isJoin, JT.Tree.isEmpty] at h

/-- The depths of the tables of a join cannot be computed. -/
theorem C195_join_violated (c : JT.Cls) (o i : JT.Tree A) (x : Option A) : joinDepth (.join c o i x) = none := rfl

example : Depths (JT.Tree.join .generic (.scan .generic 0 none) (.join .generic (.scan .generic 1 none) (.scan .generic 2 none) none)
    none : JT.Tree Nat) = [(0, 2), (1, 1), (2, 1)] := by with_unfolding_all decide

/-! ### Texts -/

theorem maxLen_spec {ls : List (List Char)} {n : Nat} (h : maxLen ls = some n) : ∀ l ∈ ls, l.length ≤ n := by
  cases ls with
  | nil => simp [maxLen] at h
  | cons l ls =>
    simp only [maxLen, Option.some.injEq] at h
    have key : ∀ (ls : List (List Char)) (m : Nat), m ≤ ls.foldl (fun m x => max m x.length) m ∧
        ∀ x ∈ ls, x.length ≤ ls.foldl (fun m x => max m x.length) m := by
      intro ls
      induction ls with
      | nil => intro m; simp
      | cons y ys ih =>
        intro m
        obtain ⟨h1, h2⟩ := ih (max m y.length)
        refine ⟨le_trans (le_max_left _ _) h1, ?_⟩
        intro x hx
        rcases List.mem_cons.mp hx with rfl | hx
        · exact le_trans (le_max_right _ _) h1
        · exact h2 x hx
    intro x hx
    rw [← h]
    rcases List.mem_cons.mp hx with rfl | hx
    · exact (key ls _).1
    · exact (key ls _).2 x hx

/-- **C196** (partial).  If the texts have the same number of lines, each line of the result consists of the line of the left text,
padded with spaces, the separator, and the line of the right text; the separators are below each other.

Missing: texts of different lengths and the empty text, see `C196_lines_violated` and `C196_empty_violated`. -/
theorem C196_lines_partial (left right : List (List Char)) (sep : List Char) (hl : left.length = right.length) (h : left ≠ []) :
    ∃ (n : Nat) (ls : List (List Char)), textDiff left right sep = some ls ∧ ls.length = left.length ∧
      ∀ k, (hk : k < left.length) → (hk' : k < right.length) → ∃ pad, (∀ c ∈ pad, c = ' ') ∧ (left[k] ++ pad).length = n ∧
        ls[k]? = some (left[k] ++ pad ++ sep ++ right[k]) := by
  obtain ⟨n, hn⟩ : ∃ n, maxLen left = some n := by
    cases left with
    | nil => exact absurd rfl h
    | cons l ls => exact ⟨_, rfl⟩
  refine ⟨n, ((left.map (ljust n)).zip right).map fun p => p.1 ++ sep ++ p.2,
    by simp only [textDiff, hn, Option.bind_eq_bind, Option.bind_some], by simp [hl], ?_⟩
  intro k hk hk'
  refine ⟨List.replicate (n - left[k].length) ' ', fun c hc => (List.mem_replicate.mp hc).2, ?_, ?_⟩
  · have := maxLen_spec hn left[k] (List.getElem_mem hk)
    simp; omega
  · simp [ljust, List.getElem?_map, List.getElem?_zip_eq_some, hk, hk']

example : ([['a'], ['b', 'c']] : List (List Char)).length = ([['d'], []] : List (List Char)).length ∧
    ([['a'], ['b', 'c']] : List (List Char)) ≠ [] := by decide

/-- The lines of the longer text that have no partner are lost: the result is the same without them. -/
theorem C196_lines_violated (left right more : List (List Char)) (sep : List Char) (hl : left.length = right.length) :
    textDiff left (right ++ more) sep = textDiff left right sep := by
  unfold textDiff
  cases maxLen left with
  | none => rfl
  | some n =>
    simp only [Option.bind_eq_bind, Option.bind_some, Option.some.injEq]
    congr 1
    have : (left.map (ljust n)).zip (right ++ more) = (left.map (ljust n) ++ []).zip (right ++ more) := by simp
    rw [this, List.zip_append (by simpa using hl)]
    simp

/-- Nothing can be compared with an empty text on the left-hand side. -/
theorem C196_empty_violated (right : List (List Char)) (sep : List Char) : textDiff [] right sep = none := rfl

end PB.AnalysisProps
