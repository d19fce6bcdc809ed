import Mathlib.Tactic.FieldSimp
import Mathlib.Tactic.Linarith
import Mathlib.Algebra.Order.Floor.Ring
import Verif.Props.UesFreq

/-! Property C272 (exact bounds and branching decisions of the UES optimizer). -/

set_option linter.unusedSimpArgs false

namespace PB.UesPolicyProps

open PB PB.JoinGraph PB.Ues

/-- Specification: the rows of a table, its upper bound if there is one and its base estimate otherwise. -/
def rows (s : St) (t : Nat) : Rat :=
  match Dict.get? s.ub t with
  | some u => u
  | none => s.base t

/-- Specification: the largest result of a single join. A row of the primary key table meets each foreign key value at most as often
as the most frequent one; otherwise each row of one table meets at most the most frequent value of the other. -/
def largest (s : St) (j : Col × Col) : Rat :=
  if s.g.isPkFk j.1.tab j.2.tab then s.freq j.1 * s.base j.2.tab
  else if s.g.isPkFk j.2.tab j.1.tab then s.freq j.2 * s.base j.1.tab
  else min (rows s j.1.tab * s.freq j.2) (rows s j.2.tab * s.freq j.1)

/-- Specification: the table with the foreign key in a join of a primary and a foreign key. -/
def FkTable (s : St) (j : Col × Col) (t : Nat) : Prop :=
  (s.g.isPkFk j.1.tab j.2.tab = true ∧ t = j.1.tab) ∨
  (s.g.isPkFk j.1.tab j.2.tab = false ∧ s.g.isPkFk j.2.tab j.1.tab = true ∧ t = j.2.tab)

theorem fetch_rows (s : St) (c : Col) : fetchBound s c = rows s c.tab := by
  unfold fetchBound rows
  cases Dict.get? s.ub c.tab <;> rfl

theorem nm_eq (s : St) (a b : Col) (hf : ∀ c, 0 ≤ s.freq c) (hr : ∀ t, 0 ≤ rows s t) :
    nmBound s a b = (Int.ceil (min (rows s a.tab * s.freq b) (rows s b.tab * s.freq a)) : Int) := by
  unfold nmBound
  rw [fetch_rows, fetch_rows]
  have ha := hf a
  have hb := hf b
  have h1 := hr a.tab
  have h2 := hr b.tab
  split
  · rename_i h
    have : min (rows s a.tab * s.freq b) (rows s b.tab * s.freq a) = 0 := by
      rcases h with h | h | h | h
      · rw [h, zero_mul]; exact min_eq_left (mul_nonneg h2 ha)
      · rw [h, zero_mul]; exact min_eq_right (mul_nonneg h1 hb)
      · rw [h, mul_zero]; exact min_eq_right (mul_nonneg h1 hb)
      · rw [h, mul_zero]; exact min_eq_left (mul_nonneg h2 ha)
    rw [this]; simp
  · rename_i h
    simp only [not_or] at h
    obtain ⟨_, _, ha0, hb0⟩ := h
    congr 2
    rw [mul_assoc, min_mul_of_nonneg _ _ (mul_nonneg ha hb)]
    congr 1 <;> field_simp

theorem pred_eq (s : St) (j : Col × Col) (hf : ∀ c, 0 ≤ s.freq c) (hr : ∀ t, 0 ≤ rows s t) :
    predBound s j = (Int.ceil (largest s j) : Int) := by
  unfold predBound largest pkFkBound
  split
  · rfl
  · split
    · rfl
    · exact nm_eq s _ _ hf hr

/-- The fold takes the least value. -/
theorem fold_least (f : Col × Col → Rat) : ∀ (c : Cond) (m : Bound), (c ≠ [] ∨ m ≠ none) →
    ∃ b, c.foldl (fun m j => if Bound.lt (some (f j)) m then some (f j) else m) m = some b ∧
      ((∃ j ∈ c, b = f j) ∨ m = some b) ∧ (∀ j ∈ c, b ≤ f j) ∧ ∀ x, m = some x → b ≤ x
  | [], m, h => by
    obtain ⟨b, rfl⟩ := Option.ne_none_iff_exists'.1 (h.resolve_left (by simp))
    exact ⟨b, rfl, .inr rfl, by simp, by simp⟩
  | j :: c, m, h => by
    rw [List.foldl_cons]
    by_cases hl : Bound.lt (some (f j)) m = true
    · rw [if_pos hl]
      obtain ⟨b, h1, h2, h3, h4⟩ := fold_least f c (some (f j)) (.inr (by simp))
      have hbj := h4 _ rfl
      refine ⟨b, h1, .inl ?_, ?_, ?_⟩
      · rcases h2 with ⟨k, hk, e⟩ | h2
        · exact ⟨k, by simp [hk], e⟩
        · exact ⟨j, by simp, (Option.some.inj h2).symm⟩
      · intro k hk
        rcases List.mem_cons.1 hk with rfl | hk
        · exact hbj
        · exact h3 k hk
      · rintro x rfl
        simp [Bound.lt] at hl
        exact hbj.trans hl.le
    · rw [if_neg hl]
      have hm : m ≠ none := by rintro rfl; simp [Bound.lt] at hl
      obtain ⟨b, h1, h2, h3, h4⟩ := fold_least f c m (.inr hm)
      obtain ⟨x, hx⟩ := Option.ne_none_iff_exists'.1 hm
      refine ⟨b, h1, ?_, ?_, h4⟩
      · rcases h2 with ⟨k, hk, e⟩ | h2
        · exact .inl ⟨k, by simp [hk], e⟩
        · exact .inr h2
      · intro k hk
        rcases List.mem_cons.1 hk with rfl | hk
        · have := h4 x hx
          subst hx
          simp [Bound.lt] at hl
          exact this.trans hl
        · exact h3 k hk

/-- **C272**: with statistics that are not negative, the bound of a join is the least integer that is at least the largest result of
one of its predicates, and no predicate gives a smaller one. -/
theorem C272_bound (s : St) (c : Cond) (hne : c ≠ []) (hf : ∀ x, 0 ≤ s.freq x) (hr : ∀ t, 0 ≤ rows s t) :
    ∃ n : Int, uesEstimate s c = some (n : Rat) ∧ (∃ j ∈ c, largest s j ≤ n ∧ (n : Rat) < largest s j + 1) ∧
      ∀ j ∈ c, (n : Rat) < largest s j + 1 := by
  obtain ⟨b, h1, h2, h3, _⟩ := fold_least (predBound s) c none (.inl hne)
  obtain ⟨j, hj, rfl⟩ := h2.resolve_right (by simp)
  rw [pred_eq s j hf hr] at h1
  refine ⟨_, h1, ⟨j, hj, Int.le_ceil _, Int.ceil_lt_add_one _⟩, ?_⟩
  intro k hk
  have := h3 k hk
  rw [pred_eq s j hf hr, pred_eq s k hf hr] at this
  exact lt_of_le_of_lt this (Int.ceil_lt_add_one _)

/-- **C272**: a join without predicates has no bound. -/
theorem C272_cross (s : St) : uesEstimate s [] = none := rfl

theorem fk_iff (s : St) (j : Col × Col) (t : Nat) : FkTable s j t ↔ subqueryTable s j = some t := by
  unfold FkTable subqueryTable
  cases s.g.isPkFk j.1.tab j.2.tab <;> cases s.g.isPkFk j.2.tab j.1.tab <;> simp [eq_comm]

theorem loop_eq (s : St) : ∀ c : Cond, (∀ j ∈ c, ∀ t, FkTable s j t → Dict.get? s.ub t ≠ none) →
    ∃ r, subqueryLoop s c = some r ∧ (r = true ↔ ∃ j ∈ c, ∃ t u, FkTable s j t ∧ Dict.get? s.ub t = some u ∧ u < s.base t)
  | [], _ => ⟨false, rfl, by simp⟩
  | j :: c, h => by
    obtain ⟨r, h1, h2⟩ := loop_eq s c (fun k hk => h k (by simp [hk]))
    unfold subqueryLoop
    cases ht : subqueryTable s j with
    | none =>
      refine ⟨r, h1, h2.trans ⟨fun ⟨k, hk, x⟩ => ⟨k, by simp [hk], x⟩, ?_⟩⟩
      rintro ⟨k, hk, t, u, hx, y⟩
      rcases List.mem_cons.1 hk with rfl | hk
      · rw [fk_iff, ht] at hx; cases hx
      · exact ⟨k, hk, t, u, hx, y⟩
    | some t =>
      obtain ⟨u, hu⟩ := Option.ne_none_iff_exists'.1 (h j (by simp) t ((fk_iff s j t).2 ht))
      simp only [hu, Option.bind_some]
      by_cases hlt : u < s.base t
      · exact ⟨true, by simp [hlt], by simp only [true_iff]; exact ⟨j, by simp, t, u, (fk_iff s j t).2 ht, hu, hlt⟩⟩
      · refine ⟨r, by simp [hlt, h1], h2.trans ⟨fun ⟨k, hk, x⟩ => ⟨k, by simp [hk], x⟩, ?_⟩⟩
        rintro ⟨k, hk, t', u', hx, hy, hz⟩
        rcases List.mem_cons.1 hk with rfl | hk
        · rw [fk_iff, ht] at hx
          cases hx
          rw [hu] at hy
          cases hy
          exact absurd hz hlt
        · exact ⟨k, hk, t', u', hx, hy, hz⟩

/-- **C272** (partial): a subquery is made exactly if at least two tables are joined already and in one of the joins of a primary and a
foreign key the bound of the foreign key's table is below its base estimate. Missing: tables without bound, see
`C272_missing_violated`. -/
theorem C272_subquery_partial (s : St) (c : Cond) (h : ∀ j ∈ c, ∀ t, FkTable s j t → Dict.get? s.ub t ≠ none) :
    ∃ r, uesSubquery s c = some r ∧ (r = true ↔ 2 ≤ s.g.countConsumed ∧
      ∃ j ∈ c, ∃ t u, FkTable s j t ∧ Dict.get? s.ub t = some u ∧ u < s.base t) := by
  unfold uesSubquery
  by_cases hc : s.g.countConsumed < 2
  · exact ⟨false, by simp [hc], by simp; omega⟩
  · obtain ⟨r, h1, h2⟩ := loop_eq s c h
    refine ⟨r, by simp [hc, h1], ?_⟩
    rw [h2]
    exact ⟨fun x => ⟨by omega, x⟩, fun x => x.2⟩

/-- **C272** (violated): the decision fails if the first join is one of a primary and a foreign key whose table has no bound. -/
theorem C272_missing_violated (s : St) (j : Col × Col) (c : Cond) (t : Nat) (hc : 2 ≤ s.g.countConsumed) (hj : FkTable s j t)
    (hu : Dict.get? s.ub t = none) : uesSubquery s (j :: c) = none := by
  unfold uesSubquery subqueryLoop
  rw [(fk_iff s j t).1 hj]
  simp [hu, show ¬ s.g.countConsumed < 2 by omega]

open Classical in
/-- **C272**: a join by one predicate sets the frequencies of its two columns to their product, whichever side the joined table is on.
Columns with predicates between other tables of the tree are multiplied by this product; all other frequencies stay. -/
theorem C272_update (s : St) (tree : List Nat) (t : Nat) (a b : Col) (j : Col × Col) (hj : j = (a, b) ∨ j = (b, a))
    (ha : a.tab = t) (hb : b.tab ≠ t) (x : Col) :
    uesUpdate s tree t [j] x = (if x = a ∨ x = b then s.freq a * s.freq b else s.freq x) *
      (if UesFreqProps.Third s.g.qjoins tree t x then s.freq a * s.freq b else 1) := by
  have hne : a ≠ b := by rintro rfl; exact hb ha
  have hp : ∀ y, updatePairs t s.freq [j] y = if y = a ∨ y = b then s.freq a * s.freq b else s.freq y := by
    intro y
    rcases hj with rfl | rfl <;>
    · simp only [updatePairs, List.foldl_cons, List.foldl_nil, ha, hb, if_true, if_false, updatePair]
      by_cases h1 : y = a
      · subst h1; simp [hne]
      · by_cases h2 : y = b
        · subst h2; simp [h1, mul_comm]
        · simp [h1, h2]
  have hl : argminCol (updatePairs t s.freq [j]) ((condCols [j]).filter fun x => x.tab = t) = some a := by
    rcases hj with rfl | rfl <;> simp [condCols, ha, hb, argminCol]
  simp only [uesUpdate, hl, UesFreqProps.thirdParty_iff, hp]
  by_cases h3 : UesFreqProps.Third s.g.qjoins tree t x <;> simp [h3]

example : ∃ (a b : Col) (t : Nat), a.tab = t ∧ b.tab ≠ t ∧ a.name ≠ b.name := ⟨⟨1, 5⟩, ⟨3, 0⟩, 1, rfl, by decide, by decide⟩

/-- Tables 1 and 2 are joined, with 5 rows each instead of 10; table 3 with its primary key is free and has a foreign key in table 1. -/
def exState : St :=
  { g := { nodes := [(1, false), (2, false), (3, true)], edges := [(1, 3, [(⟨1, 5⟩, ⟨3, 0⟩)])], qjoins := [(⟨1, 5⟩, ⟨3, 0⟩)]
           idx := fun c => if c.name = 0 then ⟨.primary, false⟩ else ⟨.secondary, false⟩ }
    base := fun _ => 10, ub := [(1, 5), (2, 5)], freq := fun _ => 2 }

/-- The hypotheses of `C272_bound` are met. -/
example : (∀ x, 0 ≤ exState.freq x) ∧ ∀ t, 0 ≤ rows exState t := by
  refine ⟨fun _ => by simp [exState], fun t => ?_⟩
  simp only [rows, exState, Dict.get?]
  split
  · rename_i u hu
    split at hu
    · cases hu; norm_num
    · split at hu
      · cases hu; norm_num
      · cases hu
  · norm_num

example : FkTable exState (⟨1, 5⟩, ⟨3, 0⟩) 1 ∧ 2 ≤ exState.g.countConsumed ∧ Dict.get? exState.ub 1 = some 5 := by
  refine ⟨.inl ⟨by decide, rfl⟩, by decide, by rfl⟩

/-- The bound of the example is `2 * 10`, and the join is made in a subquery. -/
example : uesEstimate exState [(⟨1, 5⟩, ⟨3, 0⟩)] = some 20 ∧ uesSubquery exState [(⟨1, 5⟩, ⟨3, 0⟩)] = some true := by
  have h : exState.g.isPkFk 1 3 = true := by decide
  have hc : ¬ exState.g.countConsumed < 2 := by decide
  constructor
  · simp [uesEstimate, predBound, pkFkBound, h, Bound.lt]
    simp [exState]
    norm_num
  · simp [uesSubquery, subqueryLoop, subqueryTable, h, hc]
    simp [exState, Dict.get?]
    norm_num

/-- Without a bound for table 1, the decision fails. -/
example : uesSubquery { exState with ub := [] } [(⟨1, 5⟩, ⟨3, 0⟩)] = none :=
  C272_missing_violated _ _ _ 1 (by decide) (.inl ⟨by decide, rfl⟩) rfl

end PB.UesPolicyProps
