import Verif.Model.TonicExplore
import Mathlib.Data.List.Basic
import Mathlib.Data.List.Nodup
import Mathlib.Algebra.BigOperators.Group.List.Basic
import Mathlib.Tactic.Tauto

/-!
# Exploring the costs of operators (C230)
-/

set_option linter.unusedSimpArgs false
set_option linter.unusedVariables false
set_option linter.unusedSectionVars false
set_option linter.unnecessarySimpa false
set_option linter.unnecessarySeqFocus false

namespace PB.TonicExploreProps

open PB PB.TonicExplore

variable {J Op P : Type} [DecidableEq J] [DecidableEq Op]

/-! ### Specification -/

/-- A choice of one of the operators for each of the joins, and of nothing else. -/
def Choice (joins : List J) (ops : List Op) (a : Asg J Op) : Prop :=
  (∀ j ∈ joins, ∃ op ∈ ops, Dict.get? a j = some op) ∧ ∀ j, j ∉ joins → Dict.get? a j = none

/-- The operators that the caller allows and the database supports. -/
def Explored (enum : List Op) (supports : Op → Bool) (allowed : Option (List Op)) (op : Op) : Prop :=
  op ∈ enum ∧ supports op = true ∧ ∀ l, allowed = some l → op ∈ l

/-! ### Lemmas -/

theorem set_fresh (d : Dict J Op) (k : J) (v : Op) (h : k ∉ d.keys) : Dict.set d k v = d ++ [(k, v)] := by
  induction d with
  | nil => rfl
  | cons e d ih =>
    have h1 : ¬ e.1 = k := fun he => h (by simp [Dict.keys, he])
    have h2 : k ∉ Dict.keys d := fun hk => h (by simp only [Dict.keys_cons, List.mem_cons]; exact Or.inr hk)
    simp [Dict.set, h1, ih h2]

theorem foldl_set_fresh (l : List (J × Op)) (d : Dict J Op) (h : (d.keys ++ l.map Prod.fst).Nodup) :
    l.foldl (fun d e => Dict.set d e.1 e.2) d = d ++ l := by
  induction l generalizing d with
  | nil => simp
  | cons e l ih =>
    rw [List.foldl_cons]
    have hf : e.1 ∉ d.keys := by
      intro hk
      rw [List.nodup_append] at h
      exact h.2.2 _ hk _ (by simp) rfl
    rw [set_fresh d _ _ hf, ih]
    · simp
    · simpa [Dict.keys, List.append_assoc] using h

theorem ofList_nodup (l : List (J × Op)) (h : (l.map Prod.fst).Nodup) : Dict.ofList l = l := by
  unfold Dict.ofList
  rw [foldl_set_fresh l [] (by simpa [Dict.keys] using h)]
  rfl

theorem mem_product {α : Type} (ls : List (List α)) (x : List α) : x ∈ product ls ↔ List.Forall₂ (fun a l => a ∈ l) x ls := by
  induction ls generalizing x with
  | nil => simp [product]
  | cons l ls ih =>
    simp only [product, List.mem_flatMap, List.mem_map]
    constructor
    · rintro ⟨a, ha, y, hy, rfl⟩
      exact .cons ha ((ih y).1 hy)
    · intro h
      cases h with
      | cons ha hy => exact ⟨_, ha, _, (ih _).2 hy, rfl⟩

theorem nodup_product {α : Type} (ls : List (List α)) (h : ∀ l ∈ ls, l.Nodup) : (product ls).Nodup := by
  induction ls with
  | nil => simp [product]
  | cons l ls ih =>
    have h1 := h l (by simp)
    have h2 := ih fun l hl => h l (List.mem_cons_of_mem _ hl)
    simp only [product]
    rw [List.nodup_flatMap]
    refine ⟨fun x _ => h2.map (fun a b hab => by simpa using hab), ?_⟩
    refine h1.imp ?_
    intro a b hab z hz hz'
    simp only [List.mem_map] at hz hz'
    obtain ⟨y, -, rfl⟩ := hz
    obtain ⟨y', -, he⟩ := hz'
    simp only [List.cons.injEq] at he
    exact hab he.1.symm

theorem length_product {α : Type} (ls : List (List α)) : (product ls).length = (ls.map List.length).prod := by
  induction ls with
  | nil => rfl
  | cons l ls ih =>
    simp only [product, List.length_flatMap, List.length_map, List.map_cons, List.prod_cons, ih]
    simp

/-- The keys of the dictionary of unknown costs. -/
theorem unknown_keys (joins : List J) (ops : List Op) :
    (unknownCosts joins ops).keys.Nodup ∧ (∀ j, j ∈ (unknownCosts joins ops).keys ↔ j ∈ joins) ∧ ∀ e ∈ unknownCosts joins ops, e.2 = ops := by
  have hw : Dict.WF (unknownCosts joins ops) := Dict.WF_ofList _
  have hall : ∀ e ∈ unknownCosts joins ops, e.2 = ops ∧ e.1 ∈ joins := by
    unfold unknownCosts Dict.ofList
    have gen : ∀ (l : List J) (d : Dict J (List Op)), (∀ e ∈ d, e.2 = ops ∧ e.1 ∈ joins) → (∀ j ∈ l, j ∈ joins) →
        ∀ e ∈ (l.map fun j => (j, ops)).foldl (fun d e => Dict.set d e.1 e.2) d, e.2 = ops ∧ e.1 ∈ joins := by
      intro l
      induction l with
      | nil => intro d hd _ e he; exact hd e he
      | cons j l ih =>
        intro d hd hj
        refine ih _ ?_ (fun x hx => hj x (List.mem_cons_of_mem _ hx))
        have hset : ∀ (d : Dict J (List Op)), (∀ e ∈ d, e.2 = ops ∧ e.1 ∈ joins) → ∀ e ∈ Dict.set d j ops, e.2 = ops ∧ e.1 ∈ joins := by
          intro d
          induction d with
          | nil =>
            intro _ e he
            simp only [Dict.set, List.mem_singleton] at he
            subst he
            exact ⟨rfl, hj j (by simp)⟩
          | cons x d ihd =>
            intro hx e he
            unfold Dict.set at he
            split at he
            · rename_i hxj
              rcases List.mem_cons.1 he with rfl | he
              · exact ⟨rfl, by have := hj j (by simp); simpa [hxj] using this⟩
              · exact hx e (List.mem_cons_of_mem _ he)
            · rcases List.mem_cons.1 he with rfl | he
              · exact hx _ (by simp)
              · exact ihd (fun y hy => hx y (List.mem_cons_of_mem _ hy)) e he
        exact hset d hd
    exact gen joins [] (by simp) (fun j hj => hj)
  refine ⟨hw, fun j => ⟨fun hj => ?_, fun hj => ?_⟩, fun e he => (hall e he).1⟩
  · obtain ⟨e, he, rfl⟩ := List.mem_map.1 hj
    exact (hall e he).2
  · have : (Dict.get? (unknownCosts joins ops) j).isSome := by
      unfold unknownCosts Dict.ofList
      have gen : ∀ (l : List J) (d : Dict J (List Op)), (j ∈ d.keys ∨ j ∈ l) →
          j ∈ Dict.keys ((l.map fun j => (j, ops)).foldl (fun d e => Dict.set d e.1 e.2) d) := by
        intro l
        induction l with
        | nil => intro d h; exact h.elim id (fun h => by cases h)
        | cons x l ih =>
          intro d h
          refine ih _ ?_
          rw [Dict.mem_keys_set]
          rcases h with h | h
          · exact Or.inl (Or.inr h)
          · rcases List.mem_cons.1 h with rfl | h
            · exact Or.inl (Or.inl rfl)
            · exact Or.inr h
      rw [Dict.get?_isSome]
      exact gen joins [] (Or.inr hj)
    rwa [Dict.get?_isSome] at this

theorem unknown_values (joins : List J) (ops : List Op) :
    (unknownCosts joins ops).values = List.replicate (unknownCosts joins ops).keys.length ops := by
  rw [List.eq_replicate_iff]
  refine ⟨by simp [Dict.values, Dict.keys], fun b hb => ?_⟩
  obtain ⟨e, he, rfl⟩ := List.mem_map.1 hb
  exact (unknown_keys joins ops).2.2 e he

theorem mkAsg_eq (ks : List J) (sel : List Op) (hk : ks.Nodup) (hl : sel.length = ks.length) : mkAsg ks sel = ks.zip sel := by
  unfold mkAsg
  apply ofList_nodup
  rw [List.map_fst_zip (by omega)]
  exact hk

theorem choice_of_sel (joins : List J) (ops : List Op) (ks : List J) (hk : ks.Nodup) (hj : ∀ j, j ∈ ks ↔ j ∈ joins) (sel : List Op)
    (hl : sel.length = ks.length) (hs : ∀ op ∈ sel, op ∈ ops) : Choice joins ops (ks.zip sel) := by
  have hfst : (ks.zip sel).map Prod.fst = ks := List.map_fst_zip (by omega)
  have hwf : Dict.WF (ks.zip sel : Dict J Op) := by
    unfold Dict.WF Dict.keys
    rw [hfst]; exact hk
  constructor
  · intro j hjj
    have hmem : j ∈ (ks.zip sel).map Prod.fst := by rw [hfst]; exact (hj j).2 hjj
    obtain ⟨e, he, rfl⟩ := List.mem_map.1 hmem
    refine ⟨e.2, hs _ (List.of_mem_zip he).2, Dict.get?_of_mem hwf he⟩
  · intro j hjj
    rw [Dict.get?_eq_none]
    unfold Dict.keys
    rw [hfst]
    exact fun h => hjj ((hj j).1 h)

/-- All assignments: those that choose one operator for each join. -/
theorem allAsgs_spec (joins : List J) (ops : List Op) (hops : ops.Nodup) :
    (∀ a ∈ allAsgs (unknownCosts joins ops), Choice joins ops a) ∧
      (∀ f : J → Op, (∀ j ∈ joins, f j ∈ ops) → ∃ a ∈ allAsgs (unknownCosts joins ops), ∀ j ∈ joins, Dict.get? a j = some (f j)) ∧
      (allAsgs (unknownCosts joins ops)).Pairwise (fun a b => ∃ j ∈ joins, Dict.get? a j ≠ Dict.get? b j) ∧
      (allAsgs (unknownCosts joins ops)).length = ops.length ^ (unknownCosts joins ops).keys.length := by
  obtain ⟨hk, hj, -⟩ := unknown_keys joins ops
  have hv := unknown_values joins ops
  generalize unknownCosts joins ops = U at hk hj hv ⊢
  unfold allAsgs
  rw [hv]
  have hsel : ∀ x : List Op, x ∈ product (List.replicate U.keys.length ops) ↔ x.length = U.keys.length ∧ ∀ op ∈ x, op ∈ ops := by
    intro x
    rw [mem_product]
    generalize U.keys.length = n
    induction n generalizing x with
    | zero => constructor
              · intro h; cases h; simp
              · rintro ⟨h, -⟩
                rw [List.length_eq_zero_iff.1 h]
                exact .nil
    | succ n ih =>
      rw [List.replicate_succ]
      constructor
      · intro h
        cases h with
        | cons ha hr =>
          obtain ⟨h1, h2⟩ := (ih _).1 hr
          refine ⟨by simp [h1], fun op ho => ?_⟩
          rcases List.mem_cons.1 ho with rfl | ho
          · exact ha
          · exact h2 op ho
      · rintro ⟨h1, h2⟩
        rcases x with - | ⟨a, x⟩
        · simp at h1
        · exact .cons (h2 a (by simp)) ((ih x).2 ⟨by simpa using h1, fun op ho => h2 op (List.mem_cons_of_mem _ ho)⟩)
  refine ⟨?_, ?_, ?_, ?_⟩
  · intro a ha
    obtain ⟨sel, hs, rfl⟩ := List.mem_map.1 ha
    obtain ⟨h1, h2⟩ := (hsel sel).1 hs
    rw [mkAsg_eq _ _ hk h1]
    exact choice_of_sel joins ops U.keys hk hj sel h1 h2
  · intro f hf
    refine ⟨mkAsg U.keys (U.keys.map f), List.mem_map.2 ⟨_, (hsel _).2 ⟨by simp, ?_⟩, rfl⟩, ?_⟩
    · intro op ho
      obtain ⟨j, hjm, rfl⟩ := List.mem_map.1 ho
      exact hf j ((hj j).1 hjm)
    · intro j hjj
      rw [mkAsg_eq _ _ hk (by simp)]
      apply Dict.get?_of_mem
      · unfold Dict.WF
        show (List.map Prod.fst _).Nodup
        rw [List.map_fst_zip (by simp)]
        exact hk
      · have : (U.keys.zip (U.keys.map f)) = U.keys.map fun j => (j, f j) := by
          have hz := List.zip_map' (f := id) (g := f) (l := U.keys)
          simpa using hz
        rw [this]
        exact List.mem_map.2 ⟨j, (hj j).2 hjj, rfl⟩
  · rw [List.pairwise_map]
    have hnd : (product (List.replicate U.keys.length ops)).Nodup := by
      apply nodup_product
      intro l hl
      rw [List.eq_of_mem_replicate hl]
      exact hops
    rw [List.Nodup] at hnd
    refine List.Pairwise.imp_of_mem ?_ hnd
    intro x y hx hy hne
    obtain ⟨hx1, hx2⟩ := (hsel x).1 hx
    obtain ⟨hy1, hy2⟩ := (hsel y).1 hy
    rw [mkAsg_eq _ _ hk hx1, mkAsg_eq _ _ hk hy1]
    by_contra hcon
    push Not at hcon
    apply hne
    apply List.ext_getElem (by omega)
    intro i h1 h2
    have hi : i < U.keys.length := by omega
    have wf : ∀ z : List Op, z.length = U.keys.length → Dict.WF (U.keys.zip z : Dict J Op) := by
      intro z hz
      unfold Dict.WF
      show (List.map Prod.fst _).Nodup
      rw [List.map_fst_zip (by omega)]
      exact hk
    have gx : Dict.get? (U.keys.zip x : Dict J Op) U.keys[i] = some x[i] := by
      apply Dict.get?_of_mem (wf x hx1)
      rw [List.mem_iff_getElem]
      exact ⟨i, by simp; omega, by simp⟩
    have gy : Dict.get? (U.keys.zip y : Dict J Op) U.keys[i] = some y[i] := by
      apply Dict.get?_of_mem (wf y hy1)
      rw [List.mem_iff_getElem]
      exact ⟨i, by simp; omega, by simp⟩
    have := hcon U.keys[i] ((hj _).1 (List.getElem_mem hi))
    rw [gx, gy] at this
    exact Option.some.inj this
  · rw [List.length_map, length_product]
    simp

theorem combinations_eq (joins : List J) (ops : List Op) :
    combinations (unknownCosts joins ops) = ops.length ^ (unknownCosts joins ops).keys.length := by
  unfold combinations
  rw [unknown_values]
  generalize (unknownCosts joins ops).keys.length = n
  have : ∀ (n k : Nat), (List.replicate n ops.length).foldl (· * ·) k = k * ops.length ^ n := by
    intro n
    induction n with
    | zero => simp
    | succ n ih => intro k; rw [List.replicate_succ, List.foldl_cons, ih, pow_succ, Nat.mul_assoc, Nat.mul_comm ops.length]
  rw [List.map_replicate, this]
  simp

theorem randomAsg_choice (ops : List Op) (pick : J → Nat → Nat) (avail : Dict J (List Op)) (hv : ∀ e ∈ avail, e.2 = ops) (a0 a : Asg J Op)
    (h : randomAsg pick avail a0 = some a) :
    (∀ j ∈ avail.keys, ∃ op ∈ ops, Dict.get? a j = some op) ∧ ∀ j, j ∉ avail.keys → Dict.get? a j = Dict.get? a0 j := by
  induction avail generalizing a0 with
  | nil =>
    cases h
    exact ⟨fun j hj => by simp [Dict.keys] at hj, fun _ _ => rfl⟩
  | cons e avail ih =>
    obtain ⟨j0, l⟩ := e
    unfold randomAsg at h
    split at h
    · cases h
    · rename_i op hop
      obtain ⟨h1, h2⟩ := ih (fun e he => hv e (List.mem_cons_of_mem _ he)) _ h
      have hl : l = ops := hv (j0, l) (by simp)
      have hmem : op ∈ ops := by rw [← hl]; exact List.mem_of_getElem? hop
      refine ⟨fun j hj => ?_, fun j hj => ?_⟩
      · by_cases hjk : j ∈ Dict.keys avail
        · exact h1 j hjk
        · have : j = j0 := by
            simp only [Dict.keys_cons, List.mem_cons] at hj
            exact hj.resolve_right hjk
          subst this
          refine ⟨op, hmem, ?_⟩
          rw [h2 j hjk, Dict.get?_set]
          simp
      · simp only [Dict.keys_cons, List.mem_cons, not_or] at hj
        rw [h2 j hj.2, Dict.get?_set]
        have h3 := hj.1
        have h4 : ¬ j0 = j := fun h => h3 h.symm
        simp [h3, h4]

theorem sampleLoop_spec (hash : Asg J Op → Nat) (picks : Nat → J → Nat → Nat) (avail : Dict J (List Op)) (n : Nat) :
    ∀ (fuel : Nat) (plans : List (Asg J Op)) (seen : List Nat) (out : List (Asg J Op)), seen = plans.map hash → seen.Nodup → plans.length ≤ n →
      sampleLoop hash picks avail n fuel plans seen = some out →
      (out.map hash).Nodup ∧ out.length ≤ n ∧ out.length ≤ plans.length + fuel ∧ plans <+: out ∧
        (∀ a ∈ out, a ∈ plans ∨ ∃ t < fuel, randomAsg (picks t) avail [] = some a) ∧
        (out.length = n ∨ ∀ t < fuel, ∃ a, randomAsg (picks t) avail [] = some a ∧ ∃ b ∈ out, hash b = hash a) := by
  intro fuel
  induction fuel with
  | zero =>
    intro plans seen out hs hn hl h
    cases h
    exact ⟨hs ▸ hn, hl, by omega, List.prefix_rfl, fun a ha => Or.inl ha, Or.inr fun t ht => by omega⟩
  | succ fuel ih =>
    intro plans seen out hs hn hl h
    unfold sampleLoop at h
    split at h
    · rename_i hlt
      split at h
      · cases h
      · rename_i a ha
        split at h
        · rename_i hin
          obtain ⟨i1, i2, i3, i4, i5, i6⟩ := ih plans seen out hs hn hl h
          refine ⟨i1, i2, by omega, i4, fun b hb => ?_, ?_⟩
          · rcases i5 b hb with h | ⟨t, ht, hr⟩
            · exact Or.inl h
            · exact Or.inr ⟨t, by omega, hr⟩
          · refine i6.imp id fun hall t ht => ?_
            by_cases htf : t = fuel
            · subst htf
              rw [hs] at hin
              obtain ⟨b, hb, he⟩ := List.mem_map.1 hin
              exact ⟨a, ha, b, i4.subset hb, he⟩
            · exact hall t (by omega)
        · rename_i hin
          have hnd : (seen ++ [hash a]).Nodup := by
            rw [List.nodup_append]
            refine ⟨hn, by simp, fun x hx y hy => ?_⟩
            simp only [List.mem_singleton] at hy
            rintro rfl
            subst hy
            exact hin hx
          obtain ⟨i1, i2, i3, i4, i5, i6⟩ := ih (plans ++ [a]) (seen ++ [hash a]) out (by simp [hs]) hnd (by simp; omega) h
          refine ⟨i1, i2, by simp at i3; omega, (List.prefix_append _ _).trans i4, fun b hb => ?_, ?_⟩
          · rcases i5 b hb with h | ⟨t, ht, hr⟩
            · rcases List.mem_append.1 h with h | h
              · exact Or.inl h
              · simp only [List.mem_singleton] at h
                exact Or.inr ⟨fuel, by omega, by rw [h]; exact ha⟩
            · exact Or.inr ⟨t, by omega, hr⟩
          · refine i6.imp id fun hall t ht => ?_
            by_cases htf : t = fuel
            · subst htf
              exact ⟨a, ha, a, i4.subset (by simp), rfl⟩
            · exact hall t (by omega)
    · rename_i hlt
      cases h
      exact ⟨hs ▸ hn, hl, by omega, List.prefix_rfl, fun a ha => Or.inl ha, Or.inl (by omega)⟩

theorem usedOps_spec (enum : List Op) (supports : Op → Bool) (allowed : Option (List Op)) (hne : allowed ≠ some []) (op : Op) :
    op ∈ usedOps enum supports allowed ↔ Explored enum supports allowed op := by
  unfold usedOps Explored
  cases allowed with
  | none =>
    simp only [List.mem_filter, Bool.and_eq_true, List.contains_iff_mem]
    constructor
    · rintro ⟨h1, h2, -⟩; exact ⟨h1, h2, fun l h => by cases h⟩
    · rintro ⟨h1, h2, -⟩; exact ⟨h1, h2, h1⟩
  | some l =>
    have : l.isEmpty = false := by
      cases l with
      | nil => exact absurd rfl hne
      | cons => rfl
    simp only [this, List.mem_filter, Bool.and_eq_true, Bool.false_eq_true, if_false, List.contains_iff_mem]
    constructor
    · rintro ⟨h1, h2, h3⟩; exact ⟨h1, h2, fun l' h => by cases h; exact h3⟩
    · rintro ⟨h1, h2, h3⟩; exact ⟨h1, h2, h3 l rfl⟩

variable (enum : List Op) (supports : Op → Bool) (hash : Asg J Op → Nat) (picks : Nat → J → Nat → Nat) (plan : Asg J Op → P)

/-! ### C230 -/

/-- If the number of combinations does not exceed the limit, exactly the plans of all choices of an allowed and supported operator for each
join are integrated, each of them once. -/
theorem C230_all_partial (joins : List J) (allowed : Option (List Op)) (ops : List Op) (hops : ops.Nodup) (henum : enum.Nodup)
    (hin : ∀ op, op ∈ ops ↔ Explored enum supports allowed op) (hne : allowed ≠ some []) (hj : joins.Nodup) (n : Nat)
    (hn : ops.length ^ joins.length ≤ n) :
    ∃ asgs : List (Asg J Op), explore enum supports hash picks plan joins allowed (some n) = .ok (asgs.map plan) ∧
      asgs.length = ops.length ^ joins.length ∧
      (∀ a ∈ asgs, Choice joins ops a) ∧
      (∀ f : J → Op, (∀ j ∈ joins, f j ∈ ops) → ∃ a ∈ asgs, ∀ j ∈ joins, Dict.get? a j = some (f j)) ∧
      asgs.Pairwise (fun a b => ∃ j ∈ joins, Dict.get? a j ≠ Dict.get? b j) := by
  generalize hu : usedOps enum supports allowed = used
  have hperm : ∀ op, op ∈ used ↔ op ∈ ops := fun op => by rw [← hu, usedOps_spec enum supports allowed hne, hin]
  have hund : used.Nodup := by rw [← hu]; exact henum.filter _
  have hlen : used.length = ops.length := ((List.perm_ext_iff_of_nodup hund hops).2 hperm).length_eq
  have hkeys : (unknownCosts joins used).keys.length = joins.length := by
    obtain ⟨k1, k2, -⟩ := unknown_keys joins used
    exact ((List.perm_ext_iff_of_nodup k1 hj).2 k2).length_eq
  obtain ⟨s1, s2, s3, s4⟩ := allAsgs_spec joins used hund
  refine ⟨allAsgs (unknownCosts joins used), ?_, by rw [s4, hlen, hkeys], ?_, ?_, s3⟩
  · unfold explore
    simp only [hu]
    rw [if_neg]
    rw [combinations_eq, hlen, hkeys]
    omega
  · intro a ha
    obtain ⟨c1, c2⟩ := s1 a ha
    refine ⟨fun j hj' => ?_, c2⟩
    obtain ⟨op, ho, hg⟩ := c1 j hj'
    exact ⟨op, (hperm op).1 ho, hg⟩
  · intro f hf
    exact s2 f fun j hj' => (hperm _).2 (hf j hj')

/-- Otherwise at most as many plans as the limit are integrated. They belong to different choices of allowed and supported operators for the
joins, which were drawn in at most three times as many tries. If there are fewer plans than the limit, each try drew a choice that is integrated
(up to equal hashes). -/
theorem C230_sample_partial (joins : List J) (allowed : Option (List Op)) (hne : allowed ≠ some []) (n : Nat) (out : List P)
    (hn : n < combinations (unknownCosts joins (usedOps enum supports allowed)))
    (h : explore enum supports hash picks plan joins allowed (some n) = .ok out) :
    ∃ asgs : List (Asg J Op), out = asgs.map plan ∧ asgs.length ≤ n ∧ (asgs.map hash).Nodup ∧
      (∀ a ∈ asgs, (∀ j ∈ joins, ∃ op, Explored enum supports allowed op ∧ Dict.get? a j = some op) ∧ ∀ j, j ∉ joins → Dict.get? a j = none) ∧
      (asgs.length = n ∨ ∀ t < 3 * n, ∃ a, randomAsg (picks t) (unknownCosts joins (usedOps enum supports allowed)) [] = some a ∧
        ∃ b ∈ asgs, hash b = hash a) := by
  unfold explore at h
  simp only at h
  rw [if_pos hn] at h
  split at h
  · cases h
  · rename_i l hl
    cases h
    obtain ⟨i1, i2, i3, i4, i5, i6⟩ := sampleLoop_spec hash picks _ n (3 * n) [] [] l rfl List.nodup_nil (by simp) hl
    refine ⟨l, rfl, i2, i1, fun a ha => ?_, i6⟩
    rcases i5 a ha with h | ⟨t, ht, hr⟩
    · cases h
    · obtain ⟨k1, k2, k3⟩ := unknown_keys joins (usedOps enum supports allowed)
      obtain ⟨r1, r2⟩ := randomAsg_choice _ _ _ k3 _ _ hr
      refine ⟨fun j hj => ?_, fun j hj => ?_⟩
      · obtain ⟨op, ho, hg⟩ := r1 j ((k2 j).2 hj)
        exact ⟨op, (usedOps_spec enum supports allowed hne op).1 ho, hg⟩
      · rw [r2 j (fun hk => hj ((k2 j).1 hk))]
        rfl

/-- The default of the limit is `None`, with which every exploration fails. -/
theorem C230_default_violated (joins : List J) (allowed : Option (List Op)) :
    explore enum supports hash picks plan joins allowed none = .error .typeError := rfl

/-- If no operator is allowed, all supported operators are explored. -/
theorem C230_empty_violated (joins : List J) (max : Option Nat) :
    explore enum supports hash picks plan joins (some []) max = explore enum supports hash picks plan joins none max := rfl

def exExplore (max : Nat) : Except Err (List (Asg Nat Nat)) :=
  explore [0, 1, 2, 3] (fun o => o != 3) (fun a => (a.map Prod.snd).foldl (fun x y => 10 * x + y) 0) (fun t j n => (t + j) % n) id [7, 8]
    (some [0, 2, 3]) (some max)

example : exExplore 4 = .ok [[(7, 0), (8, 0)], [(7, 0), (8, 2)], [(7, 2), (8, 0)], [(7, 2), (8, 2)]] := by decide
example : exExplore 2 = .ok [[(7, 0), (8, 2)], [(7, 2), (8, 0)]] := by decide
example : ∀ op, op ∈ [0, 2] ↔ Explored [0, 1, 2, 3] (fun o => o != 3) (some [0, 2, 3]) op := by
  intro op
  unfold Explored
  constructor
  · intro h
    simp at h
    rcases h with rfl | rfl <;> simp
  · rintro ⟨h1, h2, h3⟩
    have := h3 _ rfl
    simp at this h2 ⊢
    omega

end PB.TonicExploreProps
