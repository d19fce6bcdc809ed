import Verif.Model.Pred
import Verif.Props.Pred
import Verif.Props.Collections

set_option linter.unusedSimpArgs false
set_option linter.unusedVariables false
set_option linter.unusedSectionVars false
set_option linter.unnecessarySimpa false

/-! Properties C34, C35, C85, C86, C87, C88: `QueryPredicates`. -/

namespace PB.QueryPredsProps
open PB PB.Qal PB.Qal.Expr PB.ExprProps PB.PredProps

variable {Q : Type}

/-! ### Lists of computations that may raise -/

theorem mapM_forall₂ {α β : Type} (f : α → Option β) (l : List α) (r : List β) :
    l.mapM f = some r ↔ List.Forall₂ (fun a b => f a = some b) l r := by
  induction l generalizing r with
  | nil => simp only [List.mapM_nil, List.forall₂_nil_left_iff]; exact ⟨fun h => by cases h; rfl, fun h => by rw [h]; rfl⟩
  | cons a l ih =>
    simp only [List.mapM_cons]
    cases ha : f a with
    | none =>
      simp only [Option.bind_eq_bind, Option.bind_none, reduceCtorEq, false_iff]
      intro h; cases h; simp_all
    | some b =>
      simp only [Option.bind_eq_bind, Option.bind_some]
      cases hl : l.mapM f with
      | none =>
        simp only [Option.bind_none, reduceCtorEq, false_iff]
        intro h
        cases h with
        | cons h1 h2 => have := (ih _).2 h2; rw [hl] at this; cases this
      | some bs =>
        simp only [Option.bind_some]
        constructor
        · intro h; cases h; exact .cons ha ((ih bs).1 hl)
        · intro h
          cases h with
          | cons h1 h2 =>
            have := (ih _).2 h2
            rw [hl] at this; cases this; rw [ha] at h1; cases h1; rfl

theorem mapM_isSome {α β : Type} (f : α → Option β) (l : List α) :
    (l.mapM f).isSome = true ↔ ∀ a ∈ l, (f a).isSome = true := by
  induction l with
  | nil => simp
  | cons a l ih =>
    simp only [List.mapM_cons, List.forall_mem_cons, ← ih]
    cases f a <;> cases l.mapM f <;> simp

theorem forall₂_mem_left {α β : Type} {R : α → β → Prop} {l : List α} {r : List β} (h : List.Forall₂ R l r) :
    ∀ a ∈ l, ∃ b ∈ r, R a b := by
  induction h with
  | nil => simp
  | cons hd _ ih =>
    intro a ha
    rcases List.mem_cons.1 ha with rfl | ha
    · exact ⟨_, by simp, hd⟩
    · obtain ⟨b, hb, hr⟩ := ih a ha; exact ⟨b, by simp [hb], hr⟩

theorem forall₂_mem_right {α β : Type} {R : α → β → Prop} {l : List α} {r : List β} (h : List.Forall₂ R l r) :
    ∀ b ∈ r, ∃ a ∈ l, R a b := by
  induction h with
  | nil => simp
  | cons hd _ ih =>
    intro b hb
    rcases List.mem_cons.1 hb with rfl | hb
    · exact ⟨_, by simp, hd⟩
    · obtain ⟨a, ha, hr⟩ := ih b hb; exact ⟨a, by simp [ha], hr⟩

/-! ### Grouping -/

theorem addGroup_get {κ ν : Type} [DecidableEq κ] (l : List (κ × ν)) (d : Dict κ (List ν)) (k : κ) :
    Dict.get? (l.foldl addGroup d) k =
      if (l.filter fun e => e.1 = k) = [] then Dict.get? d k
      else some ((Dict.get? d k).getD [] ++ (l.filter fun e => e.1 = k).map Prod.snd) := by
  induction l generalizing d with
  | nil => simp
  | cons e l ih =>
    rw [List.foldl_cons, ih, addGroup, Dict.get?_set]
    by_cases he : e.1 = k
    · simp only [he, if_true, List.filter_cons, decide_true, Option.getD_some]
      by_cases hl : (l.filter fun e => decide (e.1 = k)) = []
      · simp [hl]
      · simp [hl]
    · have : (e :: l).filter (fun e => decide (e.1 = k)) = l.filter (fun e => decide (e.1 = k)) := by
        simp [List.filter_cons, he]
      rw [this, if_neg he]

theorem addGroup_wf {κ ν : Type} [DecidableEq κ] (l : List (κ × ν)) (d : Dict κ (List ν)) (hd : Dict.WF d) :
    Dict.WF (l.foldl addGroup d) := by
  induction l generalizing d with
  | nil => exact hd
  | cons e l ih => exact ih _ (Dict.WF_set hd _ _)

/-! ### Specification -/

/-- The tables of the join partners of table `t` in predicate `j`. -/
def partnerTabs (t : Tab) (j : Expr Q) : Option (Finset (Option Tab)) :=
  (j.joinPartnersOf t).map fun cs => cs.image Col.tab

/-- `j` compares a column of table `a` with a column of table `b` (or vice versa). -/
def Compares (j : Expr Q) (a b : Option Tab) : Prop :=
  ∃ ps, j.joinPartners = some ps ∧ ∃ p ∈ ps, (p.1.tab = a ∧ p.2.tab = b) ∨ (p.1.tab = b ∧ p.2.tab = a)

/-- `p` is `e` or a part of the (nested) conjunction `e`. -/
inductive Part (p : Expr Q) : Expr Q → Prop
  | refl : Part p p
  | step {c cs} : c ∈ cs → Part p c → Part p (.compound .and cs)

theorem Part.accepts {p e : Expr Q} (h : Part p e) {I : Expr Q → Option Bool} (ha : Accepts I e) : Accepts I p := by
  induction h with
  | refl => exact ha
  | step hc _ ih => exact ih ((accepts_and I _).1 ha _ hc)

theorem part_createAnd {g : List (Expr Q)} {e p : Expr Q} (h : createAnd g = some e) (hp : p ∈ g) : Part p e := by
  match g, h, hp with
  | [q], h, hp => simp [createAnd] at h hp; subst h; subst hp; exact .refl
  | a :: b :: g, h, hp =>
    simp only [createAnd, Option.some.injEq] at h; subst h; exact .step hp .refl

theorem Part.trans {a b c : Expr Q} (h : Part a b) (h' : Part b c) : Part a c := by
  induction h' with
  | refl => exact h
  | step hc _ ih => exact .step hc ih

theorem createAnd_some {g : List (Expr Q)} : (∃ e, createAnd g = some e) ↔ g ≠ [] := by
  match g with
  | [] => simp [createAnd]
  | [a] => simp [createAnd]
  | a :: b :: g => simp [createAnd]

/-! ### Join partners -/

theorem mem_partnerIn (t : Tab) (p : Col × Col) (hne : p.1.tab ≠ p.2.tab) (c : Col) :
    c ∈ partnerIn t p ↔ (p.1.tab = some t ∧ c = p.2) ∨ (p.2.tab = some t ∧ c = p.1) := by
  unfold partnerIn
  by_cases h1 : p.1.tab = some t
  · have h2 : p.2.tab ≠ some t := fun e => hne (h1.trans e.symm)
    simp [h1, h2]
  · by_cases h2 : p.2.tab = some t <;> simp [h1, h2]

theorem generate_ne {A B : Finset Col} {p : Col × Col} (h : p ∈ generateJoinPairs A B) : p.1.tab ≠ p.2.tab :=
  ((mem_generate A B p.1 p.2).1 h).1

/-- Join partners belong to different tables, and occur in the predicate. -/
theorem joinPartners_spec (e : Expr Q) (ps : Finset (Col × Col)) (h : e.joinPartners = some ps) :
    ∀ p ∈ ps, p.1.tab ≠ p.2.tab ∧ HasCol p.1 e ∧ HasCol p.2 e := by
  have gen : ∀ (a b : Expr Q) (p : Col × Col), p ∈ generateJoinPairs a.baseCols b.baseCols → (Sub a e) → (Sub b e) →
      p.1.tab ≠ p.2.tab ∧ HasCol p.1 e ∧ HasCol p.2 e := by
    intro a b p hp ha hb
    obtain ⟨h1, _, h3⟩ := (mem_generate _ _ p.1 p.2).1 hp
    refine ⟨h1, ?_⟩
    rcases h3 with ⟨h3, h4⟩ | ⟨h3, h4⟩
    · exact ⟨(mem_baseCols_sound a _ h3).trans ha, (mem_baseCols_sound b _ h4).trans hb⟩
    · exact ⟨(mem_baseCols_sound b _ h4).trans hb, (mem_baseCols_sound a _ h3).trans ha⟩
  induction e using Expr.ind generalizing ps with
  | h e ih =>
    intro p hp
    cases e with
    | binary op a b =>
      rw [joinPartners] at h
      split at h
      · cases h
        have sa : Sub a (binary op a b) := .of_mem (by simp [subs])
        have sb : Sub b (binary op a b) := .of_mem (by simp [subs])
        simp only [Finset.mem_union] at hp
        rcases hp with (hp | hp) | hp
        · exact gen a a p hp sa sa
        · exact gen b b p hp sb sb
        · exact gen a b p hp sa sb
      · cases h
    | between a l u =>
      rw [joinPartners] at h
      split at h
      · cases h
        have sa : Sub a (between a l u) := .of_mem (by simp [subs])
        have sl : Sub l (between a l u) := .of_mem (by simp [subs])
        have su : Sub u (between a l u) := .of_mem (by simp [subs])
        simp only [Finset.mem_union] at hp
        rcases hp with (hp | hp) | hp
        · exact gen a a p hp sa sa
        · exact gen a l p hp sa sl
        · exact gen a u p hp sa su
      · cases h
    | inP a vs =>
      rw [joinPartners] at h
      split at h
      · cases h
        have sa : Sub a (inP a vs) := .of_mem (by simp [subs])
        simp only [Finset.mem_union, mem_unionAll, List.mem_map, exists_exists_and_eq_and] at hp
        rcases hp with hp | ⟨v, hv, hp⟩
        · exact gen a a p hp sa sa
        · exact gen a v p hp sa (.of_mem (by simp [subs, hv]))
      · cases h
    | unary a op =>
      rw [joinPartners] at h
      cases h
      exact gen a a p hp (.of_mem (by simp [subs])) (.of_mem (by simp [subs]))
    | compound op cs =>
      rw [joinPartners] at h
      obtain ⟨s, hs, hx⟩ := (((optUnion_eq_some _).1 ps h).2 p).1 hp
      obtain ⟨c, hc, hs⟩ := List.mem_map.1 hs
      obtain ⟨h1, h2, h3⟩ := ih c hc s hs (fun a b p hp ha hb => by
        obtain ⟨h1, _, h3⟩ := (mem_generate _ _ p.1 p.2).1 hp
        refine ⟨h1, ?_⟩
        rcases h3 with ⟨h3, h4⟩ | ⟨h3, h4⟩
        · exact ⟨(mem_baseCols_sound a _ h3).trans ha, (mem_baseCols_sound b _ h4).trans hb⟩
        · exact ⟨(mem_baseCols_sound b _ h4).trans hb, (mem_baseCols_sound a _ h3).trans ha⟩) p hx
      have := Sub.of_mem (e := compound op cs) hc
      exact ⟨h1, h2.trans this, h3.trans this⟩
    | _ => simp [joinPartners] at h; subst h; simp at hp

/-- The tables of the partners of `t` are those compared with `t`. -/
theorem mem_partnerTabs {t : Tab} {j : Expr Q} {K : Finset (Option Tab)} (h : partnerTabs t j = some K) (u : Option Tab) :
    u ∈ K ↔ Compares j (some t) u := by
  simp only [partnerTabs, joinPartnersOf, Option.map_map, Option.map_eq_some_iff, Function.comp] at h
  obtain ⟨ps, hps, rfl⟩ := h
  have hne := joinPartners_spec j ps hps
  simp only [Finset.mem_image, Finset.mem_biUnion, Compares, hps, Option.some.injEq, exists_eq_left']
  constructor
  · rintro ⟨c, ⟨p, hp, hc⟩, rfl⟩
    rcases (mem_partnerIn t p (hne p hp).1 c).1 hc with ⟨h1, rfl⟩ | ⟨h1, rfl⟩
    · exact ⟨p, hp, .inl ⟨h1, rfl⟩⟩
    · exact ⟨p, hp, .inr ⟨rfl, h1⟩⟩
  · rintro ⟨p, hp, ⟨h1, rfl⟩ | ⟨rfl, h1⟩⟩
    · exact ⟨p.2, ⟨p, hp, (mem_partnerIn t p (hne p hp).1 _).2 (.inl ⟨h1, rfl⟩)⟩, rfl⟩
    · exact ⟨p.1, ⟨p, hp, (mem_partnerIn t p (hne p hp).1 _).2 (.inr ⟨h1, rfl⟩)⟩, rfl⟩

theorem partnerTabs_not_mem {t : Tab} {j : Expr Q} {K : Finset (Option Tab)} (h : partnerTabs t j = some K) :
    some t ∉ K := by
  intro hm
  obtain ⟨ps, hps, p, hp, h⟩ := (mem_partnerTabs h _).1 hm
  have := (joinPartners_spec j ps hps p hp).1
  rcases h with ⟨h1, h2⟩ | ⟨h1, h2⟩ <;> exact this (h1.trans h2.symm)

theorem Compares.symm {j : Expr Q} {a b : Option Tab} (h : Compares j a b) : Compares j b a := by
  obtain ⟨ps, h1, p, hp, h⟩ := h
  exact ⟨ps, h1, p, hp, h.symm⟩

theorem compares_and {g : List (Expr Q)} {e : Expr Q} (h : createAnd g = some e) (hs : e.joinPartners.isSome = true)
    (a b : Option Tab) : Compares e a b ↔ ∃ j ∈ g, Compares j a b := by
  match g, h with
  | [q], h => simp [createAnd] at h; subst h; simp
  | x :: y :: g, h =>
    simp only [createAnd, Option.some.injEq] at h; subst h
    obtain ⟨ps, hps⟩ := Option.isSome_iff_exists.1 hs
    have hps' := hps
    rw [joinPartners] at hps'
    obtain ⟨h1, h2⟩ := (optUnion_eq_some _).1 ps hps'
    constructor
    · rintro ⟨ps', h', p, hp, h⟩
      rw [hps] at h'; cases h'
      obtain ⟨s, hs, hx⟩ := (h2 p).1 hp
      obtain ⟨c, hc, hs⟩ := List.mem_map.1 hs
      exact ⟨c, hc, s, hs, p, hx, h⟩
    · rintro ⟨j, hj, s, hs, p, hp, h⟩
      exact ⟨ps, hps, p, (h2 p).2 ⟨s, List.mem_map.2 ⟨j, hj, hs⟩, hp⟩, h⟩

theorem joinPartners_and {g : List (Expr Q)} {e : Expr Q} (h : createAnd g = some e) :
    e.joinPartners.isSome = true ↔ ∀ j ∈ g, j.joinPartners.isSome = true := by
  match g, h with
  | [q], h => simp [createAnd] at h; subst h; simp
  | x :: y :: g, h =>
    simp only [createAnd, Option.some.injEq] at h; subst h
    rw [joinPartners, Option.isSome_iff_exists]
    constructor
    · rintro ⟨r, hr⟩ j hj
      exact ((optUnion_eq_some _).1 r hr).1 _ (List.mem_map.2 ⟨j, hj, rfl⟩)
    · intro h
      exact (optUnion_eq_some _).2 (by simpa using h)

theorem partnerTabs_isSome (t : Tab) (j : Expr Q) : (partnerTabs t j).isSome = j.joinPartners.isSome := by
  simp [partnerTabs, joinPartnersOf]

/-! ### C85: filters_for and joins_for -/

/-- **C85.** `filters_for(t)` is None iff no filter mentions `t`; otherwise it accepts exactly the rows that all filters
that mention `t` accept. -/
theorem C85_filters_for (ops : QOps Q) (qp : QueryPreds Q) (t : Tab) :
    (qp.filtersFor ops t = none ↔ ∀ p ∈ qp.filters, t ∉ p.tables ops) ∧
    ∀ e, qp.filtersFor ops t = some e → ∀ I, Accepts I e ↔ ∀ p ∈ qp.filters, t ∈ p.tables ops → Accepts I p := by
  unfold QueryPreds.filtersFor
  obtain ⟨h1, h2⟩ := C84_create_and (qp.filters.filter (containsTable ops t))
  constructor
  · rw [h1, List.filter_eq_nil_iff]; simp [containsTable]
  · intro e he I
    rw [h2 e he I]
    simp [List.mem_filter, containsTable]

/-- The groups of `joins_for`: a description of its result. -/
theorem joinsFor_groups (ops : QOps Q) (js : List (Expr Q)) (t : Tab) (es : List (Expr Q))
    (h : joinsForAux ops js t = some es) :
    ∃ d : Dict (Finset (Option Tab)) (List (Expr Q)), Dict.WF d ∧
      List.Forall₂ (fun g e => createAnd g = some e) (Dict.values d) es ∧
      (∀ k g, Dict.get? d k = some g →
        g ≠ [] ∧ ∀ j, j ∈ g ↔ j ∈ js ∧ t ∈ j.tables ops ∧ partnerTabs t j = some k) ∧
      (∀ j ∈ js, t ∈ j.tables ops → ∃ k g, partnerTabs t j = some k ∧ Dict.get? d k = some g) := by
  simp only [joinsForAux, Option.bind_eq_some_iff] at h
  obtain ⟨l, hl, hes⟩ := h
  rw [mapM_forall₂] at hes
  rw [partnerKeys, mapM_forall₂] at hl
  have hl' : ∀ k j, (k, j) ∈ l ↔ j ∈ js ∧ t ∈ j.tables ops ∧ partnerTabs t j = some k := by
    intro k j
    constructor
    · intro hm
      obtain ⟨j', hj', he⟩ := forall₂_mem_right hl _ hm
      simp only [Option.map_eq_some_iff, Prod.mk.injEq] at he
      obtain ⟨cs, hcs, rfl, rfl⟩ := he
      have := List.mem_filter.1 hj'
      exact ⟨this.1, by simpa [containsTable] using this.2, by simp [partnerTabs, hcs]⟩
    · rintro ⟨h1, h2, h3⟩
      obtain ⟨b, hb, he⟩ := forall₂_mem_left hl j (List.mem_filter.2 ⟨h1, by simpa [containsTable] using h2⟩)
      simp only [Option.map_eq_some_iff] at he
      obtain ⟨cs, hcs, rfl⟩ := he
      simp only [partnerTabs, hcs, Option.map_some, Option.some.injEq] at h3
      rw [← h3]; exact hb
  refine ⟨l.foldl addGroup [], addGroup_wf l [] Dict.WF_nil, hes, ?_, ?_⟩
  · intro k g hg
    rw [addGroup_get] at hg
    split at hg
    · simp [Dict.get?] at hg
    · rename_i hne
      simp only [Dict.get?, Option.getD_none, List.nil_append, Option.some.injEq] at hg
      subst hg
      refine ⟨by simpa using hne, fun j => ?_⟩
      simp only [List.mem_map, List.mem_filter, decide_eq_true_eq, Prod.exists]
      constructor
      · rintro ⟨k', j', ⟨hm, rfl⟩, rfl⟩; exact (hl' _ _).1 hm
      · intro hj; exact ⟨k, j, ⟨(hl' k j).2 hj, rfl⟩, rfl⟩
  · intro j hj ht
    obtain ⟨b, hb, he⟩ := forall₂_mem_left hl j (List.mem_filter.2 ⟨hj, by simpa [containsTable] using ht⟩)
    simp only [Option.map_eq_some_iff] at he
    obtain ⟨cs, hcs, rfl⟩ := he
    refine ⟨cs.image Col.tab, _, by simp [partnerTabs, hcs], (addGroup_get l [] _).trans (if_neg ?_)⟩
    intro hnil
    rw [List.filter_eq_nil_iff] at hnil
    exact hnil _ hb (by simp)

/-- **C85.** `joins_for(t)` partitions the joins that mention `t` by the tables that they compare `t` with, and returns
the conjunction of each part. -/
theorem C85_joins_for (ops : QOps Q) (qp : QueryPreds Q) (t : Tab) (es : List (Expr Q))
    (h : qp.joinsFor ops t = some es) :
    ∃ gs : List (List (Expr Q)), List.Forall₂ (fun g e => createAnd g = some e) gs es ∧
      (∀ j, j ∈ gs.flatten ↔ j ∈ qp.joins ∧ t ∈ j.tables ops) ∧
      (∀ g ∈ gs, ∀ i ∈ g, ∀ j ∈ g, ∀ u, Compares i (some t) u ↔ Compares j (some t) u) ∧
      gs.Pairwise fun g g' => ∀ i ∈ g, ∀ j ∈ g', ¬ ∀ u, Compares i (some t) u ↔ Compares j (some t) u := by
  obtain ⟨d, hwf, hf, hg, hc⟩ := joinsFor_groups ops qp.joins t es h
  refine ⟨Dict.values d, hf, ?_, ?_, ?_⟩
  · intro j
    rw [List.mem_flatten]
    constructor
    · rintro ⟨g, hgm, hj⟩
      obtain ⟨⟨k, g'⟩, hm, rfl⟩ := List.mem_map.1 hgm
      have := ((hg k g' (Dict.get?_of_mem hwf hm)).2 j).1 hj
      exact ⟨this.1, this.2.1⟩
    · rintro ⟨h1, h2⟩
      obtain ⟨k, g, hk, hgk⟩ := hc j h1 h2
      exact ⟨g, List.mem_map.2 ⟨(k, g), Dict.mem_of_get? hgk, rfl⟩, ((hg k g hgk).2 j).2 ⟨h1, h2, hk⟩⟩
  · intro g hgm i hi j hj u
    obtain ⟨⟨k, g'⟩, hm, rfl⟩ := List.mem_map.1 hgm
    have h1 := ((hg k g' (Dict.get?_of_mem hwf hm)).2 i).1 hi
    have h2 := ((hg k g' (Dict.get?_of_mem hwf hm)).2 j).1 hj
    rw [← mem_partnerTabs h1.2.2, ← mem_partnerTabs h2.2.2]
  · have hp : d.Pairwise fun a b => a.1 ≠ b.1 := by
      have : (d.map Prod.fst).Nodup := hwf
      rw [List.nodup_iff_pairwise_ne, List.pairwise_map] at this
      exact this
    rw [Dict.values, List.pairwise_map]
    refine List.Pairwise.imp_of_mem ?_ hp
    rintro ⟨k, g⟩ ⟨k', g'⟩ hm hm' hne i hi j hj hcon
    apply hne
    have h1 := ((hg k g (Dict.get?_of_mem hwf hm)).2 i).1 hi
    have h2 := ((hg k' g' (Dict.get?_of_mem hwf hm')).2 j).1 hj
    ext u
    rw [mem_partnerTabs h1.2.2, mem_partnerTabs h2.2.2]
    exact hcon u

/-- **C85.** Together, the results of `joins_for(t)` accept exactly the rows accepted by all joins that mention `t`. -/
theorem C85_joins_for_accepts (ops : QOps Q) (qp : QueryPreds Q) (t : Tab) (es : List (Expr Q))
    (h : qp.joinsFor ops t = some es) (I : Expr Q → Option Bool) :
    (∀ e ∈ es, Accepts I e) ↔ ∀ j ∈ qp.joins, t ∈ j.tables ops → Accepts I j := by
  obtain ⟨gs, hf, hm, _, _⟩ := C85_joins_for ops qp t es h
  constructor
  · intro ha j hj ht
    obtain ⟨g, hg, hjg⟩ := List.mem_flatten.1 ((hm j).2 ⟨hj, ht⟩)
    obtain ⟨e, he, hc⟩ := forall₂_mem_left hf g hg
    exact ((C84_create_and g).2 e hc I).1 (ha e he) j hjg
  · intro ha e he
    obtain ⟨g, hg, hc⟩ := forall₂_mem_right hf e he
    refine ((C84_create_and g).2 e hc I).2 fun j hj => ?_
    have := (hm j).1 (List.mem_flatten.2 ⟨g, hg, hj⟩)
    exact ha j this.1 this.2

theorem joinsFor_isSome (ops : QOps Q) (js : List (Expr Q)) (t : Tab) :
    (joinsForAux ops js t).isSome = true ↔ ∀ j ∈ js, t ∈ j.tables ops → j.joinPartners.isSome = true := by
  have hpk : (partnerKeys ops js t).isSome = true ↔ ∀ j ∈ js, t ∈ j.tables ops → j.joinPartners.isSome = true := by
    rw [partnerKeys, mapM_isSome]
    simp only [List.mem_filter, containsTable, decide_eq_true_eq, and_imp, Option.isSome_map, joinPartnersOf]
  rw [← hpk]
  constructor
  · intro h
    obtain ⟨es, hes⟩ := Option.isSome_iff_exists.1 h
    simp only [joinsForAux, Option.bind_eq_some_iff] at hes
    obtain ⟨l, hl, _⟩ := hes
    rw [hl]; rfl
  · intro h
    obtain ⟨l, hl⟩ := Option.isSome_iff_exists.1 h
    rw [joinsForAux, hl, Option.bind_some, mapM_isSome]
    intro g hg
    obtain ⟨⟨k, g'⟩, hm, rfl⟩ := List.mem_map.1 hg
    have hk := Dict.get?_of_mem (addGroup_wf l [] Dict.WF_nil) hm
    rw [addGroup_get] at hk
    split at hk
    · simp [Dict.get?] at hk
    · rename_i hne
      simp only [Dict.get?, Option.getD_none, List.nil_append, Option.some.injEq] at hk
      rw [Option.isSome_iff_exists, createAnd_some]
      show g' ≠ []
      rw [← hk]; simpa using hne

/-! ### The constructor -/

theorem isJoin_isPred {e : Expr Q} (h : e.isJoin = true) : e.isPred = true := by
  cases e <;> simp [isJoin, isPred, isBase, isCompound] at h ⊢

theorem iterExpressions_collectJoins [DecidableEq Q] (r j : Expr Q) (hj : j ∈ r.collectJoins) :
    ∀ c ∈ j.iterExpressions, c ∈ r.iterExpressions := by
  induction r using Expr.ind with
  | h r ih =>
    cases r with
    | compound op cs =>
      cases op with
      | and =>
        simp only [collectJoins, List.mem_dedup, List.mem_flatMap] at hj
        obtain ⟨d, hd, hj⟩ := hj
        intro c hc
        simp only [iterExpressions, List.mem_flatMap]
        exact ⟨d, hd, ih d hd hj c hc⟩
      | not =>
        simp only [collectJoins] at hj
        split at hj
        · simp at hj; subst hj; exact fun c hc => hc
        · simp at hj
      | or =>
        simp only [collectJoins] at hj
        intro c hc
        simp only [iterExpressions, List.mem_flatMap]
        split at hj
        · exact ⟨j, (List.mem_filter.1 hj).1, hc⟩
        · simp only [List.mem_singleton] at hj
          subst hj
          simp only [iterExpressions, List.mem_flatMap] at hc
          obtain ⟨d, hd, hc⟩ := hc
          exact ⟨d, (List.mem_filter.1 hd).1, hc⟩
    | _ =>
      rw [(collect_other rfl).2] at hj
      split at hj
      · simp at hj; subst hj; exact fun c hc => hc
      · simp at hj

theorem collectJoins_isJoin [DecidableEq Q] (r j : Expr Q) (hj : j ∈ r.collectJoins) : j.isJoin = true := by
  induction r using Expr.ind with
  | h r ih =>
    cases r with
    | compound op cs =>
      cases op with
      | and =>
        simp only [collectJoins, List.mem_dedup, List.mem_flatMap] at hj
        obtain ⟨d, hd, hj⟩ := hj
        exact ih d hd hj
      | not =>
        simp only [collectJoins] at hj
        split at hj
        · rename_i h; simp only [List.mem_singleton] at hj; subst hj; rw [isJoin_compound]; exact h
        · simp at hj
      | or =>
        simp only [collectJoins] at hj
        split at hj
        · exact (List.mem_filter.1 hj).2
        · rename_i hl
          simp only [List.mem_singleton] at hj; subst hj
          rw [isJoin_compound, List.any_eq_true]
          obtain ⟨c, hc⟩ : ∃ c, c ∈ cs.filter isJoin := by
            cases h : cs.filter isJoin with
            | nil => simp [h] at hl
            | cons c _ => exact ⟨c, by simp⟩
          exact ⟨c, hc, (List.mem_filter.1 hc).2⟩
    | _ =>
      rw [(collect_other rfl).2] at hj
      split at hj
      · rename_i h; simp at hj; subst hj; exact h
      · simp at hj

/-- A WHERE predicate with a join is a predicate. -/
theorem collectJoins_root [DecidableEq Q] (r j : Expr Q) (hj : j ∈ r.collectJoins) : r.isPred = true := by
  cases r with
  | compound => rfl
  | binary | between | inP | unary => rfl
  | _ => rw [(collect_other rfl).2] at hj; simp [isJoin] at hj

theorem tables_collectJoins [DecidableEq Q] (ops : QOps Q) (r j : Expr Q) (hj : j ∈ r.collectJoins) :
    j.tables ops ⊆ r.tables ops := by
  intro t ht
  rw [tabs_of_pred ops j (isJoin_isPred (collectJoins_isJoin r j hj))] at ht
  obtain ⟨d, hd, ht⟩ := ht
  rw [tabs_of_pred ops r (collectJoins_root r j hj)]
  exact ⟨d, iterExpressions_collectJoins r j hj d hd, ht⟩

theorem initMap_joinsFor (ops : QOps Q) (js : List (Expr Q)) (ts : List Tab) (d d' : Dict (Finset (Option Tab)) (Expr Q))
    (h : initMap ops js d ts = some d') : ∀ t ∈ ts, (joinsForAux ops js t).isSome = true := by
  induction ts generalizing d with
  | nil => simp
  | cons t ts ih =>
    simp only [initMap, Option.bind_eq_some_iff] at h
    obtain ⟨es, hes, d1, hd1, h⟩ := h
    intro t' ht'
    rcases List.mem_cons.1 ht' with rfl | ht'
    · rw [hes]; rfl
    · exact ih d1 h t' ht'

/-- **C85.** `joins_for` never raises on a `QueryPredicates` object that could be constructed. -/
theorem C85_joins_for_total [DecidableEq Q] (ops : QOps Q) (qp : QueryPreds Q) (hv : qp.Valid ops) (t : Tab) :
    ∃ es, qp.joinsFor ops t = some es := by
  rw [QueryPreds.joinsFor, ← Option.isSome_iff_exists, joinsFor_isSome]
  intro j hj ht
  obtain ⟨r, hr, hjr⟩ := (hv.joins j).1 hj
  have htr : t ∈ qp.tabs := (hv.tabs t).2 ⟨r, hr, tables_collectJoins ops r j hjr ht⟩
  have := initMap_joinsFor ops qp.joins qp.tabs [] qp.map hv.map t htr
  rw [joinsFor_isSome] at this
  exact this j hj ht

example : qp1.filtersFor noOps 1 = some (.compound .and [fZ 1, .compound .not [fZ 2]]) ∧ qp1.filtersFor noOps 2 = none ∧
    qp1.joinsFor noOps 2 = some [.compound .and [jXY, .compound .or [jXY, jLt]]] := by
  refine ⟨by decide +kernel, by decide +kernel, by decide +kernel⟩

/-! ### C34: joins_tables -/

/-- Some join predicate of the query that mentions one of the tables compares a column of `a` with one of `b`. -/
def Linked (ops : QOps Q) (qp : QueryPreds Q) (a b : Tab) : Prop :=
  ∃ j ∈ qp.joins, (a ∈ j.tables ops ∨ b ∈ j.tables ops) ∧ Compares j (some a) (some b)

/-- The tables in `ts` are connected by joins between tables in `ts`. -/
def JoinConnected (R : Tab → Tab → Prop) (ts : Finset Tab) : Prop :=
  ∀ a ∈ ts, ∀ b ∈ ts, Relation.ReflTransGen (fun x y => x ∈ ts ∧ y ∈ ts ∧ R x y) a b

theorem tableEdges_spec [DecidableEq Q] (ops : QOps Q) (qp : QueryPreds Q) (hv : qp.Valid ops) (ts : Finset Tab) (t : Tab) :
    ∃ es, qp.tableEdges ops ts t = some es ∧
      ∀ e, e ∈ es ↔ e.1 = t ∧ e.2 ∈ ts ∧ ∃ j ∈ qp.joins, t ∈ j.tables ops ∧ Compares j (some t) (some e.2) := by
  obtain ⟨js, hjs⟩ := C85_joins_for_total ops qp hv t
  obtain ⟨gs, hf, hm, _, _⟩ := C85_joins_for ops qp t js hjs
  have hall := (joinsFor_isSome ops qp.joins t).1 (by rw [← QueryPreds.joinsFor, hjs]; rfl)
  have hpart : ∀ e ∈ js, e.joinPartners.isSome = true := by
    intro e he
    obtain ⟨g, hg, hc⟩ := forall₂_mem_right hf e he
    rw [joinPartners_and hc]
    intro j hj
    have := (hm j).1 (List.mem_flatten.2 ⟨g, hg, hj⟩)
    exact hall j this.1 this.2
  have hcmp : ∀ u, (∃ e ∈ js, Compares e (some t) u) ↔ ∃ j ∈ qp.joins, t ∈ j.tables ops ∧ Compares j (some t) u := by
    intro u
    constructor
    · rintro ⟨e, he, hc⟩
      obtain ⟨g, hg, hca⟩ := forall₂_mem_right hf e he
      obtain ⟨j, hj, hcj⟩ := (compares_and hca (hpart e he) _ _).1 hc
      have := (hm j).1 (List.mem_flatten.2 ⟨g, hg, hj⟩)
      exact ⟨j, this.1, this.2, hcj⟩
    · rintro ⟨j, hj, ht, hc⟩
      obtain ⟨g, hg, hjg⟩ := List.mem_flatten.1 ((hm j).2 ⟨hj, ht⟩)
      obtain ⟨e, he, hca⟩ := forall₂_mem_left hf g hg
      exact ⟨e, he, (compares_and hca (hpart e he) _ _).2 ⟨j, hjg, hc⟩⟩
  let f : Expr Q → Option (Finset (Tab × Tab)) := fun j => (j.joinPartnersOf t).map fun cs =>
      ((cs.biUnion fun c => tabSet c.tab) ∩ ts).image fun u => (t, u)
  obtain ⟨r, hr⟩ := (optUnion_eq_some (js.map f)).2 (by
    intro o ho
    obtain ⟨e, he, rfl⟩ := List.mem_map.1 ho
    simpa [f, joinPartnersOf] using hpart e he)
  refine ⟨r, by rw [QueryPreds.tableEdges, hjs, Option.bind_some]; exact hr, fun e => ?_⟩
  rw [((optUnion_eq_some _).1 r hr).2, ← hcmp]
  constructor
  · rintro ⟨s, hs, he⟩
    obtain ⟨j, hj, hs⟩ := List.mem_map.1 hs
    simp only [f, Option.map_eq_some_iff] at hs
    obtain ⟨cs, hcs, rfl⟩ := hs
    simp only [Finset.mem_image, Finset.mem_inter, Finset.mem_biUnion] at he
    obtain ⟨u, ⟨⟨c, hc, hu⟩, hts⟩, rfl⟩ := he
    refine ⟨rfl, hts, j, hj, ?_⟩
    rw [← mem_partnerTabs (K := cs.image Col.tab) (by simp [partnerTabs, hcs])]
    refine Finset.mem_image.2 ⟨c, hc, ?_⟩
    cases h : c.tab <;> simp [h, tabSet] at hu
    rw [hu]
  · rintro ⟨h1, h2, j, hj, hc⟩
    obtain ⟨cs, hcs⟩ := Option.isSome_iff_exists.1 (show (j.joinPartnersOf t).isSome = true by
      simpa [joinPartnersOf] using hpart j hj)
    rw [← mem_partnerTabs (K := cs.image Col.tab) (by simp [partnerTabs, hcs])] at hc
    obtain ⟨c, hc, hct⟩ := Finset.mem_image.1 hc
    refine ⟨_, List.mem_map.2 ⟨j, hj, by simp only [f, hcs]; rfl⟩, ?_⟩
    simp only [Finset.mem_image, Finset.mem_inter, Finset.mem_biUnion]
    exact ⟨e.2, ⟨⟨c, hc, by simp [hct, tabSet]⟩, h2⟩, by rw [← h1]⟩

/-- **C34.** For every set of tables, `joins_tables` raises only for the empty set, is false if there is no WHERE
clause, tests membership for a single table, and for two or more tables holds iff they are connected by joins. -/
theorem C34_joins_tables [DecidableEq Q] (ops : QOps Q) (qp : QueryPreds Q) (hv : qp.Valid ops) (ts : Finset Tab) :
    (qp.root = none → qp.joinsTables ops ts = some false) ∧
    ∀ r, qp.root = some r →
      (ts = ∅ → qp.joinsTables ops ts = none) ∧
      (∀ t, ts = {t} → qp.joinsTables ops ts = some (decide (t ∈ r.tables ops))) ∧
      (2 ≤ ts.card → ∃ b, qp.joinsTables ops ts = some b ∧ (b = true ↔ JoinConnected (Linked ops qp) ts)) := by
  refine ⟨fun h => by simp [QueryPreds.joinsTables, h], fun r hr => ⟨?_, ?_, ?_⟩⟩
  · intro h; simp [QueryPreds.joinsTables, hr, h]
  · rintro t rfl
    simp [QueryPreds.joinsTables, hr]
  · intro hcard
    have hne : ts ≠ ∅ := by rintro rfl; simp at hcard
    have h1 : ts.card ≠ 1 := by omega
    simp only [QueryPreds.joinsTables, hr, hne, h1, if_false, QueryPreds.joinTablesCheck]
    rw [if_pos (by
      intro t _
      obtain ⟨es, he, _⟩ := tableEdges_spec ops qp hv ts t
      rw [he]; rfl)]
    let g : Nx.Graph Tab := ⟨ts, ts.biUnion fun t => (qp.tableEdges ops ts t).getD ∅⟩
    have hedge : ∀ a b, (a, b) ∈ g.edges ↔ a ∈ ts ∧ b ∈ ts ∧ ∃ j ∈ qp.joins, a ∈ j.tables ops ∧ Compares j (some a) (some b) := by
      intro a b
      simp only [g, Finset.mem_biUnion]
      constructor
      · rintro ⟨t, ht, he⟩
        obtain ⟨es, hes, hspec⟩ := tableEdges_spec ops qp hv ts t
        rw [hes] at he
        obtain ⟨h1, h2, h3⟩ := (hspec (a, b)).1 he
        simp only at h1; subst h1
        exact ⟨ht, h2, h3⟩
      · rintro ⟨ha, hb, h3⟩
        obtain ⟨es, hes, hspec⟩ := tableEdges_spec ops qp hv ts a
        exact ⟨a, ha, by rw [hes]; exact (hspec (a, b)).2 ⟨rfl, hb, h3⟩⟩
    have hwf : g.WF := by
      rintro ⟨a, b⟩ he
      have := (hedge a b).1 he
      exact ⟨this.1, this.2.1⟩
    have hadj : ∀ a b, g.Adj a b ↔ a ∈ ts ∧ b ∈ ts ∧ Linked ops qp a b := by
      intro a b
      simp only [Nx.Graph.Adj, hedge, Linked]
      constructor
      · rintro (⟨h1, h2, j, hj, ht, hc⟩ | ⟨h1, h2, j, hj, ht, hc⟩)
        · exact ⟨h1, h2, j, hj, .inl ht, hc⟩
        · exact ⟨h2, h1, j, hj, .inr ht, hc.symm⟩
      · rintro ⟨h1, h2, j, hj, ht | ht, hc⟩
        · exact .inl ⟨h1, h2, j, hj, ht, hc⟩
        · exact .inr ⟨h2, h1, j, hj, ht, hc.symm⟩
    refine ⟨(decide (∀ a ∈ g.nodes, g.component a = g.nodes)), ?_, ?_⟩
    · show g.isConnected? = _
      rw [Nx.Graph.isConnected?, if_neg (show ¬ g.nodes = ∅ from hne)]
    · have := Nx.isConnected_iff hwf
      rw [Nx.Graph.isConnected?, if_neg (show ¬ g.nodes = ∅ from hne)] at this
      simp only [Option.some.injEq] at this
      rw [this]
      have heq : g.Adj = fun x y => x ∈ ts ∧ y ∈ ts ∧ Linked ops qp x y := by
        funext a b; exact propext (hadj a b)
      constructor
      · rintro ⟨_, h⟩ a ha b hb
        have := h a ha b hb
        rwa [heq] at this
      · intro h
        refine ⟨hne, fun a ha b hb => ?_⟩
        rw [heq]; exact h a ha b hb

/-- Columns that occur in a regular predicate are reported by `tables()`, so `Linked` just says that a join compares
the two tables. -/
theorem C34_linked_regular (ops : QOps Q) (qp : QueryPreds Q) (hr : ∀ j ∈ qp.joins, Regular j ∧ Typed j) (a b : Tab) :
    Linked ops qp a b ↔ ∃ j ∈ qp.joins, Compares j (some a) (some b) := by
  constructor
  · rintro ⟨j, hj, _, hc⟩; exact ⟨j, hj, hc⟩
  · rintro ⟨j, hj, hc⟩
    refine ⟨j, hj, .inl ?_, hc⟩
    obtain ⟨ps, hps, p, hp, h⟩ := hc
    obtain ⟨_, h1, h2⟩ := joinPartners_spec j ps hps p hp
    rw [C82_tables_partial ops j (hr j hj).1 (hr j hj).2]
    rcases h with ⟨h, _⟩ | ⟨_, h⟩
    · exact ⟨_, h1, .inr (.inl ⟨_, rfl, h⟩)⟩
    · exact ⟨_, h2, .inr (.inl ⟨_, rfl, h⟩)⟩

example : qp1.Valid noOps ∧ (∀ j ∈ qp1.joins, Regular j ∧ Typed j) ∧ qp1.joinsTables noOps {1, 2} = some true ∧
    qp1.joinsTables noOps {1, 3} = some false := by
  refine ⟨qp1_valid, ?_, by decide +kernel, by decide +kernel⟩
  intro j hj
  simp only [qp1, List.mem_cons, List.not_mem_nil, or_false] at hj
  rcases hj with rfl | rfl <;>
    exact ⟨(everywhere_iff _ _).1 (by decide +kernel), (everywhere_iff _ _).1 (by decide +kernel)⟩

/-! ### C35: joins_between -/

/-- The key under which a predicate found for `t` is stored. -/
def KeyOf (t : Tab) (e : Expr Q) (k : Finset (Option Tab)) : Prop :=
  ∃ K, partnerTabs t e = some K ∧ k = insert (some t) K

theorem addJoins_spec (t : Tab) (d d' : Dict (Finset (Option Tab)) (Expr Q)) (js : List (Expr Q))
    (h : addJoins t d js = some d') (k : Finset (Option Tab)) :
    (∀ e, Dict.get? d k = some e → Dict.get? d' k = some e) ∧
    (∀ e, Dict.get? d' k = some e → Dict.get? d k = some e ∨ (e ∈ js ∧ KeyOf t e k)) ∧
    (∀ e ∈ js, KeyOf t e k → (Dict.get? d' k).isSome = true) := by
  induction js generalizing d with
  | nil =>
    simp only [addJoins, Option.some.injEq] at h; subst h
    exact ⟨fun e he => he, fun e he => .inl he, by simp⟩
  | cons j js ih =>
    simp only [addJoins, Option.bind_eq_some_iff] at h
    obtain ⟨cs, hcs, h⟩ := h
    have hkey : ∀ k', KeyOf t j k' ↔ k' = insert (some t) (cs.image Col.tab) := by
      intro k'; simp [KeyOf, partnerTabs, hcs]
    obtain ⟨h1, h2, h3⟩ := ih _ h
    by_cases hhas : d.has (insert (some t) (cs.image Col.tab)) = true
    · rw [if_pos hhas] at h1 h2
      refine ⟨h1, ?_, ?_⟩
      · intro e he
        rcases h2 e he with h | ⟨h, h'⟩
        · exact .inl h
        · exact .inr ⟨by simp [h], h'⟩
      · intro e he hk
        rcases List.mem_cons.1 he with rfl | he
        · rw [hkey] at hk; subst hk
          obtain ⟨v, hv⟩ := Option.isSome_iff_exists.1 (show (Dict.get? d _).isSome = true from hhas)
          rw [h1 v hv]; rfl
        · exact h3 e he hk
    · rw [if_neg hhas] at h1 h2
      refine ⟨?_, ?_, ?_⟩
      · intro e he
        refine h1 e ?_
        rw [Dict.get?_set]
        split
        · rename_i hk
          rw [hk] at hhas
          simp [Dict.has, he] at hhas
        · exact he
      · intro e he
        rcases h2 e he with h | ⟨h, h'⟩
        · rw [Dict.get?_set] at h
          split at h
          · rename_i hk
            cases h
            exact .inr ⟨by simp, (hkey k).2 hk.symm⟩
          · exact .inl h
        · exact .inr ⟨by simp [h], h'⟩
      · intro e he hk
        rcases List.mem_cons.1 he with rfl | he
        · rw [hkey] at hk
          rw [h1 e (by rw [Dict.get?_set, if_pos hk.symm])]; rfl
        · exact h3 e he hk

theorem initMap_spec (ops : QOps Q) (joins : List (Expr Q)) (ts : List Tab) (d d' : Dict (Finset (Option Tab)) (Expr Q))
    (h : initMap ops joins d ts = some d') (k : Finset (Option Tab)) :
    (∀ e, Dict.get? d k = some e → Dict.get? d' k = some e) ∧
    (∀ e, Dict.get? d' k = some e → Dict.get? d k = some e ∨
      ∃ t ∈ ts, ∃ js, joinsForAux ops joins t = some js ∧ e ∈ js ∧ KeyOf t e k) ∧
    (∀ t ∈ ts, ∀ js, joinsForAux ops joins t = some js → ∀ e ∈ js, KeyOf t e k → (Dict.get? d' k).isSome = true) := by
  induction ts generalizing d with
  | nil =>
    simp only [initMap, Option.some.injEq] at h; subst h
    exact ⟨fun e he => he, fun e he => .inl he, by simp⟩
  | cons t ts ih =>
    simp only [initMap, Option.bind_eq_some_iff] at h
    obtain ⟨js, hjs, d1, hd1, h⟩ := h
    obtain ⟨a1, a2, a3⟩ := addJoins_spec t d d1 js hd1 k
    obtain ⟨b1, b2, b3⟩ := ih d1 h
    refine ⟨fun e he => b1 e (a1 e he), ?_, ?_⟩
    · intro e he
      rcases b2 e he with h | ⟨t', ht', h⟩
      · rcases a2 e h with h | ⟨h, hk⟩
        · exact .inl h
        · exact .inr ⟨t, by simp, js, hjs, h, hk⟩
      · exact .inr ⟨t', by simp [ht'], h⟩
    · intro t' ht' js' hjs' e he hk
      rcases List.mem_cons.1 ht' with rfl | ht'
      · rw [hjs] at hjs'; cases hjs'
        obtain ⟨v, hv⟩ := Option.isSome_iff_exists.1 (a3 e he hk)
        rw [b1 v hv]; rfl
      · exact b3 t' ht' js' hjs' e he hk

/-- A predicate only compares `a` with `b`: whatever it compares with either of them is the other one. -/
def OnlyBetween (j : Expr Q) (a b : Tab) : Prop :=
  Compares j (some a) (some b) ∧ (∀ u, Compares j (some a) u → u = some b) ∧ (∀ u, Compares j (some b) u → u = some a)

theorem partnerTabs_unique {t u : Tab} {j : Expr Q} (hs : j.joinPartners.isSome = true)
    (h1 : Compares j (some t) (some u)) (h2 : ∀ v, Compares j (some t) v → v = some u) :
    partnerTabs t j = some {some u} := by
  obtain ⟨K, hK⟩ := Option.isSome_iff_exists.1 ((partnerTabs_isSome t j).trans hs)
  rw [hK]
  congr 1
  ext v
  rw [mem_partnerTabs hK, Finset.mem_singleton]
  exact ⟨h2 v, fun e => e ▸ h1⟩

theorem partnerTabs_and {g : List (Expr Q)} {e : Expr Q} {t : Tab} {K : Finset (Option Tab)} (hc : createAnd g = some e)
    (hg : ∀ j ∈ g, partnerTabs t j = some K) (hne : g ≠ []) : partnerTabs t e = some K := by
  have hs : e.joinPartners.isSome = true := by
    rw [joinPartners_and hc]
    intro j hj
    rw [← partnerTabs_isSome t, hg j hj]; rfl
  obtain ⟨K', hK'⟩ := Option.isSome_iff_exists.1 ((partnerTabs_isSome t e).trans hs)
  rw [hK']
  congr 1
  ext u
  rw [mem_partnerTabs hK', compares_and hc hs]
  constructor
  · rintro ⟨j, hj, h⟩; rw [mem_partnerTabs (hg j hj)]; exact h
  · intro hu
    obtain ⟨j, hj⟩ := List.exists_mem_of_ne_nil g hne
    exact ⟨j, hj, (mem_partnerTabs (hg j hj) u).1 hu⟩

/-- A map entry for two tables is the conjunction of the joins of one of them that compare it with the other. -/
theorem map_entry [DecidableEq Q] (ops : QOps Q) (qp : QueryPreds Q) (hv : qp.Valid ops) (a b : Tab) (hab : a ≠ b) (e : Expr Q)
    (h : Dict.get? qp.map {some a, some b} = some e) :
    ∃ t u, ((t = a ∧ u = b) ∨ (t = b ∧ u = a)) ∧ ∃ g, createAnd g = some e ∧
      ∀ j, j ∈ g ↔ j ∈ qp.joins ∧ t ∈ j.tables ops ∧ partnerTabs t j = some {some u} := by
  rcases (initMap_spec ops qp.joins qp.tabs [] qp.map hv.map _).2.1 e h with h | ⟨t, ht, js, hjs, he, K, hK, hkey⟩
  · simp [Dict.get?] at h
  · have htab : t = a ∨ t = b := by
      have : some t ∈ ({some a, some b} : Finset (Option Tab)) := by rw [hkey]; simp
      simpa using this
    have hnt := partnerTabs_not_mem hK
    obtain ⟨u, hu, hKu⟩ : ∃ u, ((t = a ∧ u = b) ∨ (t = b ∧ u = a)) ∧ K = {some u} := by
      rcases htab with rfl | rfl
      · refine ⟨b, .inl ⟨rfl, rfl⟩, ?_⟩
        ext x
        have hx := Finset.ext_iff.1 hkey x
        simp only [Finset.mem_insert, Finset.mem_singleton] at hx ⊢
        constructor
        · intro hxK
          have := hx.2 (.inr hxK)
          rcases this with rfl | h
          · exact absurd hxK hnt
          · exact h
        · rintro rfl
          rcases hx.1 (.inr rfl) with h | h
          · simp at h; exact absurd h.symm hab
          · exact h
      · refine ⟨a, .inr ⟨rfl, rfl⟩, ?_⟩
        ext x
        have hx := Finset.ext_iff.1 hkey x
        simp only [Finset.mem_insert, Finset.mem_singleton] at hx ⊢
        constructor
        · intro hxK
          have := hx.2 (.inr hxK)
          rcases this with h | rfl
          · exact h
          · exact absurd hxK hnt
        · rintro rfl
          rcases hx.1 (.inl rfl) with h | h
          · simp at h; exact absurd h hab
          · exact h
    refine ⟨t, u, hu, ?_⟩
    obtain ⟨d, hwf, hf, hg, _⟩ := joinsFor_groups ops qp.joins t js hjs
    obtain ⟨g, hgm, hc⟩ := forall₂_mem_right hf e he
    obtain ⟨⟨k, g'⟩, hm, rfl⟩ := List.mem_map.1 hgm
    obtain ⟨hne, hmem⟩ := hg k g' (Dict.get?_of_mem hwf hm)
    have hk : k = K := by
      have := partnerTabs_and (t := t) (K := k) hc (fun j hj => ((hmem j).1 hj).2.2) hne
      rw [hK] at this; cases this; rfl
    refine ⟨g', hc, fun j => ?_⟩
    rw [hmem j, hk, hKu]

/-- The map contains an entry for two tables if some join compares them and nothing else. -/
theorem map_exists [DecidableEq Q] (ops : QOps Q) (qp : QueryPreds Q) (hv : qp.Valid ops) (a b : Tab) (j : Expr Q)
    (hj : j ∈ qp.joins) (ha : a ∈ j.tables ops) (hp : partnerTabs a j = some {some b}) :
    (Dict.get? qp.map {some a, some b}).isSome = true := by
  obtain ⟨r, hr, hjr⟩ := (hv.joins j).1 hj
  have hta : a ∈ qp.tabs := (hv.tabs a).2 ⟨r, hr, tables_collectJoins ops r j hjr ha⟩
  obtain ⟨js, hjs⟩ := C85_joins_for_total ops qp hv a
  obtain ⟨d, hwf, hf, hg, hc⟩ := joinsFor_groups ops qp.joins a js hjs
  obtain ⟨k, g, hk, hgk⟩ := hc j hj ha
  rw [hp] at hk; cases hk
  obtain ⟨e, he, hca⟩ := forall₂_mem_left hf g (List.mem_map.2 ⟨_, Dict.mem_of_get? hgk, rfl⟩)
  obtain ⟨hne, hmem⟩ := hg _ g hgk
  refine (initMap_spec ops qp.joins qp.tabs [] qp.map hv.map _).2.2 a hta js hjs e he ⟨{some b}, ?_, rfl⟩
  exact partnerTabs_and hca (fun i hi => ((hmem i).1 hi).2.2) hne

theorem mem_matching (qp : QueryPreds Q) (as bs : List Tab) (e : Expr Q) :
    e ∈ qp.matchingJoins as bs ↔ ∃ a ∈ as, ∃ b ∈ bs, Dict.get? qp.map {some a, some b} = some e := by
  simp only [QueryPreds.matchingJoins, List.mem_flatMap, Option.mem_toList]

/-- **C35.** `joins_between(A, B)` contains every join of the query that compares a table of `A` with a table of `B` and
does not compare these tables with anything else. -/
theorem C35_joins_between_complete [DecidableEq Q] (ops : QOps Q) (qp : QueryPreds Q) (hv : qp.Valid ops) (as bs : List Tab)
    (a b : Tab) (ha : a ∈ as) (hb : b ∈ bs) (j : Expr Q) (hj : j ∈ qp.joins) (hta : a ∈ j.tables ops)
    (htb : b ∈ j.tables ops) (ho : OnlyBetween j a b) :
    ∃ r, qp.joinsBetween as bs = some r ∧ Part j r := by
  obtain ⟨hcab, ho1, ho2⟩ := ho
  have hs : j.joinPartners.isSome = true := by obtain ⟨ps, h, _⟩ := hcab; rw [h]; rfl
  have pa := partnerTabs_unique hs hcab ho1
  have pb := partnerTabs_unique hs hcab.symm ho2
  have hab : a ≠ b := by
    rintro rfl
    exact partnerTabs_not_mem pa (by simp)
  obtain ⟨e, he⟩ := Option.isSome_iff_exists.1 (map_exists ops qp hv a b j hj hta pa)
  obtain ⟨t, u, htu, g, hc, hmem⟩ := map_entry ops qp hv a b hab e he
  have hjg : j ∈ g := by
    rw [hmem]
    rcases htu with ⟨rfl, rfl⟩ | ⟨rfl, rfl⟩
    · exact ⟨hj, hta, pa⟩
    · exact ⟨hj, htb, pb⟩
  have hem : e ∈ (qp.matchingJoins as bs).dedup := by
    rw [List.mem_dedup, mem_matching]; exact ⟨a, ha, b, hb, he⟩
  obtain ⟨r, hr⟩ := createAnd_some.2 (List.ne_nil_of_mem hem)
  exact ⟨r, hr, (part_createAnd hc hjg).trans (part_createAnd hr hem)⟩

/-- **C35.** For disjoint `A` and `B`, `joins_between(A, B)` is the conjunction of joins of the query that each compare
a table of `A` with a table of `B`. -/
theorem C35_joins_between_sound [DecidableEq Q] (ops : QOps Q) (qp : QueryPreds Q) (hv : qp.Valid ops) (as bs : List Tab)
    (hd : ∀ a ∈ as, a ∉ bs) (r : Expr Q) (h : qp.joinsBetween as bs = some r) :
    ∃ gs : List (Expr Q), (∀ I, Accepts I r ↔ ∀ j ∈ gs, Accepts I j) ∧
      ∀ j ∈ gs, j ∈ qp.joins ∧ Part j r ∧
        ∃ a ∈ as, ∃ b ∈ bs, (a ∈ j.tables ops ∨ b ∈ j.tables ops) ∧ Compares j (some a) (some b) := by
  have key : ∀ e ∈ qp.matchingJoins as bs, ∃ g : List (Expr Q), createAnd g = some e ∧
      ∀ j ∈ g, j ∈ qp.joins ∧
        ∃ a ∈ as, ∃ b ∈ bs, (a ∈ j.tables ops ∨ b ∈ j.tables ops) ∧ Compares j (some a) (some b) := by
    intro e he
    obtain ⟨a, ha, b, hb, he⟩ := (mem_matching qp as bs e).1 he
    have hab : a ≠ b := by rintro rfl; exact hd a ha hb
    obtain ⟨t, u, htu, g, hc, hmem⟩ := map_entry ops qp hv a b hab e he
    refine ⟨g, hc, fun j hj => ?_⟩
    obtain ⟨h1, h2, h3⟩ := (hmem j).1 hj
    have := (mem_partnerTabs h3 (some u)).1 (by simp)
    refine ⟨h1, a, ha, b, hb, ?_⟩
    rcases htu with ⟨rfl, rfl⟩ | ⟨rfl, rfl⟩
    · exact ⟨.inl h2, this⟩
    · exact ⟨.inr h2, this.symm⟩
  choose! g hg1 hg2 using key
  refine ⟨(qp.matchingJoins as bs).flatMap g, fun I => ?_, fun j hj => ?_⟩
  · rw [(C84_create_and _).2 r h I]
    simp only [List.mem_dedup, List.mem_flatMap]
    constructor
    · rintro ha j ⟨e, he, hj⟩
      exact ((C84_create_and _).2 e (hg1 e he) I).1 (ha e he) j hj
    · intro ha e he
      exact ((C84_create_and _).2 e (hg1 e he) I).2 fun j hj => ha j ⟨e, he, hj⟩
  · obtain ⟨e, he, hj⟩ := List.mem_flatMap.1 hj
    obtain ⟨h1, h2⟩ := hg2 e he j hj
    exact ⟨h1, (part_createAnd (hg1 e he) hj).trans (part_createAnd h (List.mem_dedup.2 he)), h2⟩

example : qp1.joinsBetween [1] [2, 3] = some (.compound .and [jXY, .compound .or [jXY, jLt]]) ∧
    jXY ∈ qp1.joins ∧ OnlyBetween jXY 1 2 := by
  refine ⟨by decide +kernel, by decide +kernel, ?_⟩
  have hp : jXY.joinPartners = some {(cx, cy)} := by decide +kernel
  refine ⟨⟨_, hp, _, Finset.mem_singleton_self _, .inl ⟨rfl, rfl⟩⟩, ?_, ?_⟩
  · rintro u ⟨ps, h, p, hm, hc⟩
    rw [hp] at h; cases h
    simp only [Finset.mem_singleton] at hm; subst hm
    rcases hc with ⟨_, h⟩ | ⟨_, h⟩
    · exact h.symm
    · simp [cy] at h
  · rintro u ⟨ps, h, p, hm, hc⟩
    rw [hp] at h; cases h
    simp only [Finset.mem_singleton] at hm; subst hm
    rcases hc with ⟨h, _⟩ | ⟨h, _⟩
    · simp [cx] at h
    · exact h.symm

/-! ### C88: joins_between and joins that involve further tables -/

/-- `t1.x = t2.y + t3.z` -/
def j3 : Expr Unit := .binary .eq (.col cx) (.math .add (.col cy) [.col ⟨some 3, 40⟩])

/-- **C88 is violated.** For the query predicate `t1.x = t2.y + t3.z`, `joins_between(t1, t2)` is None, although the
predicate joins `t1` and `t2` (the documentation announces that predicates with further tables are included). The
`legacy` strategy does return it. -/
theorem C88_joins_between_violated :
    ∃ qp : QueryPreds Unit, qp.Valid noOps ∧ qp.root = some j3 ∧ j3 ∈ qp.joins ∧ Compares j3 (some 1) (some 2) ∧
      qp.joinsBetween [1] [2] = none ∧ qp.legacyJoinsBetween noOps 1 2 = some (some j3) := by
  refine ⟨⟨some j3, [], [j3], [1, 2, 3], [({some 1, some 2, some 3}, j3)]⟩, ?_, rfl, by simp, ?_, by decide +kernel,
    by decide +kernel⟩
  · have h1 : j3.collectFilters = [] := by decide +kernel
    have h2 : j3.collectJoins = [j3] := by decide +kernel
    have h3 : j3.tables noOps = {1, 2, 3} := by decide +kernel
    exact ⟨by intro p; simp [h1], by intro p; simp [h2], by simp, by simp, by intro t; simp [h3], by decide +kernel⟩
  · have hp : j3.joinPartners = some {(cx, cy), (cx, ⟨some 3, 40⟩), (cy, ⟨some 3, 40⟩)} := by decide +kernel
    exact ⟨_, hp, (cx, cy), by simp, .inl ⟨rfl, rfl⟩⟩

theorem joinsTable_iff (t : Tab) (j : Expr Q) (hj : j.isJoin = true) (hs : j.joinPartners.isSome = true) :
    ∃ b, joinsTable t j = some b ∧ (b = true ↔ ∃ u, Compares j (some t) u) := by
  obtain ⟨ps, hps⟩ := Option.isSome_iff_exists.1 hs
  refine ⟨_, by rw [joinsTable, if_pos hj, hps, Option.map_some], ?_⟩
  rw [decide_eq_true_eq]
  constructor
  · rintro ⟨p, hp, h | h⟩
    · exact ⟨_, ps, hps, p, hp, .inl ⟨h, rfl⟩⟩
    · exact ⟨_, ps, hps, p, hp, .inr ⟨rfl, h⟩⟩
  · rintro ⟨u, ps', h', p, hp, h⟩
    rw [hps] at h'; cases h'
    rcases h with ⟨h, _⟩ | ⟨_, h⟩
    · exact ⟨p, hp, .inl h⟩
    · exact ⟨p, hp, .inr h⟩

theorem isJoin_createAnd {g : List (Expr Q)} {e : Expr Q} (hc : createAnd g = some e) (hg : ∀ j ∈ g, j.isJoin = true) :
    e.isJoin = true := by
  match g, hc with
  | [q], hc => simp [createAnd] at hc; subst hc; exact hg q (by simp)
  | a :: b :: g, hc =>
    simp only [createAnd, Option.some.injEq] at hc; subst hc
    rw [isJoin_compound, List.any_eq_true]
    exact ⟨a, by simp, hg a (by simp)⟩

/-- **C88 (partial).** If every join of the query that mentions `a` or `b` compares exactly two tables, then the default
(`map`) and the `legacy` strategy of `joins_between(a, b)` return predicates that accept the same rows, namely those
accepted by all joins between `a` and `b`. Missing: joins between three or more tables, see
`C88_joins_between_violated`. -/
theorem C88_joins_between_partial [DecidableEq Q] (ops : QOps Q) (qp : QueryPreds Q) (hv : qp.Valid ops) (a b : Tab)
    (hab : a ≠ b)
    (h2 : ∀ j ∈ qp.joins, ∀ t ∈ j.tables ops, t = a ∨ t = b →
      ∃ u, OnlyBetween j t u ∧ u ∈ j.tables ops ∧ ∀ x y, Compares j x y → x = some t ∨ x = some u) :
    ∃ l, qp.legacyJoinsBetween ops a b = some l ∧
      (∀ I, (∀ e, l = some e → Accepts I e) ↔
        ∀ j ∈ qp.joins, a ∈ j.tables ops → Compares j (some a) (some b) → Accepts I j) ∧
      (∀ I, (∀ e, qp.joinsBetween [a] [b] = some e → Accepts I e) ↔
        ∀ j ∈ qp.joins, a ∈ j.tables ops → Compares j (some a) (some b) → Accepts I j) := by
  obtain ⟨js, hjs⟩ := C85_joins_for_total ops qp hv a
  obtain ⟨d, hwf, hf, hg, hcov⟩ := joinsFor_groups ops qp.joins a js hjs
  have hallS := (joinsFor_isSome ops qp.joins a).1 (by rw [← QueryPreds.joinsFor, hjs]; rfl)
  have entry : ∀ e ∈ js, ∃ k g, createAnd g = some e ∧ g ≠ [] ∧
      (∀ j, j ∈ g ↔ j ∈ qp.joins ∧ a ∈ j.tables ops ∧ partnerTabs a j = some k) := by
    intro e he
    obtain ⟨g, hgm, hc⟩ := forall₂_mem_right hf e he
    obtain ⟨⟨k, g'⟩, hm, rfl⟩ := List.mem_map.1 hgm
    obtain ⟨hne, hmem⟩ := hg k g' (Dict.get?_of_mem hwf hm)
    exact ⟨k, g', hc, hne, hmem⟩
  have hjt : ∀ e ∈ js, ∃ bb, joinsTable b e = some bb ∧ (bb = true ↔ Compares e (some a) (some b)) := by
    intro e he
    obtain ⟨k, g, hc, hne, hmem⟩ := entry e he
    have hS : e.joinPartners.isSome = true := by
      rw [joinPartners_and hc]; intro j hj
      have := (hmem j).1 hj; exact hallS j this.1 this.2.1
    have hJ : e.isJoin = true := isJoin_createAnd hc fun j hj => (C32_exclusive ops qp hv).2 j ((hmem j).1 hj).1
    obtain ⟨bb, h1, h3⟩ := joinsTable_iff b e hJ hS
    refine ⟨bb, h1, h3.trans ?_⟩
    constructor
    · rintro ⟨u, hu⟩
      obtain ⟨j, hj, hcj⟩ := (compares_and hc hS _ _).1 hu
      obtain ⟨hjq, hta, hpk⟩ := (hmem j).1 hj
      obtain ⟨u', ⟨hc', ho1, ho2⟩, hut, hex⟩ := h2 j hjq a hta (.inl rfl)
      have : some b = some u' := by
        rcases hex (some b) u hcj with h | h
        · simp at h; exact absurd h.symm hab
        · exact h
      cases this
      exact (compares_and hc hS _ _).2 ⟨j, hj, hc'⟩
    · intro h; exact ⟨some a, h.symm⟩
  have hmap : ∃ l, (js.mapM fun j => (joinsTable b j).map fun r => (r, j)) = some l := by
    rw [← Option.isSome_iff_exists, mapM_isSome]
    intro e he
    obtain ⟨bb, h1, _⟩ := hjt e he
    simp [h1]
  obtain ⟨l, hl⟩ := hmap
  have hl2 := (mapM_forall₂ _ _ _).1 hl
  have hsel : ∀ e, e ∈ ((l.filter fun p => p.1).map fun p => p.2).dedup ↔ e ∈ js ∧ Compares e (some a) (some b) := by
    intro e
    simp only [List.mem_dedup, List.mem_map, List.mem_filter, Prod.exists]
    constructor
    · rintro ⟨bb, e', ⟨hm, hb⟩, rfl⟩
      obtain ⟨e'', he'', hq⟩ := forall₂_mem_right hl2 _ hm
      obtain ⟨bb', h1, h3⟩ := hjt e'' he''
      simp only [h1, Option.map_some, Option.some.injEq, Prod.mk.injEq] at hq
      obtain ⟨rfl, rfl⟩ := hq
      exact ⟨he'', h3.1 hb⟩
    · rintro ⟨he, hc⟩
      obtain ⟨p, hm, hq⟩ := forall₂_mem_left hl2 e he
      obtain ⟨bb', h1, h3⟩ := hjt e he
      simp only [h1, Option.map_some, Option.some.injEq] at hq
      exact ⟨bb', e, ⟨hq ▸ hm, h3.2 hc⟩, rfl⟩
  refine ⟨createAnd ((l.filter fun p => p.1).map fun p => p.2).dedup, ?_, ?_, ?_⟩
  · rw [QueryPreds.legacyJoinsBetween, if_neg hab, hjs, Option.bind_some, hl, Option.map_some]
  · intro I
    have e1 : (∀ e, createAnd ((l.filter fun p => p.1).map fun p => p.2).dedup = some e → Accepts I e) ↔
        ∀ e ∈ js, Compares e (some a) (some b) → Accepts I e := by
      obtain ⟨c1, c2⟩ := C84_create_and ((l.filter fun p => p.1).map fun p => p.2).dedup
      constructor
      · intro h e he hc
        have hmem := (hsel e).2 ⟨he, hc⟩
        obtain ⟨r, hr⟩ := createAnd_some.2 (List.ne_nil_of_mem hmem)
        exact (c2 r hr I).1 (h r hr) e hmem
      · intro h r hr
        exact (c2 r hr I).2 fun q hq => h q ((hsel q).1 hq).1 ((hsel q).1 hq).2
    rw [e1]
    constructor
    · intro h j hj hta hc
      obtain ⟨k, g, hk, hgk⟩ := hcov j hj hta
      obtain ⟨e, he, hca⟩ := forall₂_mem_left hf g (List.mem_map.2 ⟨_, Dict.mem_of_get? hgk, rfl⟩)
      obtain ⟨hne, hmem⟩ := hg k g hgk
      have hjg := (hmem j).2 ⟨hj, hta, hk⟩
      have hS : e.joinPartners.isSome = true := by
        rw [joinPartners_and hca]; intro i hi
        have := (hmem i).1 hi; exact hallS i this.1 this.2.1
      exact ((C84_create_and g).2 e hca I).1 (h e he ((compares_and hca hS _ _).2 ⟨j, hjg, hc⟩)) j hjg
    · intro h e he hc
      obtain ⟨k, g, hca, hne, hmem⟩ := entry e he
      refine ((C84_create_and g).2 e hca I).2 fun j hj => ?_
      obtain ⟨hjq, hta, hpk⟩ := (hmem j).1 hj
      refine h j hjq hta ?_
      have hK := partnerTabs_and hca (fun i hi => ((hmem i).1 hi).2.2) hne
      exact (mem_partnerTabs hpk _).1 ((mem_partnerTabs hK _).2 hc)
  · intro I
    constructor
    · intro h j hj hta hc
      obtain ⟨u, ho, hut, _⟩ := h2 j hj a hta (.inl rfl)
      have : some b = some u := ho.2.1 _ hc
      cases this
      obtain ⟨r, hr, hp⟩ := C35_joins_between_complete ops qp hv [a] [b] a b (by simp) (by simp) j hj hta hut ho
      exact hp.accepts (h r hr)
    · intro h e he
      obtain ⟨gs, hacc, hgs⟩ := C35_joins_between_sound ops qp hv [a] [b] (by simpa using hab) e he
      refine (hacc I).2 fun j hj => ?_
      obtain ⟨hjq, hpt, x, hx, y, hy, hxy, hc⟩ := hgs j hj
      simp only [List.mem_singleton] at hx hy; subst hx; subst hy
      rcases hxy with hta | htb
      · exact h j hjq hta hc
      · obtain ⟨u, ho, hut, _⟩ := h2 j hjq y htb (.inr rfl)
        have : some x = some u := ho.2.1 _ hc.symm
        cases this
        exact h j hjq hut hc

end PB.QueryPredsProps
