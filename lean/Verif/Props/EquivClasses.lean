import Verif.Props.QueryPreds

set_option linter.unusedSimpArgs false
set_option linter.unusedVariables false
set_option linter.unusedSectionVars false
set_option linter.unnecessarySimpa false

/-! Properties C36, C86, C87: join equivalence classes, join graphs and required tables. -/

namespace PB.EquivProps
open PB PB.Qal PB.Qal.Expr PB.ExprProps PB.PredProps PB.QueryPredsProps

variable {Q : Type}

/-! ### C36: join equivalence classes -/

/-- An equality join over exactly two columns connects these columns. -/
def LinkedCols (ops : QOps Q) (ps : List (Expr Q)) (c d : Col) : Prop :=
  ∃ a b, Expr.binary .eq a b ∈ ps ∧ (Expr.binary .eq a b).isJoin = true ∧
    (Expr.binary .eq a b).columns ops = {c, d} ∧ c ≠ d

/-- `c` and `d` belong to the same class. -/
def SameClass (ops : QOps Q) (ps : List (Expr Q)) (c d : Col) : Prop :=
  ∃ k ∈ equivalenceClasses ops ps, c ∈ k ∧ d ∈ k

theorem isEquiJoin_iff (ops : QOps Q) (e : Expr Q) :
    isEquiJoin ops e = true ↔ ∃ a b, e = .binary .eq a b ∧ e.isJoin = true ∧ (e.columns ops).card = 2 := by
  cases e with
  | binary op a b => cases op <;> simp [isEquiJoin]
  | _ => simp [isEquiJoin]

theorem graph_wf (ops : QOps Q) (ps : List (Expr Q)) : (equivalenceGraph ops ps).WF := by
  intro e he
  simp only [equivalenceGraph, mem_unionAll, List.mem_map, exists_exists_and_eq_and, Finset.mem_filter,
    Finset.mem_product] at he ⊢
  obtain ⟨p, hp, ⟨h1, h2⟩, _⟩ := he
  exact ⟨⟨p, hp, h1⟩, p, hp, h2⟩

theorem adj_iff (ops : QOps Q) (ps : List (Expr Q)) (c d : Col) :
    (equivalenceGraph ops ps).Adj c d ↔ LinkedCols ops ps c d := by
  have key : ∀ c d : Col, (c, d) ∈ (equivalenceGraph ops ps).edges ↔ LinkedCols ops ps c d := by
    intro c d
    simp only [equivalenceGraph, mem_unionAll, List.mem_map, exists_exists_and_eq_and, Finset.mem_filter,
      Finset.mem_product, List.mem_filter, isEquiJoin_iff]
    constructor
    · rintro ⟨p, ⟨hp, a, b, rfl, hj, hc⟩, ⟨h1, h2⟩, hne⟩
      refine ⟨a, b, hp, hj, ?_, hne⟩
      exact (Finset.eq_of_subset_of_card_le (by intro x hx; simp at hx; rcases hx with rfl | rfl <;> assumption)
        (by rw [hc, Finset.card_pair hne])).symm
    · rintro ⟨a, b, hp, hj, hc, hne⟩
      exact ⟨_, ⟨hp, a, b, rfl, hj, by rw [hc, Finset.card_pair hne]⟩, by rw [hc]; simp, hne⟩
  simp only [Nx.Graph.Adj, key]
  constructor
  · rintro (h | ⟨a, b, h1, h2, h3, h4⟩)
    · exact h
    · exact ⟨a, b, h1, h2, by rw [h3, Finset.pair_comm], h4.symm⟩
  · exact .inl

theorem mem_nodes (ops : QOps Q) (ps : List (Expr Q)) (c : Col) :
    c ∈ (equivalenceGraph ops ps).nodes ↔ ∃ d, LinkedCols ops ps c d := by
  simp only [← adj_iff]
  constructor
  · intro h
    simp only [equivalenceGraph, mem_unionAll, List.mem_map, exists_exists_and_eq_and, List.mem_filter] at h
    obtain ⟨p, ⟨hp, hj⟩, hc⟩ := h
    obtain ⟨a, b, rfl, hj', hcard⟩ := (isEquiJoin_iff ops p).1 hj
    obtain ⟨x, y, hxy, hcols⟩ := Finset.card_eq_two.1 hcard
    rw [hcols] at hc
    simp only [Finset.mem_insert, Finset.mem_singleton] at hc
    rcases hc with rfl | rfl
    · exact ⟨y, (adj_iff ops ps _ _).2 ⟨a, b, hp, hj', hcols, hxy⟩⟩
    · exact ⟨x, (adj_iff ops ps _ _).2 ⟨a, b, hp, hj', by rw [hcols, Finset.pair_comm], hxy.symm⟩⟩
  · rintro ⟨d, h⟩
    exact (Nx.Adj_nodes (graph_wf ops ps) h).1

/-- **C36.** Two columns are in the same equivalence class iff they are connected by a chain of equi-joins. Columns
without an equi-join are in no class. -/
theorem C36_same_class (ops : QOps Q) (ps : List (Expr Q)) (c d : Col) :
    SameClass ops ps c d ↔ (∃ x, LinkedCols ops ps c x) ∧ Relation.ReflTransGen (LinkedCols ops ps) c d := by
  have hadj : (equivalenceGraph ops ps).Adj = LinkedCols ops ps := by
    funext x y; exact propext (adj_iff ops ps x y)
  have hwf := graph_wf ops ps
  rw [← mem_nodes, ← hadj]
  simp only [SameClass, equivalenceClasses, Nx.Graph.components, Finset.mem_image, exists_exists_and_eq_and]
  constructor
  · rintro ⟨a, ha, hc, hd⟩
    have hc' := (Nx.mem_component hwf ha c).1 hc
    have hd' := (Nx.mem_component hwf ha d).1 hd
    exact ⟨Nx.component_nodes hwf ha hc, (Nx.reach_symm hc').trans hd'⟩
  · rintro ⟨hc, hcd⟩
    exact ⟨c, hc, (Nx.mem_component hwf hc c).2 .refl, (Nx.mem_component hwf hc d).2 hcd⟩

/-- **C36.** The classes are disjoint, and each contains at least two columns. -/
theorem C36_classes_disjoint (ops : QOps Q) (ps : List (Expr Q)) :
    (∀ k ∈ equivalenceClasses ops ps, ∀ k' ∈ equivalenceClasses ops ps, ∀ c, c ∈ k → c ∈ k' → k = k') ∧
    ∀ k ∈ equivalenceClasses ops ps, ∃ c ∈ k, ∃ d ∈ k, c ≠ d := by
  have hwf := graph_wf ops ps
  simp only [equivalenceClasses, Nx.Graph.components, Finset.mem_image]
  constructor
  · rintro k ⟨a, ha, rfl⟩ k' ⟨b, hb, rfl⟩ c hc hc'
    have h1 := (Nx.mem_component hwf ha c).1 hc
    have h2 := (Nx.mem_component hwf hb c).1 hc'
    ext x
    rw [Nx.mem_component hwf ha, Nx.mem_component hwf hb]
    exact ⟨fun h => h2.trans ((Nx.reach_symm h1).trans h), fun h => h1.trans ((Nx.reach_symm h2).trans h)⟩
  · rintro k ⟨a, ha, rfl⟩
    obtain ⟨d, h⟩ := (mem_nodes ops ps a).1 ha
    refine ⟨a, (Nx.mem_component hwf ha a).2 .refl, d, (Nx.mem_component hwf ha d).2 (.single ((adj_iff ops ps a d).2 h)), ?_⟩
    obtain ⟨_, _, _, _, _, hne⟩ := h
    exact hne

/-- `I` evaluates `c = d` on a row `ρ`: true iff both values are present and equal. -/
def EvalsEq {V : Type} (ρ : Col → Option V) (I : Expr Q → Option Bool) : Prop :=
  ∀ c d, I (.binary .eq (.col c) (.col d)) = some true ↔ ∃ v, ρ c = some v ∧ ρ d = some v

/-- The predicates are generated from the classes, which are iterated in any order. -/
def Orders (ls : List (List Col)) (ks : Finset (Finset Col)) : Prop :=
  (∀ l ∈ ls, l.Nodup) ∧ ∀ k, k ∈ ks ↔ ∃ l ∈ ls, l.toFinset = k

theorem mem_generated (ls : List (List Col)) (p : Expr Q) :
    p ∈ generatePredicates ls ↔ ∃ l ∈ ls, ∃ q ∈ Coll.pairs l, p = .binary .eq (.col q.1) (.col q.2) := by
  simp only [generatePredicates, List.mem_flatMap, List.mem_map, equalCols]
  constructor
  · rintro ⟨l, hl, q, hq, rfl⟩; exact ⟨l, hl, q, hq, rfl⟩
  · rintro ⟨l, hl, q, hq, rfl⟩; exact ⟨l, hl, q, hq, rfl⟩

theorem accepts_eq {V : Type} {ρ : Col → Option V} {I : Expr Q → Option Bool} (h : EvalsEq ρ I) (c d : Col) :
    Accepts I (.binary .eq (.col c) (.col d)) ↔ ∃ v, ρ c = some v ∧ ρ d = some v := by
  rw [Accepts, truth, h]
  all_goals simp

theorem columns_col (ops : QOps Q) (c : Col) : (Expr.col c : Expr Q).columns ops = {c} := by
  rw [columns_eq]; simp [colParts, ownColumns, unionAll]

theorem columns_pair (ops : QOps Q) (c d : Col) :
    (Expr.binary .eq (.col c) (.col d) : Expr Q).columns ops = {c, d} := by
  rw [columns_eq]
  ext x
  simp [colParts, ownColumns, mem_unionAll, columns_col]

/-- **C36 (partial).** If the equi-joins compare plain columns, then on every row the generated predicates are all true
iff the equi-joins are all true. Missing: equi-joins over two columns whose sides are expressions, see
`C36_generated_violated`. -/
theorem C36_generated_partial {V : Type} (ops : QOps Q) (ps : List (Expr Q))
    (hplain : ∀ p ∈ ps, isEquiJoin ops p = true → ∃ c d, p = .binary .eq (.col c) (.col d))
    (ls : List (List Col)) (hls : Orders ls (equivalenceClasses ops ps))
    (ρ : Col → Option V) (I : Expr Q → Option Bool) (hI : EvalsEq ρ I) :
    (∀ p ∈ generatePredicates ls, Accepts I p) ↔ ∀ p ∈ ps, isEquiJoin ops p = true → Accepts I p := by
  constructor
  · intro h p hp he
    obtain ⟨c, d, rfl⟩ := hplain p hp he
    have hcols : (Expr.binary .eq (.col c) (.col d) : Expr Q).columns ops = {c, d} := columns_pair ops c d
    obtain ⟨a, b, hab, hj, hcard⟩ := (isEquiJoin_iff ops _).1 he
    have hcd : c ≠ d := by rintro rfl; rw [hcols] at hcard; simp at hcard
    have hl : LinkedCols ops ps c d := ⟨_, _, hp, hj, hcols, hcd⟩
    obtain ⟨k, hk, hck, hdk⟩ := (C36_same_class ops ps c d).2 ⟨⟨d, hl⟩, .single hl⟩
    obtain ⟨l, hlm, rfl⟩ := (hls.2 k).1 hk
    rw [List.mem_toFinset] at hck hdk
    rw [accepts_eq hI]
    rcases CollProps.C06_pairs_unordered l (hls.1 l hlm) c d hcd hck hdk with ⟨hm, _⟩ | ⟨hm, _⟩
    · exact (accepts_eq hI c d).1 (h _ ((mem_generated ls _).2 ⟨l, hlm, _, hm, rfl⟩))
    · obtain ⟨v, h1, h2⟩ := (accepts_eq hI d c).1 (h _ ((mem_generated ls _).2 ⟨l, hlm, _, hm, rfl⟩))
      exact ⟨v, h2, h1⟩
  · intro h p hp
    obtain ⟨l, hl, ⟨c, d⟩, hq, rfl⟩ := (mem_generated ls p).1 hp
    rw [accepts_eq hI]
    obtain ⟨i, j, _, hi, hj⟩ := (CollProps.C06_pairs_mem l c d).1 hq
    obtain ⟨⟨x, hx⟩, hr⟩ := (C36_same_class ops ps c d).1
      ⟨l.toFinset, (hls.2 _).2 ⟨l, hl, rfl⟩, by rw [List.mem_toFinset]; exact List.mem_of_getElem? hi,
        by rw [List.mem_toFinset]; exact List.mem_of_getElem? hj⟩
    have step : ∀ y z, LinkedCols ops ps y z → ∃ v, ρ y = some v ∧ ρ z = some v := by
      rintro y z ⟨a, b, hm, hjn, hcols, hne⟩
      have he : isEquiJoin ops (.binary .eq a b) = true :=
        (isEquiJoin_iff ops _).2 ⟨a, b, rfl, hjn, by rw [hcols, Finset.card_pair hne]⟩
      obtain ⟨c', d', heq⟩ := hplain _ hm he
      cases heq
      have hcols' : (Expr.binary .eq (.col c') (.col d') : Expr Q).columns ops = {c', d'} := columns_pair ops c' d'
      rw [hcols'] at hcols
      obtain ⟨v, h1, h2⟩ := (accepts_eq hI c' d').1 (h _ hm he)
      have hy : y ∈ ({c', d'} : Finset Col) := by rw [hcols]; simp
      have hz : z ∈ ({c', d'} : Finset Col) := by rw [hcols]; simp
      simp only [Finset.mem_insert, Finset.mem_singleton] at hy hz
      refine ⟨v, ?_, ?_⟩
      · rcases hy with rfl | rfl <;> assumption
      · rcases hz with rfl | rfl <;> assumption
    obtain ⟨v, hv, _⟩ := step c x hx
    refine ⟨v, hv, ?_⟩
    clear hq hi hj hp
    induction hr with
    | refl => exact hv
    | tail _ hyz ih =>
      obtain ⟨w, h1, h2⟩ := step _ _ hyz
      rw [ih] at h1; cases h1; exact h2

def cz : Col := ⟨some 3, 30⟩

/-- `t1.x = t2.y`, `t2.y = t3.z` -/
def chain : List (Expr Unit) := [.binary .eq (.col cx) (.col cy), .binary .eq (.col cy) (.col cz)]

example : equivalenceClasses noOps chain = {{cx, cy, cz}} ∧ Orders [[cx, cy, cz]] (equivalenceClasses noOps chain) ∧
    ((generatePredicates [[cx, cy, cz]] : List (Expr Unit)).length = 3) := by
  have h : equivalenceClasses noOps chain = {{cx, cy, cz}} := by decide +kernel
  refine ⟨h, ⟨by decide, fun k => ?_⟩, by decide +kernel⟩
  rw [h]
  simp [eq_comm]

/-- `t1.x + 1 = t2.y` -/
def shifted : Expr Unit := .binary .eq (.math .add (.col cx) [.static (.num 1)]) (.col cy)

/-- **C36 is violated.** From `t1.x + 1 = t2.y` the code derives `t1.x = t2.y`: there is a row that the original
predicate accepts and the generated predicate rejects. -/
theorem C36_generated_violated :
    ∃ (ps : List (Expr Unit)) (ls : List (List Col)) (ρ : Col → Option Nat) (I : Expr Unit → Option Bool),
      Orders ls (equivalenceClasses noOps ps) ∧ EvalsEq ρ I ∧
      (∃ x y, ρ cx = some x ∧ ρ cy = some y ∧ (I shifted = some true ↔ x + 1 = y)) ∧
      (∀ p ∈ ps, Accepts I p) ∧ ∃ p ∈ generatePredicates ls, ¬ Accepts I p := by
  let ρ : Col → Option Nat := fun c => if c = cx then some 1 else some 2
  let I : Expr Unit → Option Bool := fun e => match e with
    | .binary .eq (.col c) (.col d) => some (decide (ρ c = ρ d))
    | _ => some true
  have h : equivalenceClasses noOps [shifted] = {{cx, cy}} := by decide +kernel
  have hI : EvalsEq ρ I := by
    intro c d
    simp only [I, ρ, Option.some.injEq, decide_eq_true_eq]
    by_cases h1 : c = cx <;> by_cases h2 : d = cx <;> simp [h1, h2]
  refine ⟨[shifted], [[cx, cy]], ρ, I, ⟨by decide, fun k => by rw [h]; simp [eq_comm]⟩, hI,
    ⟨1, 2, rfl, rfl, by simp [I, shifted]⟩, ?_, equalCols cx cy, by decide +kernel, ?_⟩
  · intro p hp
    simp only [List.mem_singleton] at hp; subst hp
    simp [Accepts, truth, shifted, I]
  · rw [equalCols, accepts_eq hI]
    simp [ρ, cx, cy]

/-! ### C86: join graph -/

/-- Every join of a well-formed `QueryPredicates` object over regular predicates mentions some table. -/
theorem join_mentions (ops : QOps Q) (j : Expr Q) (hj : j.isJoin = true) (hr : Regular j) (ht : Typed j) :
    ∃ t, t ∈ j.tables ops := by
  have key : ∀ e : Expr Q, e.isJoin = true → ∃ c t, HasCol c e ∧ c.tab = some t := by
    intro e
    induction e using Expr.ind with
    | h e ih =>
      intro he
      have one : ∀ d : Expr Q, d.baseTabs.Nonempty → Sub d e → ∃ c t, HasCol c e ∧ c.tab = some t := by
        rintro d ⟨t, ht⟩ hs
        obtain ⟨c, hc, hct⟩ := (mem_baseTabs d t).1 ht
        exact ⟨c, t, (mem_baseCols_sound d c hc).trans hs, hct⟩
      have pos : ∀ s : Finset Tab, 1 < s.card → s.Nonempty := fun s h => Finset.card_pos.1 (by omega)
      have uni : ∀ d d' : Expr Q, (d.baseTabs ∪ d'.baseTabs).Nonempty → Sub d e → Sub d' e →
          ∃ c t, HasCol c e ∧ c.tab = some t := by
        intro d d' h h1 h2
        rcases Finset.union_nonempty.1 h with h | h
        · exact one d h h1
        · exact one d' h h2
      cases e with
      | binary op a b =>
        simp only [isJoin, Bool.or_eq_true, Bool.and_eq_true, decide_eq_true_eq] at he
        rcases he with (h | h) | ⟨⟨h, _⟩, _⟩
        · exact one a (pos _ h) (.of_mem (by simp [subs]))
        · exact one b (pos _ h) (.of_mem (by simp [subs]))
        · exact one a h (.of_mem (by simp [subs]))
      | between a l u =>
        simp only [isJoin, Bool.or_eq_true, decide_eq_true_eq] at he
        rcases he with (h | h) | h
        · exact one a (pos _ h) (.of_mem (by simp [subs]))
        · exact uni a l (pos _ h) (.of_mem (by simp [subs])) (.of_mem (by simp [subs]))
        · exact uni a u (pos _ h) (.of_mem (by simp [subs])) (.of_mem (by simp [subs]))
      | inP a vs =>
        simp only [isJoin, Bool.or_eq_true, decide_eq_true_eq, List.any_eq_true] at he
        rcases he with h | ⟨v, hv, h⟩
        · exact one a (pos _ h) (.of_mem (by simp [subs]))
        · exact uni a v (pos _ h) (.of_mem (by simp [subs])) (.of_mem (by simp [subs, hv]))
      | unary a op =>
        simp only [isJoin, decide_eq_true_eq] at he
        exact one a (pos _ he) (.of_mem (by simp [subs]))
      | compound op cs =>
        rw [isJoin_compound, List.any_eq_true] at he
        obtain ⟨d, hd, he⟩ := he
        obtain ⟨c, t, h1, h2⟩ := ih d hd he
        exact ⟨c, t, h1.trans (.of_mem hd), h2⟩
      | _ => simp [isJoin] at he
  obtain ⟨c, t, hc, hct⟩ := key j hj
  exact ⟨t, (C82_tables_partial ops j hr ht t).2 ⟨_, hc, .inr (.inl ⟨_, rfl, hct⟩)⟩⟩

/-- **C86.** For a query over regular predicates, `join_graph()` does not raise, its nodes are the tables of the
predicates (and None, if a join compares a column without table), and two nodes are connected iff some join compares
a column of one with a column of the other. -/
theorem C86_join_graph [DecidableEq Q] (ops : QOps Q) (qp : QueryPreds Q) (hv : qp.Valid ops)
    (hr : ∀ j ∈ qp.joins, Regular j ∧ Typed j) :
    ∃ g, qp.joinGraph = some g ∧
      (∀ t, some t ∈ g.nodes ↔ ∃ r, qp.root = some r ∧ t ∈ r.tables ops) ∧
      (none ∈ g.nodes ↔ ∃ j ∈ qp.joins, ∃ u, Compares j none u) ∧
      ∀ a b, g.Adj a b ↔ ∃ j ∈ qp.joins, Compares j a b := by
  have hsome : ∀ j ∈ qp.joins, j.joinPartners.isSome = true := by
    intro j hj
    obtain ⟨r, hroot, hjr⟩ := (hv.joins j).1 hj
    obtain ⟨t, ht⟩ := join_mentions ops j (collectJoins_isJoin r j hjr) (hr j hj).1 (hr j hj).2
    obtain ⟨es, hes⟩ := C85_joins_for_total ops qp hv t
    exact (joinsFor_isSome ops qp.joins t).1 (by rw [← QueryPreds.joinsFor, hes]; rfl) j hj ht
  obtain ⟨es, hes⟩ := (optUnion_eq_some (qp.joins.map QueryPreds.graphEdges)).2 (by
    intro o ho
    obtain ⟨j, hj, rfl⟩ := List.mem_map.1 ho
    simpa [QueryPreds.graphEdges] using hsome j hj)
  have hmem : ∀ a b, (a, b) ∈ es ↔ ∃ j ∈ qp.joins, ∃ ps, j.joinPartners = some ps ∧ ∃ p ∈ ps, p.1.tab = a ∧ p.2.tab = b := by
    intro a b
    rw [((optUnion_eq_some _).1 es hes).2]
    constructor
    · rintro ⟨s, hs, he⟩
      obtain ⟨j, hj, hs⟩ := List.mem_map.1 hs
      simp only [QueryPreds.graphEdges, Option.map_eq_some_iff] at hs
      obtain ⟨ps, hps, rfl⟩ := hs
      obtain ⟨p, hp, he⟩ := Finset.mem_image.1 he
      cases he
      exact ⟨j, hj, ps, hps, p, hp, rfl, rfl⟩
    · rintro ⟨j, hj, ps, hps, p, hp, rfl, rfl⟩
      exact ⟨ps.image fun p => (p.1.tab, p.2.tab), List.mem_map.2 ⟨j, hj, by simp [QueryPreds.graphEdges, hps]⟩,
        Finset.mem_image.2 ⟨p, hp, rfl⟩⟩
  have hadj : ∀ a b, ((a, b) ∈ es ∨ (b, a) ∈ es) ↔ ∃ j ∈ qp.joins, Compares j a b := by
    intro a b
    rw [hmem, hmem]
    constructor
    · rintro (⟨j, hj, ps, hps, p, hp, h1, h2⟩ | ⟨j, hj, ps, hps, p, hp, h1, h2⟩)
      · exact ⟨j, hj, ps, hps, p, hp, .inl ⟨h1, h2⟩⟩
      · exact ⟨j, hj, ps, hps, p, hp, .inr ⟨h1, h2⟩⟩
    · rintro ⟨j, hj, ps, hps, p, hp, ⟨h1, h2⟩ | ⟨h1, h2⟩⟩
      · exact .inl ⟨j, hj, ps, hps, p, hp, h1, h2⟩
      · exact .inr ⟨j, hj, ps, hps, p, hp, h1, h2⟩
  have hnode : ∀ a, (a ∈ es.image Prod.fst ∨ a ∈ es.image Prod.snd) ↔ ∃ j ∈ qp.joins, ∃ u, Compares j a u := by
    intro a
    have : (a ∈ es.image Prod.fst ∨ a ∈ es.image Prod.snd) ↔ ∃ u, (a, u) ∈ es ∨ (u, a) ∈ es := by
      simp only [Finset.mem_image, Prod.exists, exists_and_right, exists_eq_right]
      constructor
      · rintro (⟨u, h⟩ | ⟨u, h⟩)
        · exact ⟨u, .inl h⟩
        · exact ⟨u, .inr h⟩
      · rintro ⟨u, h | h⟩
        · exact .inl ⟨u, h⟩
        · exact .inr ⟨u, h⟩
    rw [this]
    simp only [hadj]
    constructor
    · rintro ⟨u, j, hj, h⟩; exact ⟨j, hj, u, h⟩
    · rintro ⟨j, hj, u, h⟩; exact ⟨u, j, hj, h⟩
  refine ⟨⟨qp.tabs.toFinset.image some ∪ es.image Prod.fst ∪ es.image Prod.snd, es⟩,
    by rw [QueryPreds.joinGraph, hes, Option.map_some], ?_, ?_, fun a b => hadj a b⟩
  · intro t
    simp only [Finset.mem_union, Finset.mem_image (f := some), List.mem_toFinset, Option.some.injEq, exists_eq_right, hv.tabs]
    rw [or_assoc, hnode]
    constructor
    · rintro (h | ⟨j, hj, u, ps, hps, p, hp, h⟩)
      · exact h
      · obtain ⟨r, hroot, hjr⟩ := (hv.joins j).1 hj
        refine ⟨r, hroot, tables_collectJoins ops r j hjr ?_⟩
        obtain ⟨_, h1, h2⟩ := joinPartners_spec j ps hps p hp
        rw [C82_tables_partial ops j (hr j hj).1 (hr j hj).2]
        rcases h with ⟨h, _⟩ | ⟨_, h⟩
        · exact ⟨_, h1, .inr (.inl ⟨_, rfl, h⟩)⟩
        · exact ⟨_, h2, .inr (.inl ⟨_, rfl, h⟩)⟩
    · exact .inl
  · simp only [Finset.mem_union]
    rw [or_assoc, hnode]
    simp

example : ∃ g, qp1.joinGraph = some g ∧ g.nodes = {some 1, some 2} ∧ g.edges = {(some 1, some 2)} :=
  ⟨⟨{some 1, some 2}, {(some 1, some 2)}⟩, by decide +kernel, rfl, rfl⟩

/-- **C86 is violated for merged aliases.** `join_graph(merge_aliases=True)` of `t1.x = t2.y` contains the columns
`t1.x` and `t2.y` as nodes and does not connect the tables: the graph of a connected query is not connected. -/
theorem C86_merge_aliases_violated :
    ∃ qp : QueryPreds Unit, qp.Valid noOps ∧ qp.joinsTables noOps {1, 2} = some true ∧
      ∃ g, qp.mergedGraph id = some g ∧ Sum.inr cx ∈ g.nodes ∧ ¬ g.Adj (.inl 1) (.inl 2) ∧
        g.isConnected? = some false := by
  refine ⟨⟨some jXY, [], [jXY], [1, 2], [({some 1, some 2}, jXY)]⟩, ?_, by decide +kernel,
    ⟨{.inl 1, .inl 2, .inr cx, .inr cy}, {(.inr cx, .inr cy)}⟩, by decide +kernel, by decide +kernel, ?_, by decide +kernel⟩
  · have h1 : jXY.collectFilters = [] := by decide +kernel
    have h2 : jXY.collectJoins = [jXY] := by decide +kernel
    have h3 : jXY.tables noOps = {1, 2} := by decide +kernel
    exact ⟨by intro p; simp [h1], by intro p; simp [h2], by simp, by simp, by intro t; simp [h3], by decide +kernel⟩
  · simp [Nx.Graph.Adj]

/-! ### C87: required tables -/

theorem iterExpressions_sub (e : Expr Q) : ∀ d ∈ e.iterExpressions, Sub d e := by
  induction e using Expr.ind with
  | h e ih =>
    intro d hd
    cases e with
    | compound op cs =>
      simp only [iterExpressions, List.mem_flatMap] at hd
      obtain ⟨c, hc, hd⟩ := hd
      exact (ih c hc d hd).trans (.of_mem hc)
    | binary | between | inP | unary => exact .of_mem (by simpa [iterExpressions, subs] using hd)
    | _ => simp [iterExpressions] at hd

theorem iterExpressions_cover (e s : Expr Q) (hp : e.isPred = true) (ht : Typed e) (hs : Sub s e) (hb : s.isBaseExpr = true) :
    ∃ d ∈ e.iterExpressions, Sub s d := by
  induction e using Expr.ind with
  | h e ih =>
    have hcase : s = e ∨ ∃ c ∈ e.subs, Sub s c := by
      cases hs with
      | refl => exact .inl rfl
      | step hm h => exact .inr ⟨_, hm, h⟩
    rcases hcase with rfl | ⟨c, hc, h⟩
    · cases s <;> simp [isBaseExpr, isPred, isBase, isCompound] at hb hp
    · cases e with
      | compound op cs =>
        have hpc : c.isPred = true := by
          have := ht _ (.refl _)
          simp only [typedNode, List.all_eq_true] at this
          exact this c hc
        obtain ⟨d, hd, hsd⟩ := ih c hc hpc (fun x hx => ht x (hx.trans (.of_mem hc))) h
        exact ⟨d, by simp only [iterExpressions, List.mem_flatMap]; exact ⟨c, hc, hd⟩, hsd⟩
      | binary | between | inP | unary => exact ⟨c, by simpa [iterExpressions, subs] using hc, h⟩
      | _ => simp [isPred, isBase, isCompound] at hp

/-- **C87 (partial).** `required_tables` are the tables of the columns that occur outside of subqueries, and the tables
that the subqueries use but do not provide. Missing: predicates that contain CASE, window functions or FILTER
conditions, see `C87_required_tables_violated`. -/
theorem C87_required_tables_partial (ops : QOps Q) (e : Expr Q) (hp : e.isPred = true) (hc : Collectable e) (ht : Typed e)
    (t : Tab) :
    t ∈ e.requiredTables ops ↔
      (∃ c, HasCol c e ∧ c.tab = some t) ∨ ∃ q, Sub (.subq q) e ∧ t ∈ ops.unbound q := by
  simp only [requiredTables, Finset.mem_union, mem_unionAll, List.mem_map, exists_exists_and_eq_and, List.mem_flatMap]
  refine or_congr ?_ ?_
  · constructor
    · rintro ⟨d, hd, htd⟩
      obtain ⟨c, hcd, hct⟩ := (mem_baseTabs d t).1 htd
      exact ⟨c, (mem_baseCols_sound d c hcd).trans (iterExpressions_sub e d hd), hct⟩
    · rintro ⟨c, hce, hct⟩
      obtain ⟨d, hd, hs⟩ := iterExpressions_cover e _ hp ht hce rfl
      exact ⟨d, hd, (mem_baseTabs d t).2 ⟨c, (mem_baseCols d (hc.sub (iterExpressions_sub e d hd)) c).2 hs, hct⟩⟩
  · constructor
    · rintro ⟨q, ⟨d, hd, b, hb, hq⟩, hu⟩
      cases b <;> simp [subqOf] at hq
      subst hq
      exact ⟨q, (collectBase_sub d _ hb).trans (iterExpressions_sub e d hd), hu⟩
    · rintro ⟨q, hs, hu⟩
      obtain ⟨d, hd, hsd⟩ := iterExpressions_cover e _ hp ht hs rfl
      exact ⟨q, ⟨d, hd, .subq q, collectBase_complete d _ (hc.sub (iterExpressions_sub e d hd)) hsd rfl, by simp [subqOf]⟩, hu⟩

/-- `t1.x = (SELECT ... )` where the subquery depends on table 7 -/
def depPred : Expr Unit := .binary .eq (.col cx) (.subq ())
def depOps : QOps Unit := ⟨fun _ => {7, 8}, fun _ => ∅, fun _ => [], fun _ => {7}⟩

example : depPred.isPred = true ∧ Collectable depPred ∧ Typed depPred ∧ depPred.requiredTables depOps = {1, 7} := by
  refine ⟨by decide +kernel, (everywhere_iff _ _).1 (by decide +kernel), (everywhere_iff _ _).1 (by decide +kernel),
    by decide +kernel⟩

/-- **C87 is violated** for CASE: `CASE WHEN ... THEN t2.y END = 1`-style predicates do not require the tables of their
branches. -/
theorem C87_required_tables_violated :
    ∃ e : Expr Unit, e.isPred = true ∧ Typed e ∧ HasCol cy e ∧ cy.tab = some 2 ∧ 2 ∉ e.requiredTables depOps := by
  refine ⟨.binary .eq (.case [fZ 1] [.col cy] none none) (.static (.num 1)), by decide +kernel,
    (everywhere_iff _ _).1 (by decide +kernel), ?_, rfl, by decide +kernel⟩
  exact (Sub.of_mem (e := .case [fZ 1] [.col cy] none none) (by simp [subs])).trans (.of_mem (by simp [subs]))

end PB.EquivProps
