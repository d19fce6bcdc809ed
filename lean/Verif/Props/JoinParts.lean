import Verif.Model.JoinParts
import Verif.Props.JoinGraph

/-! Cross products and components of join graphs (C237). -/

set_option linter.unusedSimpArgs false
set_option linter.unusedVariables false

namespace PB.JoinPartsProps
open PB PB.JoinGraph PB.JoinGraphProps PB.JoinParts Relation

/-! ## Specification -/

/-- Two tables are joined by a predicate over exactly two columns, in either direction. -/
def Link (preds : List (List Col)) (a b : Nat) : Prop :=
  ∃ c d, [c, d] ∈ preds ∧ ((c.tab = a ∧ d.tab = b) ∨ (c.tab = b ∧ d.tab = a))

/-- The tables can be connected by joins of two tables each. -/
def Linked (preds : List (List Col)) (a b : Nat) : Prop := ReflTransGen (Link preds) a b

/-- The predicates of a query over the given tables: all tables are known, and predicates over two columns join two tables. -/
structure Valid (tables : List Nat) (preds : List (List Col)) : Prop where
  nodup : tables.Nodup
  known : ∀ p ∈ preds, ∀ c ∈ p, c.tab ∈ tables
  differ : ∀ c d, [c, d] ∈ preds → c.tab ≠ d.tab

/-- Predicates that follow from others connect tables that are connected anyway. -/
def Implied (tables : List Nat) (preds : List (List Col)) (extra : Cond) : Prop :=
  ∀ j ∈ extra, j.1.tab ∈ tables ∧ j.2.tab ∈ tables ∧ j.1.tab ≠ j.2.tab ∧ Linked preds j.1.tab j.2.tab

/-- The tables of a join graph. -/
def tabs (g : JG) : List Nat := g.nodes.map (·.1)

/-! ## Graphs -/

theorem mem_pairs (preds : List (List Col)) (c d : Col) : (c, d) ∈ preds.filterMap pair ↔ [c, d] ∈ preds := by
  rw [List.mem_filterMap]
  constructor
  · rintro ⟨p, hp, h⟩
    unfold pair at h
    split at h
    · cases h; exact hp
    · cases h
  · intro h; exact ⟨_, h, rfl⟩

theorem valid_pairs {tables : List Nat} {preds : List (List Col)} {extra : Cond} (hv : Valid tables preds)
    (he : Implied tables preds extra) : ValidJoins tables (preds.filterMap pair ++ extra) := by
  refine ⟨hv.nodup, ?_, ?_⟩
  · rintro ⟨c, d⟩ hj
    rcases List.mem_append.1 hj with hj | hj
    · have := (mem_pairs _ _ _).1 hj
      exact ⟨hv.known _ this c (by simp), hv.known _ this d (by simp)⟩
    · exact ⟨(he _ hj).1, (he _ hj).2.1⟩
  · rintro ⟨c, d⟩ hj
    rcases List.mem_append.1 hj with hj | hj
    · exact hv.differ _ _ ((mem_pairs _ _ _).1 hj)
    · exact (he _ hj).2.2.1

/-- The edges of the graph. -/
theorem edge_iff {tables : List Nat} {joins extra : Cond} {index : Col → Index} (a b : Nat) :
    (∃ c, (a, b, c) ∈ (JG.build tables joins extra index).edges ∨ (b, a, c) ∈ (JG.build tables joins extra index).edges) ↔
      ∃ j ∈ joins ++ extra, Connects a b j := by
  constructor
  · rintro ⟨c, h⟩
    rcases h with h | h
    · rw [mem_edges] at h
      obtain ⟨hc, j, hj, rfl, rfl⟩ := h
      have hm := List.mem_of_head? hj
      rw [hc] at hm
      have := List.mem_filter.1 hm
      exact ⟨j, this.1, by simpa using this.2⟩
    · rw [mem_edges] at h
      obtain ⟨hc, j, hj, rfl, rfl⟩ := h
      have hm := List.mem_of_head? hj
      rw [hc] at hm
      have := List.mem_filter.1 hm
      exact ⟨j, this.1, (connects_symm _ _ _).1 (by simpa using this.2)⟩
  · rintro ⟨j, hj, hc⟩
    have hm : j ∈ condBetween (joins ++ extra) a b := List.mem_filter.2 ⟨hj, by simpa using hc⟩
    obtain ⟨k, hk⟩ : ∃ k, (condBetween (joins ++ extra) a b).head? = some k := by
      cases h : condBetween (joins ++ extra) a b with
      | nil => rw [h] at hm; simp at hm
      | cons x l => exact ⟨x, rfl⟩
    have hk' := (List.mem_filter.1 (List.mem_of_head? hk)).2
    have hk'' : Connects a b k := by simpa using hk'
    refine ⟨condBetween (joins ++ extra) a b, ?_⟩
    rcases hk'' with ⟨h1, h2⟩ | ⟨h1, h2⟩
    · exact Or.inl ((mem_edges _ _ _ _ _ _ _).2 ⟨rfl, k, hk, h1, h2⟩)
    · right
      rw [mem_edges]
      refine ⟨?_, k, hk, h1, h2⟩
      unfold condBetween
      refine List.filter_congr fun x _ => ?_
      rw [decide_eq_decide]
      exact connects_symm _ _ _

/-- What a join graph over the predicates looks like, whatever has been marked. -/
structure Shape (tables : List Nat) (joins : Cond) (g : JG) : Prop where
  keys : Dict.keys g.nodes = tables
  edge : ∀ a b, (toNx g).Adj a b ↔ ∃ j ∈ joins, Connects a b j

theorem shape_of {tables : List Nat} {joins extra : Cond} {index : Col → Index} {g : JG}
    (hk : Dict.keys g.nodes = tables) (he : g.edges = (JG.build tables joins extra index).edges) :
    Shape tables (joins ++ extra) g := by
  refine ⟨hk, fun a b => ?_⟩
  rw [← edge_iff (tables := tables) (index := index), ← he]
  simp only [Nx.Graph.Adj, toNx, List.mem_toFinset, List.mem_map, Prod.mk.injEq, Prod.exists]
  constructor
  · rintro (⟨x, y, c, h, rfl, rfl⟩ | ⟨x, y, c, h, rfl, rfl⟩)
    · exact ⟨c, Or.inl h⟩
    · exact ⟨c, Or.inr h⟩
  · rintro ⟨c, h | h⟩
    · exact Or.inl ⟨a, b, c, h, rfl, rfl⟩
    · exact Or.inr ⟨b, a, c, h, rfl, rfl⟩

theorem shape_wf {tables : List Nat} {joins : Cond} {g : JG} (hs : Shape tables joins g) (hv : ValidJoins tables joins) :
    (toNx g).WF := by
  intro e he
  obtain ⟨j, hj, hc⟩ := (hs.edge e.1 e.2).1 (Or.inl he)
  have := hv.known j hj
  simp only [toNx, List.mem_toFinset, hs.keys]
  rcases hc with ⟨h1, h2⟩ | ⟨h1, h2⟩
  · rw [← h1, ← h2]; exact this
  · rw [← h1, ← h2]; exact ⟨this.2, this.1⟩

theorem reach_linked {tables : List Nat} {preds : List (List Col)} {extra : Cond} {g : JG}
    (hs : Shape tables (preds.filterMap pair ++ extra) g) (he : Implied tables preds extra) (a b : Nat) :
    ReflTransGen (toNx g).Adj a b ↔ Linked preds a b := by
  have hsymm : ∀ {x y}, Linked preds x y → Linked preds y x := by
    intro x y h
    induction h with
    | refl => exact .refl
    | tail _ h ih =>
      obtain ⟨c, d, hm, hc⟩ := h
      exact .head ⟨c, d, hm, hc.symm⟩ ih
  constructor
  · intro h
    induction h with
    | refl => exact .refl
    | tail _ h ih =>
      obtain ⟨⟨c, d⟩, hj, hc⟩ := (hs.edge _ _).1 h
      rcases List.mem_append.1 hj with hj | hj
      · exact ih.tail ⟨c, d, (mem_pairs _ _ _).1 hj, hc⟩
      · have hl := (he _ hj).2.2.2
        rcases hc with ⟨h1, h2⟩ | ⟨h1, h2⟩
        · simp only at h1 h2 hl; rw [h1, h2] at hl; exact ih.trans hl
        · simp only at h1 h2 hl; rw [h1, h2] at hl; exact ih.trans (hsymm hl)
  · intro h
    induction h with
    | refl => exact .refl
    | tail _ h ih =>
      obtain ⟨c, d, hm, hc⟩ := h
      exact ih.tail ((hs.edge _ _).2 ⟨(c, d), List.mem_append.2 (Or.inl ((mem_pairs _ _ _).2 hm)), hc⟩)

theorem shape_reached {tables : List Nat} {preds : List (List Col)} {extra : Cond} {index : Col → Index}
    {ord : List Nat → List Nat} {calls : List (Nat × Option Cond)} {g : JG}
    (hg : Reached tables (preds.filterMap pair) extra index ord calls g) : Shape tables (preds.filterMap pair ++ extra) g := by
  obtain ⟨hm, he, -⟩ := run_marked _ _ _ _ _ _ (marked_build tables _ extra index) hg
  exact shape_of hm.keys he

theorem tabs_eq (g : JG) : tabs g = Dict.keys g.nodes := rfl

/-! ## Cross products -/

theorem cross_of_shape {tables : List Nat} {preds : List (List Col)} {extra : Cond} {g : JG} (hv : Valid tables preds)
    (he : Implied tables preds extra) (hs : Shape tables (preds.filterMap pair ++ extra) g) :
    (containsCross g = none ↔ tables = []) ∧
    (containsCross g = some true ↔ ∃ a ∈ tables, ∃ b ∈ tables, ¬ Linked preds a b) := by
  have hwf := shape_wf hs (valid_pairs hv he)
  have hiff := Nx.isConnected_iff hwf
  have hnodes : ∀ x, x ∈ (toNx g).nodes ↔ x ∈ tables := by intro x; simp [toNx, hs.keys]
  have hempty : (toNx g).nodes = ∅ ↔ tables = [] := by
    constructor
    · intro h
      by_contra hne
      obtain ⟨t, ht⟩ := List.exists_mem_of_ne_nil _ hne
      have := (hnodes t).2 ht
      rw [h] at this; simp at this
    · rintro rfl; ext x; simp [hnodes]
  have hnone : (toNx g).isConnected? = none ↔ tables = [] := by
    unfold Nx.Graph.isConnected?
    rw [← hempty]
    split <;> simp_all
  have hconn : (toNx g).Connected ↔ ∀ a ∈ tables, ∀ b ∈ tables, Linked preds a b := by
    simp only [Nx.Graph.Connected, hnodes, reach_linked hs he]
  refine ⟨?_, ?_⟩
  · unfold containsCross; rw [Option.map_eq_none_iff, hnone]
  · unfold containsCross
    rw [Option.map_eq_some_iff]
    have hcase : ∀ b, (toNx g).isConnected? = some b → tables ≠ [] := by
      intro b hb h; rw [hnone.2 h] at hb; cases hb
    constructor
    · rintro ⟨b, hb, hb'⟩
      have hbf : b = false := by simpa using hb'
      subst hbf
      by_contra hall
      push Not at hall
      have : (toNx g).isConnected? = some true :=
        hiff.2 ⟨fun h => hcase _ hb (hempty.1 h), hconn.2 fun a ha b hb => hall a ha b hb⟩
      rw [this] at hb; cases hb
    · rintro ⟨a, ha, b, hb, hn⟩
      cases hc : (toNx g).isConnected? with
      | none => rw [hnone.1 hc] at ha; simp at ha
      | some v =>
        cases v with
        | false => exact ⟨false, rfl, rfl⟩
        | true => exact absurd (hconn.1 (hiff.1 hc).2 a ha b hb) hn

/-- C237: whatever has been marked, the graph contains cross products iff some tables cannot be connected by predicates over two
columns.  Missing: joins over more than two columns (`C237_columns_violated`). -/
theorem C237_cross_partial (tables : List Nat) (preds : List (List Col)) (extra : Cond) (index : Col → Index)
    (ord : List Nat → List Nat) (calls : List (Nat × Option Cond)) (g : JG) (hv : Valid tables preds)
    (he : Implied tables preds extra) (hg : (ofPredicates tables preds extra index).run ord calls = some g) :
    (containsCross g = none ↔ tables = []) ∧
    (containsCross g = some true ↔ ∃ a ∈ tables, ∃ b ∈ tables, ¬ Linked preds a b) :=
  cross_of_shape hv he (shape_reached hg)

/-- C237: the joins of the graph are the pairs of tables that are joined by a predicate over two columns, each once. -/
theorem C237_joins_partial (tables : List Nat) (preds : List (List Col)) (index : Col → Index)
    (ord : List Nat → List Nat) (calls : List (Nat × Option Cond)) (g : JG) (hv : Valid tables preds)
    (hg : (ofPredicates tables preds [] index).run ord calls = some g) :
    (∀ a b, ((a, b) ∈ allJoins g ∨ (b, a) ∈ allJoins g) ↔ Link preds a b) ∧
    (allJoins g).Nodup ∧ ∀ a b, (a, b) ∈ allJoins g → (b, a) ∉ allJoins g := by
  have hs := shape_reached hg
  obtain ⟨-, hedges, -⟩ := run_marked _ _ _ _ _ _ (marked_build tables _ [] index) hg
  have hvj := valid_pairs (extra := []) hv (fun j hj => by cases hj)
  have hmem : ∀ a b, (a, b) ∈ allJoins g ↔ ∃ c, (a, b, c) ∈ g.edges := by
    intro a b; simp [allJoins]
  refine ⟨fun a b => ?_, ?_, ?_⟩
  · have := hs.edge a b
    have h2 : (toNx g).Adj a b ↔ ((a, b) ∈ allJoins g ∨ (b, a) ∈ allJoins g) := by
      simp [Nx.Graph.Adj, toNx, allJoins]
    rw [← h2, this, List.append_nil]
    constructor
    · rintro ⟨⟨c, d⟩, hj, hc⟩; exact ⟨c, d, (mem_pairs _ _ _).1 hj, hc⟩
    · rintro ⟨c, d, hm, hc⟩; exact ⟨(c, d), (mem_pairs _ _ _).2 hm, hc⟩
  · have : allJoins g = (((preds.filterMap pair ++ []).foldl addPred ([] : Dict (Finset Nat) Cond)).filterMap edgeOf).map fun e : Nat × Nat × Cond => (e.1, e.2.1) := by
      unfold allJoins; rw [hedges]; rfl
    rw [this, List.map_filterMap]
    have hwf : Dict.WF ((preds.filterMap pair ++ []).foldl addPred ([] : Dict (Finset Nat) Cond)) := wf_addPred _ _ Dict.WF_nil
    have hpw : ((preds.filterMap pair ++ []).foldl addPred ([] : Dict (Finset Nat) Cond)).Pairwise fun (e e' : Finset Nat × Cond) => e.1 ≠ e'.1 := by
      have : (((preds.filterMap pair ++ []).foldl addPred ([] : Dict (Finset Nat) Cond)).map (fun e : Finset Nat × Cond => e.1)).Nodup := hwf
      rwa [List.Nodup, List.pairwise_map] at this
    have hkey : ∀ e ∈ (preds.filterMap pair ++ []).foldl addPred ([] : Dict (Finset Nat) Cond), ∀ x y, (edgeOf e).map (fun e => (e.1, e.2.1)) = some (x, y) →
        ({x, y} : Finset Nat) = e.1 := by
      rintro ⟨k, c⟩ hm x y h
      rw [mem_preds] at hm
      simp only [edgeOf, Option.map_map, Option.map_eq_some_iff, Function.comp_apply, Prod.mk.injEq] at h
      obtain ⟨j, hj, rfl, rfl⟩ := h
      have hjm := List.mem_of_head? hj
      rw [hm.1] at hjm
      simpa using (List.mem_filter.1 hjm).2
    rw [List.Nodup, List.pairwise_filterMap]
    refine hpw.imp_of_mem fun {e e'} hm hm' hne => ?_
    rintro ⟨x, y⟩ hx ⟨x', y'⟩ hx' heq
    cases heq
    exact hne ((hkey e hm x y hx).symm.trans (hkey e' hm' x y hx'))
  · intro a b hab hba
    obtain ⟨c, hc⟩ := (hmem a b).1 hab
    obtain ⟨c', hc'⟩ := (hmem b a).1 hba
    rw [hedges] at hc hc'
    obtain ⟨h1, -, hne⟩ := edges_known hvj hc
    rw [mem_edges] at hc hc'
    obtain ⟨rfl, j, hj, rfl, rfl⟩ := hc
    obtain ⟨rfl, j', hj', h3, h4⟩ := hc'
    have heq : condBetween (preds.filterMap pair ++ []) j.2.tab j.1.tab = condBetween (preds.filterMap pair ++ []) j.1.tab j.2.tab := by
      unfold condBetween
      refine List.filter_congr fun x _ => ?_
      rw [decide_eq_decide]
      exact connects_symm _ _ _
    rw [heq, hj] at hj'
    cases hj'
    exact hne h3

/-! ## Components -/

theorem comps_spec {n : Nx.Graph Nat} (hn : n.WF) : ∀ (vs : List Nat) (seen : Finset Nat), (∀ v ∈ vs, v ∈ n.nodes) →
    (∀ x ∈ seen, ∀ y, ReflTransGen n.Adj x y → y ∈ seen) →
    (∀ s ∈ comps n vs seen, ∃ v ∈ vs, s = n.component v ∧ v ∉ seen) ∧
    (∀ v ∈ vs, v ∉ seen → ∃ s ∈ comps n vs seen, v ∈ s) ∧
    (comps n vs seen).Pairwise Disjoint := by
  intro vs
  induction vs with
  | nil => intro seen _ _; simp [comps]
  | cons v vs ih =>
    intro seen hvs hcl
    have hv := hvs v (by simp)
    unfold comps
    split
    · rename_i hin
      obtain ⟨h1, h2, h3⟩ := ih seen (fun w hw => hvs w (by simp [hw])) hcl
      refine ⟨fun s hs => ?_, fun w hw hns => ?_, h3⟩
      · obtain ⟨w, hw, h⟩ := h1 s hs; exact ⟨w, by simp [hw], h⟩
      · rcases List.mem_cons.1 hw with rfl | hw
        · exact absurd hin hns
        · exact h2 w hw hns
    · rename_i hin
      have hcl' : ∀ x ∈ seen ∪ n.component v, ∀ y, ReflTransGen n.Adj x y → y ∈ seen ∪ n.component v := by
        intro x hx y hxy
        rcases Finset.mem_union.1 hx with hx | hx
        · exact Finset.mem_union.2 (Or.inl (hcl x hx y hxy))
        · refine Finset.mem_union.2 (Or.inr ?_)
          rw [Nx.mem_component hn hv] at hx ⊢
          exact hx.trans hxy
      obtain ⟨h1, h2, h3⟩ := ih _ (fun w hw => hvs w (by simp [hw])) hcl'
      refine ⟨fun s hs => ?_, fun w hw hns => ?_, ?_⟩
      · rcases List.mem_cons.1 hs with rfl | hs
        · exact ⟨v, by simp, rfl, hin⟩
        · obtain ⟨w, hw, he, hns⟩ := h1 s hs
          exact ⟨w, by simp [hw], he, fun h => hns (Finset.mem_union.2 (Or.inl h))⟩
      · by_cases hc : w ∈ n.component v
        · exact ⟨_, by simp, hc⟩
        · rcases List.mem_cons.1 hw with rfl | hw
          · exact absurd ((Nx.mem_component hn hv w).2 .refl) hc
          · obtain ⟨s, hs, hws⟩ := h2 w hw (fun h => (Finset.mem_union.1 h).elim hns hc)
            exact ⟨s, by simp [hs], hws⟩
      · refine List.Pairwise.cons (fun s hs => ?_) h3
        obtain ⟨w, hw, rfl, hns⟩ := h1 s hs
        rw [Finset.disjoint_left]
        intro x hx hxw
        have hwn := hvs w (by simp [hw])
        apply hns
        refine Finset.mem_union.2 (Or.inr ?_)
        rw [Nx.mem_component hn hv] at hx ⊢
        rw [Nx.mem_component hn hwn] at hxw
        exact hx.trans (Nx.reach_symm hxw)

theorem tabs_restrict (tables : List Nat) (preds : List (List Col)) (index : Col → Index) (ts : Finset Nat) :
    tabs (restrict tables preds index ts) = tables.filter fun t => decide (t ∈ ts) := by
  simp [tabs, restrict, ofPredicates, JG.build, Function.comp_def]

/-- C237: the components partition the tables: each table is in exactly one of them, and two tables are in the same one iff they can
be connected. -/
theorem C237_components (tables : List Nat) (preds : List (List Col)) (extra : Cond) (index : Col → Index)
    (ord : List Nat → List Nat) (calls : List (Nat × Option Cond)) (g : JG) (hv : Valid tables preds)
    (he : Implied tables preds extra) (hg : (ofPredicates tables preds extra index).run ord calls = some g) :
    (∀ t ∈ tables, ∃ c ∈ joinComponents tables preds index g, t ∈ tabs c) ∧
    (joinComponents tables preds index g).Pairwise (fun c c' => ∀ t ∈ tabs c, t ∉ tabs c') ∧
    (∀ c ∈ joinComponents tables preds index g, tabs c ≠ [] ∧ (∀ t ∈ tabs c, t ∈ tables) ∧
      ∀ a ∈ tabs c, ∀ b ∈ tables, b ∈ tabs c ↔ Linked preds a b) := by
  have hs := shape_reached hg
  have hwf := shape_wf hs (valid_pairs hv he)
  have hnodes : ∀ x, x ∈ (toNx g).nodes ↔ x ∈ tables := by intro x; simp [toNx, hs.keys]
  obtain ⟨h1, h2, h3⟩ := comps_spec hwf (Dict.keys g.nodes) ∅ (fun v hvk => by rw [hs.keys] at hvk; exact (hnodes v).2 hvk)
    (by simp)
  refine ⟨?_, ?_, ?_⟩
  · intro t ht
    obtain ⟨s, hsm, hts⟩ := h2 t (by rw [hs.keys]; exact ht) (by simp)
    refine ⟨_, List.mem_map.2 ⟨s, hsm, rfl⟩, ?_⟩
    rw [tabs_restrict, List.mem_filter]
    exact ⟨ht, by simpa using hts⟩
  · unfold joinComponents
    rw [List.pairwise_map]
    refine h3.imp fun {s s'} hd t ht ht' => ?_
    rw [tabs_restrict, List.mem_filter] at ht ht'
    exact Finset.disjoint_left.1 hd (by simpa using ht.2) (by simpa using ht'.2)
  · intro c hc
    obtain ⟨s, hsm, rfl⟩ := List.mem_map.1 hc
    obtain ⟨v, hvk, rfl, -⟩ := h1 s hsm
    rw [hs.keys] at hvk
    have hvn := (hnodes v).2 hvk
    have hin : ∀ x, x ∈ tabs (restrict tables preds index ((toNx g).component v)) ↔ x ∈ tables ∧ ReflTransGen (toNx g).Adj v x := by
      intro x
      rw [tabs_restrict, List.mem_filter, decide_eq_true_eq, Nx.mem_component hwf hvn]
    refine ⟨?_, fun t ht => ((hin t).1 ht).1, fun a ha b hb => ?_⟩
    · intro h
      have := (hin v).2 ⟨hvk, .refl⟩
      rw [h] at this; simp at this
    · rw [hin b, ← reach_linked hs he]
      have hva := ((hin a).1 ha).2
      constructor
      · rintro ⟨-, h⟩; exact (Nx.reach_symm hva).trans h
      · intro h; exact ⟨hb, hva.trans h⟩

/-- C237: components have no cross products, all of their tables are free, and their joins are those of the query. -/
theorem C237_component_graphs (tables : List Nat) (preds : List (List Col)) (extra : Cond) (index : Col → Index)
    (ord : List Nat → List Nat) (calls : List (Nat × Option Cond)) (g : JG) (hv : Valid tables preds)
    (he : Implied tables preds extra) (hg : (ofPredicates tables preds extra index).run ord calls = some g) :
    ∀ c ∈ joinComponents tables preds index g, containsCross c = some false ∧ c.initial = true ∧
      ∀ a ∈ tabs c, ∀ b, c.joinsTables a b = true ↔ Link preds a b := by
  intro c hc
  obtain ⟨-, -, h3⟩ := C237_components tables preds extra index ord calls g hv he hg
  obtain ⟨hne, hsub, hiff⟩ := h3 c hc
  obtain ⟨s, hsm, rfl⟩ := List.mem_map.1 hc
  have htabs := tabs_restrict tables preds index s
  have hval : Valid (tables.filter fun t => decide (t ∈ s)) (preds.filter (inside s)) := by
    refine ⟨hv.nodup.filter _, ?_, ?_⟩
    · intro p hp c hcp
      obtain ⟨hp1, hp2⟩ := List.mem_filter.1 hp
      refine List.mem_filter.2 ⟨hv.known p hp1 c hcp, ?_⟩
      exact List.all_eq_true.1 hp2 c hcp
    · intro c d hm; exact hv.differ c d (List.mem_filter.1 hm).1
  have himp : Implied (tables.filter fun t => decide (t ∈ s)) (preds.filter (inside s)) [] := fun j hj => by cases hj
  have hshape : Shape (tables.filter fun t => decide (t ∈ s)) ((preds.filter (inside s)).filterMap pair ++ [])
      (restrict tables preds index s) := shape_of (index := index) htabs rfl
  have hcross := cross_of_shape hval himp hshape
  have hmem : ∀ x, x ∈ tabs (restrict tables preds index s) ↔ x ∈ tables ∧ x ∈ s := by
    intro x; rw [htabs, List.mem_filter, decide_eq_true_eq]
  -- links that start in the component stay in it
  have hstay : ∀ a b, a ∈ tabs (restrict tables preds index s) → Link preds a b →
      b ∈ tabs (restrict tables preds index s) ∧ Link (preds.filter (inside s)) a b := by
    intro a b ha hl
    obtain ⟨x, y, hm, hxy⟩ := hl
    have hb : b ∈ tables := by
      rcases hxy with ⟨-, rfl⟩ | ⟨rfl, -⟩
      · exact hv.known _ hm y (by simp)
      · exact hv.known _ hm x (by simp)
    have hbt := (hiff a ha b hb).2 (.single ⟨x, y, hm, hxy⟩)
    refine ⟨hbt, x, y, List.mem_filter.2 ⟨hm, ?_⟩, hxy⟩
    have ha' := ((hmem a).1 ha).2
    have hb' := ((hmem b).1 hbt).2
    rcases hxy with ⟨h1, h2⟩ | ⟨h1, h2⟩ <;> simp [inside, h1, h2, ha', hb']
  have hreach : ∀ a b, a ∈ tabs (restrict tables preds index s) → Linked preds a b → Linked (preds.filter (inside s)) a b ∧
      b ∈ tabs (restrict tables preds index s) := by
    intro a b ha hl
    induction hl with
    | refl => exact ⟨.refl, ha⟩
    | tail _ h ih => exact ⟨ih.1.tail (hstay _ _ ih.2 h).2, (hstay _ _ ih.2 h).1⟩
  refine ⟨?_, ?_, ?_⟩
  · cases hc2 : containsCross (restrict tables preds index s) with
    | none => exact absurd (htabs.trans (hcross.1.1 hc2)) hne
    | some v =>
      cases v with
      | false => rfl
      | true =>
        obtain ⟨a, ha, b, hb, hn⟩ := hcross.2.1 hc2
        rw [← htabs] at ha hb
        exact absurd (hreach a b ha ((hiff a ha b (hsub b hb)).1 hb)).1 hn
  · exact (initial_marked (marked_build _ _ _ _) hval.nodup (by simp)).2 rfl
  · intro a ha b
    have hedge := hshape.edge a b
    have h2 : (restrict tables preds index s).joinsTables a b = true ↔ (toNx (restrict tables preds index s)).Adj a b := by
      simp only [JG.joinsTables, List.any_eq_true, between, Nx.Graph.Adj, toNx, List.mem_toFinset, List.mem_map, Bool.or_eq_true,
        Bool.and_eq_true, beq_iff_eq, Prod.mk.injEq, Prod.exists]
      constructor
      · rintro ⟨x, y, c, hm, ⟨rfl, rfl⟩ | ⟨rfl, rfl⟩⟩
        · exact Or.inl ⟨_, _, _, hm, rfl, rfl⟩
        · exact Or.inr ⟨_, _, _, hm, rfl, rfl⟩
      · rintro (⟨x, y, c, hm, rfl, rfl⟩ | ⟨x, y, c, hm, rfl, rfl⟩)
        · exact ⟨_, _, _, hm, Or.inl ⟨rfl, rfl⟩⟩
        · exact ⟨_, _, _, hm, Or.inr ⟨rfl, rfl⟩⟩
    rw [h2, hedge, List.append_nil]
    constructor
    · rintro ⟨⟨x, y⟩, hj, hc⟩
      exact ⟨x, y, (List.mem_filter.1 ((mem_pairs _ _ _).1 hj)).1, hc⟩
    · intro hl
      obtain ⟨x, y, hm, hc⟩ := (hstay a b ha hl).2
      exact ⟨(x, y), (mem_pairs _ _ _).2 hm, hc⟩

/-! ## Cases -/

def col (t n : Nat) : Col := ⟨t, n⟩

/-- Three tables in a chain, and a fourth one without joins. -/
def exPreds : List (List Col) := [[col 1 0, col 2 0], [col 2 0, col 3 0]]

theorem exPreds_valid : Valid [1, 2, 3, 4] exPreds := by
  refine ⟨by decide, by decide, ?_⟩
  intro c d h
  simp only [exPreds, List.mem_cons, List.cons.injEq, and_true, List.not_mem_nil, or_false] at h
  rcases h with ⟨rfl, rfl⟩ | ⟨rfl, rfl⟩ <;> decide

theorem ex_implied : Implied [1, 2, 3, 4] exPreds [(col 1 0, col 3 0)] := by
  intro j hj
  simp only [List.mem_singleton] at hj
  subst hj
  refine ⟨by decide, by decide, by decide, ?_⟩
  exact .tail (.single ⟨col 1 0, col 2 0, by decide, Or.inl ⟨rfl, rfl⟩⟩) ⟨col 2 0, col 3 0, by decide, Or.inl ⟨rfl, rfl⟩⟩

def noIndex : Col → Index := fun _ => Index.generate false false

example : containsCross (ofPredicates [1, 2, 3, 4] exPreds [] noIndex) = some true ∧
    (joinComponents [1, 2, 3, 4] exPreds noIndex (ofPredicates [1, 2, 3, 4] exPreds [] noIndex)).map tabs = [[1, 2, 3], [4]] ∧
    allJoins (ofPredicates [1, 2, 3, 4] exPreds [] noIndex) = [(1, 2), (2, 3)] := by decide

/-- C237 is violated: a join over three columns, like `R.a = S.b + S.c`, is not part of the graph, so that its tables count as a
cross product and end up in different components, which lose the join. -/
theorem C237_columns_violated (a b : Nat) (hab : a ≠ b) (x y z : Nat) (index : Col → Index) :
    let preds := [[col a x, col b y, col b z]]
    containsCross (ofPredicates [a, b] preds [] index) = some true ∧ allJoins (ofPredicates [a, b] preds [] index) = [] ∧
    (joinComponents [a, b] preds index (ofPredicates [a, b] preds [] index)).map tabs = [[a], [b]] := by
  intro preds
  have hv : Valid [a, b] preds := by
    refine ⟨by simp [hab], ?_, ?_⟩
    · intro p hp c hc
      simp only [preds, List.mem_singleton] at hp
      subst hp
      simp only [col, List.mem_cons, List.not_mem_nil, or_false] at hc
      rcases hc with rfl | rfl | rfl <;> simp
    · intro c d h; simp [preds] at h
  have himp : Implied [a, b] preds [] := fun j hj => by cases hj
  have hno : ∀ u v, ¬ Link preds u v := by rintro u v ⟨c, d, h, -⟩; simp [preds] at h
  have hlink : ∀ u v, Linked preds u v → u = v := by
    intro u v h
    induction h with
    | refl => rfl
    | tail _ h _ => exact absurd h (hno _ _)
  have hrun : (ofPredicates [a, b] preds [] index).run id [] = some (ofPredicates [a, b] preds [] index) := rfl
  refine ⟨?_, rfl, ?_⟩
  · rw [(C237_cross_partial _ _ _ _ _ _ _ hv himp hrun).2]
    exact ⟨a, by simp, b, by simp, fun h => hab (hlink _ _ h)⟩
  · have hs := shape_reached hrun
    have hwf := shape_wf hs (valid_pairs hv himp)
    have hnodes : ∀ x, x ∈ (toNx (ofPredicates [a, b] preds [] index)).nodes ↔ x ∈ [a, b] := by intro x; simp [toNx, hs.keys]
    have hc : ∀ v ∈ [a, b], (toNx (ofPredicates [a, b] preds [] index)).component v = {v} := by
      intro v hvm
      ext w
      rw [Nx.mem_component hwf ((hnodes v).2 hvm), reach_linked hs himp, Finset.mem_singleton]
      exact ⟨fun h => (hlink _ _ h).symm, fun h => h ▸ .refl⟩
    have hk : Dict.keys (ofPredicates [a, b] preds [] index).nodes = [a, b] := hs.keys
    unfold joinComponents
    rw [hk]
    simp only [comps, Finset.notMem_empty, if_false, hc a (by simp), hc b (by simp), Finset.empty_union, Finset.mem_singleton,
      hab.symm, List.map_cons, List.map_nil, tabs_restrict]
    simp [hab, hab.symm]

/-- C237 is violated: components forget the joins from the equivalence classes and which tables have been joined. -/
theorem C237_state_violated : ∃ (g : JG) (c : JG),
    (ofPredicates [1, 2, 3, 4] exPreds [(col 1 0, col 3 0)] noIndex).run id [(1, none)] = some g ∧
    c ∈ joinComponents [1, 2, 3, 4] exPreds noIndex g ∧ g.joinsTables 1 3 = true ∧ c.joinsTables 1 3 = false ∧
    g.isFree 1 = false ∧ c.isFree 1 = true := by
  refine ⟨_, restrict [1, 2, 3, 4] exPreds noIndex {1, 2, 3}, rfl, ?_, by decide, by decide, by decide, by decide⟩
  refine List.mem_map.2 ⟨{1, 2, 3}, ?_, rfl⟩
  decide

/-! ## Lookup -/

/-- C237: `graph[table]` works for the tables of the query and reports whether they are free and all indexes of their columns. -/
theorem C237_lookup (tables : List Nat) (joins extra : Cond) (index : Col → Index) (ord : List Nat → List Nat)
    (calls : List (Nat × Option Cond)) (g : JG) (cols : List Col) (hn : tables.Nodup)
    (hg : Reached tables joins extra index ord calls g) (t : Nat) :
    (info g cols t = none ↔ t ∉ tables) ∧
    ∀ free is, info g cols t = some (free, is) → (free = true ↔ t ∉ calls.map (·.1)) ∧
      ∀ i, i ∈ is ↔ ∃ c ∈ cols, c.tab = t ∧ g.idx c = i := by
  obtain ⟨hm, -, -⟩ := run_marked _ _ _ _ _ _ (marked_build tables joins extra index) hg
  unfold info
  rw [hm.keys]
  refine ⟨by split <;> simp_all, fun free is h => ?_⟩
  split at h
  · rename_i ht
    cases h
    rw [isFree_marked hm t ht]
    refine ⟨by simp, fun i => ?_⟩
    simp only [List.mem_map, List.mem_filter, decide_eq_true_eq]
    constructor
    · rintro ⟨c, ⟨h1, h2⟩, h3⟩; exact ⟨c, h1, h2, h3⟩
    · rintro ⟨c, h1, h2, h3⟩; exact ⟨c, ⟨h1, h2⟩, h3⟩
  · cases h

end PB.JoinPartsProps
