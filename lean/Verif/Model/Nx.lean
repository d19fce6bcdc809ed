import Mathlib.Data.Finset.Card
import Mathlib.Data.Finset.Image
import Mathlib.Logic.Function.Iterate
import Mathlib.Logic.Relation

/-! NetworkX graphs as used by the code: `nx.Graph`, `nx.connected_components` and `nx.is_connected`. This is modelling
infrastructure: it describes the semantics of the library (not code of /repo). A graph is its set of nodes and the
set of its (undirected) edges. The functions are computable; `mem_component` and `isConnected_iff` state that they
have their documented meaning. -/

set_option linter.unusedSimpArgs false
set_option linter.unusedSectionVars false

namespace PB.Nx

variable {α : Type} [DecidableEq α]

/-- An undirected graph. -/
structure Graph (α : Type) [DecidableEq α] where
  nodes : Finset α
  edges : Finset (α × α)

instance : DecidableEq (Graph α) := fun g h =>
  decidable_of_iff (g.nodes = h.nodes ∧ g.edges = h.edges)
    ⟨fun e => by cases g; cases h; simp_all, fun e => by subst e; exact ⟨rfl, rfl⟩⟩

/-- Two nodes are joined by an edge. -/
def Graph.Adj (g : Graph α) (a b : α) : Prop := (a, b) ∈ g.edges ∨ (b, a) ∈ g.edges

/-- `graph.add_node` -/
def Graph.addNode (g : Graph α) (a : α) : Graph α := { g with nodes := insert a g.nodes }

/-- `graph.add_edge`, which adds the nodes if necessary -/
def Graph.addEdge (g : Graph α) (a b : α) : Graph α := ⟨insert a (insert b g.nodes), insert (a, b) g.edges⟩

/-- The empty graph. -/
def Graph.empty : Graph α := ⟨∅, ∅⟩

/-- Add all neighbours of a set of nodes. -/
def Graph.grow (g : Graph α) (s : Finset α) : Finset α :=
  s ∪ (g.edges.filter fun e => e.1 ∈ s).image Prod.snd ∪ (g.edges.filter fun e => e.2 ∈ s).image Prod.fst

/-- The connected component of a node (an element of `nx.connected_components`). -/
def Graph.component (g : Graph α) (a : α) : Finset α := (g.grow)^[g.nodes.card] {a}

/-- `nx.connected_components` -/
def Graph.components (g : Graph α) : Finset (Finset α) := g.nodes.image g.component

/-- `nx.is_connected`. NetworkX raises for the graph without nodes (`none`). -/
def Graph.isConnected? (g : Graph α) : Option Bool :=
  if g.nodes = ∅ then none else some (decide (∀ a ∈ g.nodes, g.component a = g.nodes))

/-- Edges end in nodes. -/
def Graph.WF (g : Graph α) : Prop := ∀ e ∈ g.edges, e.1 ∈ g.nodes ∧ e.2 ∈ g.nodes

theorem mem_grow (g : Graph α) (s : Finset α) (x : α) : x ∈ g.grow s ↔ x ∈ s ∨ ∃ y ∈ s, g.Adj y x := by
  simp only [Graph.grow, Finset.mem_union, Finset.mem_image, Finset.mem_filter, Graph.Adj, Prod.exists]
  constructor
  · rintro ((h | ⟨a, b, ⟨h1, h2⟩, rfl⟩) | ⟨a, b, ⟨h1, h2⟩, rfl⟩)
    · exact .inl h
    · exact .inr ⟨a, h2, .inl h1⟩
    · exact .inr ⟨b, h2, .inr h1⟩
  · rintro (h | ⟨y, hy, h | h⟩)
    · exact .inl (.inl h)
    · exact .inl (.inr ⟨y, x, ⟨h, hy⟩, rfl⟩)
    · exact .inr ⟨x, y, ⟨h, hy⟩, rfl⟩

theorem subset_grow (g : Graph α) (s : Finset α) : s ⊆ g.grow s := fun x hx => (mem_grow g s x).2 (.inl hx)

theorem Adj_symm {g : Graph α} {a b : α} (h : g.Adj a b) : g.Adj b a := Or.symm h

theorem Adj_nodes {g : Graph α} (hg : g.WF) {a b : α} (h : g.Adj a b) : a ∈ g.nodes ∧ b ∈ g.nodes := by
  rcases h with h | h
  · exact hg _ h
  · exact (hg _ h).symm

theorem grow_nodes {g : Graph α} (hg : g.WF) {s : Finset α} (hs : s ⊆ g.nodes) : g.grow s ⊆ g.nodes := by
  intro x hx
  rcases (mem_grow g s x).1 hx with h | ⟨y, _, h⟩
  · exact hs h
  · exact (Adj_nodes hg h).2

theorem iter_nodes {g : Graph α} (hg : g.WF) (n : Nat) {s : Finset α} (hs : s ⊆ g.nodes) :
    (g.grow)^[n] s ⊆ g.nodes := by
  induction n with
  | zero => exact hs
  | succ n ih => rw [Function.iterate_succ_apply']; exact grow_nodes hg ih

theorem iter_card (g : Graph α) (s : Finset α) (n : Nat) :
    g.grow ((g.grow)^[n] s) = (g.grow)^[n] s ∨ n + s.card ≤ ((g.grow)^[n] s).card := by
  induction n with
  | zero => right; simp
  | succ n ih =>
    rw [Function.iterate_succ_apply']
    rcases ih with h | h
    · left; rw [h, h]
    · by_cases he : g.grow ((g.grow)^[n] s) = (g.grow)^[n] s
      · left; rw [he, he]
      · right
        have : ((g.grow)^[n] s).card < (g.grow ((g.grow)^[n] s)).card :=
          Finset.card_lt_card (Finset.ssubset_iff_subset_ne.2 ⟨subset_grow g _, Ne.symm he⟩)
        omega

theorem component_fix {g : Graph α} (hg : g.WF) {a : α} (ha : a ∈ g.nodes) :
    g.grow (g.component a) = g.component a := by
  rcases iter_card g {a} g.nodes.card with h | h
  · exact h
  · have := Finset.card_le_card (iter_nodes hg g.nodes.card (Finset.singleton_subset_iff.2 ha))
    simp at h; omega

/-- A component consists of the nodes that can be reached over edges. -/
theorem mem_component {g : Graph α} (hg : g.WF) {a : α} (ha : a ∈ g.nodes) (b : α) :
    b ∈ g.component a ↔ Relation.ReflTransGen g.Adj a b := by
  constructor
  · have : ∀ n, ∀ b ∈ (g.grow)^[n] {a}, Relation.ReflTransGen g.Adj a b := by
      intro n
      induction n with
      | zero => intro b hb; simp at hb; subst hb; exact .refl
      | succ n ih =>
        intro b hb
        rw [Function.iterate_succ_apply', mem_grow] at hb
        rcases hb with h | ⟨y, hy, h⟩
        · exact ih b h
        · exact (ih y hy).tail h
    exact this _ b
  · intro h
    induction h with
    | refl =>
      have : ∀ n, a ∈ (g.grow)^[n] {a} := by
        intro n
        induction n with
        | zero => simp
        | succ n ih => rw [Function.iterate_succ_apply']; exact subset_grow g _ ih
      exact this _
    | tail _ h ih =>
      rw [← component_fix hg ha, mem_grow]
      exact .inr ⟨_, ih, h⟩

theorem component_nodes {g : Graph α} (hg : g.WF) {a : α} (ha : a ∈ g.nodes) : g.component a ⊆ g.nodes :=
  iter_nodes hg _ (Finset.singleton_subset_iff.2 ha)

/-- All pairs of nodes are connected by a path. -/
def Graph.Connected (g : Graph α) : Prop := ∀ a ∈ g.nodes, ∀ b ∈ g.nodes, Relation.ReflTransGen g.Adj a b

theorem isConnected_iff {g : Graph α} (hg : g.WF) :
    g.isConnected? = some true ↔ g.nodes ≠ ∅ ∧ g.Connected := by
  unfold Graph.isConnected?
  split
  · rename_i h; simp [h]
  · rename_i h
    simp only [Option.some.injEq, decide_eq_true_eq, ne_eq, h, not_false_eq_true, true_and]
    constructor
    · intro h a ha b hb
      rw [← mem_component hg ha, h a ha]; exact hb
    · intro h a ha
      apply Finset.Subset.antisymm (component_nodes hg ha)
      intro b hb
      exact (mem_component hg ha b).2 (h a ha b hb)

theorem reach_symm {g : Graph α} {a b : α} (h : Relation.ReflTransGen g.Adj a b) :
    Relation.ReflTransGen g.Adj b a := by
  induction h with
  | refl => exact .refl
  | tail _ h ih => exact .head (Adj_symm h) ih

theorem addNode_WF {g : Graph α} (hg : g.WF) (a : α) : (g.addNode a).WF := by
  intro e he
  have := hg e he
  simp [Graph.addNode, this.1, this.2]

theorem addEdge_WF {g : Graph α} (hg : g.WF) (a b : α) : (g.addEdge a b).WF := by
  intro e he
  simp only [Graph.addEdge, Finset.mem_insert] at he ⊢
  rcases he with rfl | he
  · simp
  · have := hg e he
    simp [this.1, this.2]

theorem empty_WF : (Graph.empty : Graph α).WF := by intro e he; simp [Graph.empty] at he

end PB.Nx
