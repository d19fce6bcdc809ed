import Verif.Model.Walk
import Mathlib.Data.List.Nodup
import Mathlib.Data.List.Perm.Subperm
import Mathlib.Logic.Relation
import Mathlib.Tactic.Tauto

set_option linter.unusedSimpArgs false
set_option linter.unusedVariables false

/-! Properties C15 (random walk), C70 (frontier walks), C71 (breadth-first traversal). -/

namespace PB.WalkProps
open PB.Walk

/-- A proper NetworkX graph: nodes are unique, adjacency lists contain only nodes. -/
def WFGraph (g : Graph) : Prop := g.nodes.Nodup ∧ ∀ x, ∀ y ∈ g.adj x, y ∈ g.nodes

/-- Specification: some unvisited node is adjacent to a visited one. -/
def CanExtend (g : Graph) (visited : List Nat) : Prop := ∃ v ∈ visited, ∃ y ∈ g.adj v, y ∉ visited

/-- Specification of an exploration order: the order visits each node exactly once, and each node except the
first is adjacent to an earlier one unless no unvisited node is adjacent to an earlier one. -/
def ExplorationOrder (g : Graph) (l : List Nat) : Prop :=
  l.Perm g.nodes ∧
  ∀ a x b, l = a ++ x :: b → a ≠ [] → (∃ v ∈ a, x ∈ g.adj v) ∨ ¬ CanExtend g a

theorem mem_addSet (l : List Nat) (x y : Nat) : y ∈ addSet l x ↔ y = x ∨ y ∈ l := by
  unfold addSet
  split
  · rename_i h; constructor
    · exact Or.inr
    · rintro (rfl | h'); exacts [h, h']
  · simp; tauto

theorem mem_unionSet (a b : List Nat) (y : Nat) : y ∈ unionSet a b ↔ y ∈ a ∨ y ∈ b := by
  unfold unionSet
  induction b generalizing a with
  | nil => simp
  | cons x b ih => rw [List.foldl_cons, ih, mem_addSet]; simp; tauto

theorem addSet_new {l : List Nat} {x : Nat} (h : x ∉ l) : addSet l x = l ++ [x] := by
  simp [addSet, h]

theorem nodup_snoc {l : List Nat} {x : Nat} (h : l.Nodup) (hx : x ∉ l) : (l ++ [x]).Nodup := by
  rw [List.nodup_append]
  refine ⟨h, by simp, ?_⟩
  rintro a ha b hb rfl
  simp at hb; subst hb; exact hx ha

theorem exists_unvisited {nodes l : List Nat} (hn : nodes.Nodup) (hlt : l.length < nodes.length) :
    nodes.filter (· ∉ l) ≠ [] := by
  intro h
  rw [List.filter_eq_nil_iff] at h
  have hsub : nodes ⊆ l := by
    intro x hx
    have := h x hx
    simpa using this
  have := (hn.subperm hsub).length_le
  omega

/-- Invariant of the loop: `visited` is a duplicate-free list of nodes; `shell` contains exactly the unvisited
neighbours of the visited nodes other than the current one. -/
theorem randomLoop_spec (g : Graph) (hg : WFGraph g) (pick : Nat → List Nat → Nat)
    (hp : ∀ k l, l ≠ [] → pick k l ∈ l) :
    ∀ (k : Nat) (visited shell : List Nat) (current : Nat),
    g.nodes.length ≤ k + visited.length →
    visited.Nodup → (∀ v ∈ visited, v ∈ g.nodes) → current ∈ visited →
    (∀ y ∈ shell, y ∉ visited ∧ ∃ v ∈ visited, y ∈ g.adj v) →
    (∀ v ∈ visited, v ≠ current → ∀ y ∈ g.adj v, y ∉ visited → y ∈ shell) →
    (visited ++ randomLoop g pick k visited shell current).Perm g.nodes ∧
    ∀ a x b, randomLoop g pick k visited shell current = a ++ x :: b →
      (∃ v ∈ visited ++ a, x ∈ g.adj v) ∨ ¬ CanExtend g (visited ++ a) := by
  intro k
  induction k with
  | zero =>
    intro visited shell current hk hnd hsub hcur hs1 hs2
    simp only [randomLoop, List.append_nil]
    refine ⟨?_, by intro a x b h; simp at h⟩
    exact (hnd.subperm (fun v hv => hsub v hv)).perm_of_length_le (by omega)
  | succ k ih =>
    intro visited shell current hk hnd hsub hcur hs1 hs2
    simp only [randomLoop]
    by_cases hlt : visited.length < g.nodes.length
    swap
    · rw [if_neg hlt]
      simp only [List.append_nil]
      refine ⟨?_, by intro a x b h; simp at h⟩
      exact (hnd.subperm (fun v hv => hsub v hv)).perm_of_length_le (by omega)
    rw [if_pos hlt]
    generalize hS : unionSet shell ((g.adj current).filter (· ∉ visited)) = S
    have memS : ∀ y, y ∈ S ↔ y ∉ visited ∧ ∃ v ∈ visited, y ∈ g.adj v := by
      intro y
      rw [← hS, mem_unionSet, List.mem_filter]
      constructor
      · rintro (h | ⟨h1, h2⟩)
        · exact hs1 y h
        · exact ⟨by simpa using h2, current, hcur, h1⟩
      · rintro ⟨h1, v, hv, hy⟩
        by_cases hvc : v = current
        · subst hvc; right; exact ⟨hy, by simpa using h1⟩
        · left; exact hs2 v hv hvc y hy h1
    -- common continuation for a chosen node `x`
    have cont : ∀ (x : Nat) (shell' : List Nat), x ∉ visited → x ∈ g.nodes →
        ((∃ v ∈ visited, x ∈ g.adj v) ∨ ¬ CanExtend g visited) →
        (∀ y, y ∈ shell' ↔ y ≠ x ∧ y ∈ S) →
        (visited ++ x :: randomLoop g pick k (addSet visited x) shell' x).Perm g.nodes ∧
        ∀ a y b, x :: randomLoop g pick k (addSet visited x) shell' x = a ++ y :: b →
          (∃ v ∈ visited ++ a, y ∈ g.adj v) ∨ ¬ CanExtend g (visited ++ a) := by
      intro x shell' hxv hxn hx hsh
      have hadd := addSet_new hxv
      have := ih (addSet visited x) shell' x (by rw [hadd]; simp; omega) (by rw [hadd]; exact nodup_snoc hnd hxv)
        (by
          intro v hv; rw [mem_addSet] at hv
          rcases hv with rfl | hv
          · exact hxn
          · exact hsub v hv)
        (by rw [mem_addSet]; exact Or.inl rfl)
        (by
          intro y hy
          obtain ⟨h1, h2⟩ := (hsh y).1 hy
          obtain ⟨h3, v, hv, h4⟩ := (memS y).1 h2
          refine ⟨by rw [mem_addSet]; tauto, v, by rw [mem_addSet]; exact Or.inr hv, h4⟩)
        (by
          intro v hv hne y hy hyn
          rw [mem_addSet] at hv hyn
          push Not at hyn
          have hv' : v ∈ visited := by tauto
          exact (hsh y).2 ⟨hyn.1, (memS y).2 ⟨hyn.2, v, hv', hy⟩⟩)
      obtain ⟨p1, p2⟩ := this
      rw [hadd] at p1 p2 ⊢
      refine ⟨by simpa using p1, ?_⟩
      intro a y b h
      cases a with
      | nil =>
        simp only [List.nil_append, List.cons.injEq] at h
        obtain ⟨rfl, _⟩ := h
        simpa using hx
      | cons z a =>
        simp only [List.cons_append, List.cons.injEq] at h
        obtain ⟨rfl, h⟩ := h
        have := p2 a y b h
        simpa using this
    by_cases hSe : S = []
    · rw [if_pos hSe]
      have hunv := exists_unvisited hg.1 hlt
      have hm := hp k _ hunv
      rw [List.mem_filter] at hm
      refine cont _ _ (by simpa using hm.2) hm.1 ?_ ?_
      · right
        rintro ⟨v, hv, y, hy, hyn⟩
        have : y ∈ S := (memS y).2 ⟨hyn, v, hv, hy⟩
        rw [hSe] at this; simp at this
      · intro y; rw [hSe]; simp
    · rw [if_neg hSe]
      have hm := hp k _ hSe
      obtain ⟨h1, v, hv, h2⟩ := (memS _).1 hm
      refine cont _ _ h1 (hg.2 v _ h2) (Or.inl ⟨v, hv, h2⟩) ?_
      intro y
      rw [List.mem_filter]
      simp; tauto

/-- C15: for every graph, every start node and all random choices, the walk yields every node exactly once and
every node but the first is adjacent to an earlier one unless nothing adjacent is left. -/
theorem C15_random_walk (g : Graph) (hg : WFGraph g) (hne : g.nodes ≠ []) (pick : Nat → List Nat → Nat)
    (hp : ∀ k l, l ≠ [] → pick k l ∈ l) (startingNode : Option Nat) (hs : ∀ n, startingNode = some n → n ∈ g.nodes) :
    ExplorationOrder g (randomWalk g pick startingNode) ∧
    ∀ n, startingNode = some n → (randomWalk g pick startingNode).head? = some n := by
  have key : ∀ c, c ∈ g.nodes → ExplorationOrder g (c :: randomLoop g pick g.nodes.length [c] [] c) := by
    intro c hc
    obtain ⟨h1, h2⟩ := randomLoop_spec g hg pick hp g.nodes.length [c] [] c (by simp) (by simp) (by simpa using hc)
      (by simp) (by simp) (by simp)
    refine ⟨by simpa using h1, ?_⟩
    intro a x b h ha
    cases a with
    | nil => exact absurd rfl ha
    | cons y a =>
      simp only [List.cons_append, List.cons.injEq] at h
      obtain ⟨rfl, h⟩ := h
      have := h2 a x b h
      simpa using this
  constructor
  · cases startingNode with
    | none => exact key _ (hp _ _ hne)
    | some n => exact key n (hs n rfl)
  · rintro n rfl; rfl

/-- A graph with two components for the hypotheses: 0 - 1, 2. -/
def exGraph : Graph := ⟨[0, 1, 2], fun x => if x = 0 then [1] else if x = 1 then [0] else []⟩

example : WFGraph exGraph ∧ exGraph.nodes ≠ [] := by
  refine ⟨⟨by decide, ?_⟩, by decide⟩
  intro x y hy
  simp only [exGraph] at hy ⊢
  split at hy
  · simp at hy; subst hy; simp
  · split at hy
    · simp at hy; subst hy; simp
    · simp at hy

/-! ### C70 -/

theorem mem_available (g : Graph) (w : GWalk) (fr : List Nat) (hfr : ∀ x, x ∈ fr ↔ x ∈ w.nodes) (t : Nat) :
    (∃ o, (t, o) ∈ available g w fr) ↔ t ∉ w.nodes ∧ ∃ v ∈ w.nodes, t ∈ g.adj v := by
  unfold available
  simp only [List.mem_flatMap, List.mem_map, List.mem_filter, Prod.mk.injEq, decide_eq_true_eq]
  constructor
  · rintro ⟨o, f, hf, t', ⟨h1, h2, _⟩, rfl, _⟩
    exact ⟨h2, f, (hfr f).1 hf, h1⟩
  · rintro ⟨h1, v, hv, h2⟩
    exact ⟨some v, v, (hfr v).2 hv, t, ⟨h2, h1, fun h => h1 ((hfr t).1 h)⟩, rfl, rfl⟩

theorem available_nil (g : Graph) (w : GWalk) (fr : List Nat) (hfr : ∀ x, x ∈ fr ↔ x ∈ w.nodes) :
    available g w fr = [] ↔ ¬ CanExtend g w.nodes := by
  constructor
  · rintro h ⟨v, hv, y, hy, hyn⟩
    obtain ⟨o, ho⟩ := (mem_available g w fr hfr y).2 ⟨hyn, v, hv, hy⟩
    rw [h] at ho; simp at ho
  · intro h
    by_contra hne
    obtain ⟨⟨t, o⟩, ht⟩ := List.exists_mem_of_ne_nil _ hne
    obtain ⟨h1, v, hv, h2⟩ := (mem_available g w fr hfr t).1 ⟨o, ht⟩
    exact h ⟨v, hv, t, h2, h1⟩

theorem nodes_append (w : GWalk) (e : Nat × Option Nat) : GWalk.nodes (w ++ [e]) = w.nodes ++ [e.1] := by
  simp [GWalk.nodes]

/-- Continuations of a partial walk. -/
def Continues (g : Graph) (p l : List Nat) : Prop :=
  (p ++ l).Perm g.nodes ∧ ∀ a x b, l = a ++ x :: b → (∃ v ∈ p ++ a, x ∈ g.adj v) ∨ ¬ CanExtend g (p ++ a)

theorem continues_cons (g : Graph) (p : List Nat) (x : Nat) (l : List Nat) :
    Continues g p (x :: l) ↔ ((∃ v ∈ p, x ∈ g.adj v) ∨ ¬ CanExtend g p) ∧ Continues g (p ++ [x]) l := by
  unfold Continues
  constructor
  · rintro ⟨h1, h2⟩
    refine ⟨by simpa using h2 [] x l rfl, by simpa using h1, ?_⟩
    rintro a y b rfl
    simpa using h2 (x :: a) y b (by simp)
  · rintro ⟨h1, h2, h3⟩
    refine ⟨by simpa using h2, ?_⟩
    intro a y b h
    cases a with
    | nil => simp at h; obtain ⟨rfl, _⟩ := h; simpa using h1
    | cons z a =>
      simp only [List.cons_append, List.cons.injEq] at h
      obtain ⟨rfl, h⟩ := h
      simpa using h3 a y b h

theorem walkFrontier_spec (g : Graph) (hg : WFGraph g) :
    ∀ (k : Nat) (w : GWalk) (fr : List Nat),
    g.nodes.length ≤ k + w.length → w.nodes.Nodup → (∀ v ∈ w.nodes, v ∈ g.nodes) →
    (∀ x, x ∈ fr ↔ x ∈ w.nodes) →
    ∀ l, (∃ u ∈ walkFrontier g k w fr, GWalk.nodes u = w.nodes ++ l) ↔ Continues g w.nodes l := by
  intro k
  induction k with
  | zero =>
    intro w fr hk hnd hsub hfr l
    have hwl : w.nodes.length = w.length := by simp [GWalk.nodes]
    have hperm : w.nodes.Perm g.nodes := (hnd.subperm (fun v hv => hsub v hv)).perm_of_length_le (by omega)
    have hno : ¬ CanExtend g w.nodes := by
      rintro ⟨v, hv, y, hy, hyn⟩
      exact hyn (hperm.mem_iff.2 (hg.2 v y hy))
    have hav := (available_nil g w fr hfr).2 hno
    have hlen := hperm.length_eq
    simp only [walkFrontier, hav, true_and]
    rw [if_neg (by omega)]
    simp only [if_true, List.mem_singleton, exists_eq_left]
    constructor
    · intro h
      have : l = [] := by simpa using h
      subst this
      refine ⟨by simpa using hperm, ?_⟩
      intro a x b h; simp at h
    · rintro ⟨h1, _⟩
      have := h1.length_eq
      simp at this
      have : l = [] := List.length_eq_zero_iff.1 (by omega)
      simp [this]
  | succ k ih =>
    intro w fr hk hnd hsub hfr l
    have hwl : w.nodes.length = w.length := by simp [GWalk.nodes]
    simp only [walkFrontier]
    -- the recursive call for one next node
    have rec_ : ∀ (e : Nat × Option Nat), e.1 ∉ w.nodes → e.1 ∈ g.nodes → ∀ l,
        (∃ u ∈ walkFrontier g k (w ++ [e]) (addSet fr e.1), GWalk.nodes u = w.nodes ++ e.1 :: l) ↔
        Continues g (w.nodes ++ [e.1]) l := by
      intro e he1 he2 l
      have := ih (w ++ [e]) (addSet fr e.1) (by simp; omega)
        (by rw [nodes_append]; exact nodup_snoc hnd he1)
        (by
          intro v hv; rw [nodes_append] at hv
          rcases List.mem_append.1 hv with hv | hv
          · exact hsub v hv
          · simp at hv; subst hv; exact he2)
        (by
          intro x; rw [mem_addSet, nodes_append, hfr]; simp; tauto) l
      rw [nodes_append] at this
      simpa using this
    have prefix_ : ∀ (k : Nat) (w : GWalk) (fr : List Nat) (u : GWalk), u ∈ walkFrontier g k w fr →
        ∃ l, GWalk.nodes u = w.nodes ++ l := by
      intro k
      induction k with
      | zero =>
        intro w fr u hu
        simp only [walkFrontier] at hu
        split at hu
        · simp at hu
        · split at hu
          · simp at hu; subst hu; exact ⟨[], by simp⟩
          · simp at hu
      | succ k ihk =>
        intro w fr u hu
        simp only [walkFrontier] at hu
        split at hu
        · simp only [List.mem_flatMap] at hu
          obtain ⟨j, _, hu⟩ := hu
          obtain ⟨l, hl⟩ := ihk _ _ _ hu
          exact ⟨j :: l, by rw [hl, nodes_append]; simp⟩
        · split at hu
          · simp at hu; subst hu; exact ⟨[], by simp⟩
          · simp only [List.mem_flatMap] at hu
            obtain ⟨j, _, hu⟩ := hu
            obtain ⟨l, hl⟩ := ihk _ _ _ hu
            exact ⟨j.1 :: l, by rw [hl, nodes_append]; simp⟩
    by_cases hav : available g w fr = []
    · have hno := (available_nil g w fr hfr).1 hav
      simp only [hav, true_and]
      by_cases hlt : w.length < g.nodes.length
      · rw [if_pos hlt]
        constructor
        · rintro ⟨u, hu, hul⟩
          simp only [List.mem_flatMap, List.mem_filter, decide_eq_true_eq] at hu
          obtain ⟨j, ⟨hj1, hj2⟩, hu⟩ := hu
          obtain ⟨l', hl'⟩ := prefix_ _ _ _ _ hu
          rw [nodes_append, hul] at hl'
          have hl : l = j :: l' := by simpa using hl'
          subst hl
          have hjw : j ∉ w.nodes := fun h => hj2 ((hfr j).2 h)
          rw [continues_cons]
          exact ⟨Or.inr hno, (rec_ (j, none) hjw hj1 l').1 ⟨u, hu, hul⟩⟩
        · intro hc
          cases l with
          | nil =>
            have := hc.1.length_eq
            simp at this; omega
          | cons x l =>
            rw [continues_cons] at hc
            have hp := hc.2.1
            have hxn : x ∈ g.nodes := hp.mem_iff.1 (by simp)
            have hxw : x ∉ w.nodes := by
              have hnd2 := hp.nodup_iff.2 hg.1
              rw [List.append_assoc, List.nodup_append] at hnd2
              intro h
              exact hnd2.2.2 x h x (by simp) rfl
            obtain ⟨u, hu, hul⟩ := (rec_ (x, none) hxw hxn l).2 hc.2
            refine ⟨u, ?_, hul⟩
            simp only [List.mem_flatMap, List.mem_filter, decide_eq_true_eq]
            exact ⟨x, ⟨hxn, fun h => hxw ((hfr x).1 h)⟩, hu⟩
      · rw [if_neg hlt]
        have hperm : w.nodes.Perm g.nodes := (hnd.subperm (fun v hv => hsub v hv)).perm_of_length_le (by omega)
        simp only [if_true, List.mem_singleton, exists_eq_left]
        constructor
        · intro h
          have : l = [] := by simpa using h
          subst this
          refine ⟨by simpa using hperm, ?_⟩
          intro a x b h; simp at h
        · rintro ⟨h1, _⟩
          have h2 := h1.length_eq
          have h3 := hperm.length_eq
          simp at h2
          have : l = [] := List.length_eq_zero_iff.1 (by omega)
          simp [this]
    · have hyes : CanExtend g w.nodes := by
        by_contra h; exact hav ((available_nil g w fr hfr).2 h)
      rw [if_neg (by tauto), if_neg hav]
      constructor
      · rintro ⟨u, hu, hul⟩
        simp only [List.mem_flatMap] at hu
        obtain ⟨⟨t, o⟩, ht, hu⟩ := hu
        obtain ⟨h1, v, hv, h2⟩ := (mem_available g w fr hfr t).1 ⟨o, ht⟩
        obtain ⟨l', hl'⟩ := prefix_ _ _ _ _ hu
        rw [nodes_append, hul] at hl'
        have hl : l = t :: l' := by simpa using hl'
        subst hl
        rw [continues_cons]
        exact ⟨Or.inl ⟨v, hv, h2⟩, (rec_ (t, o) h1 (hg.2 v t h2) l').1 ⟨u, hu, hul⟩⟩
      · intro hc
        cases l with
        | nil =>
          exfalso
          obtain ⟨v, hv, y, hy, hyn⟩ := hyes
          have : y ∈ w.nodes := by
            have := hc.1.mem_iff.2 (hg.2 v y hy)
            simpa using this
          exact hyn this
        | cons x l =>
          rw [continues_cons] at hc
          have hp := hc.2.1
          have hxn : x ∈ g.nodes := hp.mem_iff.1 (by simp)
          have hxw : x ∉ w.nodes := by
            have hnd2 := hp.nodup_iff.2 hg.1
            rw [List.append_assoc, List.nodup_append] at hnd2
            intro h
            exact hnd2.2.2 x h x (by simp) rfl
          rcases hc.1 with ⟨v, hv, hxv⟩ | h
          · obtain ⟨o, ho⟩ := (mem_available g w fr hfr x).2 ⟨hxw, v, hv, hxv⟩
            obtain ⟨u, hu, hul⟩ := (rec_ (x, o) hxw hxn l).2 hc.2
            exact ⟨u, List.mem_flatMap.2 ⟨(x, o), ho, hu⟩, hul⟩
          · exact absurd hyes h

/-- C70: the node sequences of the frontier walks are exactly the exploration orders of the graph (sound and
complete, for connected and disconnected graphs). -/
theorem C70_frontier_walks (g : Graph) (hg : WFGraph g) (l : List Nat) (hl : l ≠ []) :
    (∃ u ∈ frontierWalks g, GWalk.nodes u = l) ↔ ExplorationOrder g l := by
  have key : ∀ n ∈ g.nodes, ∀ l', (∃ u ∈ walkFrontier g g.nodes.length [(n, none)] [n], GWalk.nodes u = n :: l') ↔
      Continues g [n] l' := by
    intro n hn l'
    have := walkFrontier_spec g hg g.nodes.length [(n, none)] [n] (by simp) (by simp [GWalk.nodes])
      (by simpa [GWalk.nodes] using hn) (by simp [GWalk.nodes]) l'
    simpa [GWalk.nodes] using this
  have eo : ∀ n l', ExplorationOrder g (n :: l') ↔ Continues g [n] l' := by
    intro n l'
    unfold ExplorationOrder Continues
    constructor
    · rintro ⟨h1, h2⟩
      refine ⟨by simpa using h1, ?_⟩
      rintro a x b rfl
      simpa using h2 (n :: a) x b (by simp) (by simp)
    · rintro ⟨h1, h2⟩
      refine ⟨by simpa using h1, ?_⟩
      intro a x b h ha
      cases a with
      | nil => exact absurd rfl ha
      | cons y a =>
        simp only [List.cons_append, List.cons.injEq] at h
        obtain ⟨rfl, h⟩ := h
        simpa using h2 a x b h
  cases l with
  | nil => exact absurd rfl hl
  | cons n l' =>
    rw [eo]
    unfold frontierWalks
    constructor
    · rintro ⟨u, hu, hul⟩
      obtain ⟨m, hm, hu⟩ := List.mem_flatMap.1 hu
      -- the first node of the walk is the start node
      have hpre : ∀ (k : Nat) (w : GWalk) (fr : List Nat) (u : GWalk), u ∈ walkFrontier g k w fr →
          ∃ l, GWalk.nodes u = w.nodes ++ l := by
        intro k
        induction k with
        | zero =>
          intro w fr u hu
          simp only [walkFrontier] at hu
          split at hu
          · simp at hu
          · split at hu
            · simp at hu; subst hu; exact ⟨[], by simp⟩
            · simp at hu
        | succ k ihk =>
          intro w fr u hu
          simp only [walkFrontier] at hu
          split at hu
          · simp only [List.mem_flatMap] at hu
            obtain ⟨j, _, hu⟩ := hu
            obtain ⟨l, hl⟩ := ihk _ _ _ hu
            exact ⟨j :: l, by rw [hl, nodes_append]; simp⟩
          · split at hu
            · simp at hu; subst hu; exact ⟨[], by simp⟩
            · simp only [List.mem_flatMap] at hu
              obtain ⟨j, _, hu⟩ := hu
              obtain ⟨l, hl⟩ := ihk _ _ _ hu
              exact ⟨j.1 :: l, by rw [hl, nodes_append]; simp⟩
      obtain ⟨l2, hl2⟩ := hpre _ _ _ _ hu
      have : n = m := by
        rw [hul] at hl2; simp [GWalk.nodes] at hl2; exact hl2.1
      subst this
      exact (key n hm l').1 ⟨u, hu, hul⟩
    · intro hc
      have hn : n ∈ g.nodes := hc.1.mem_iff.1 (by simp)
      obtain ⟨u, hu, hul⟩ := (key n hn l').2 hc
      exact ⟨u, List.mem_flatMap.2 ⟨n, hn, hu⟩, hul⟩

example : (frontierWalks exGraph).map GWalk.nodes = [[0, 1, 2], [1, 0, 2], [2, 0, 1], [2, 1, 0]] := by
  decide

/-! ### C71 -/

/-- A triangle. -/
def triangle : Graph := ⟨[0, 1, 2], fun x => if x = 0 then [1, 2] else if x = 1 then [0, 2] else if x = 2 then [0, 1] else []⟩

/-- C71 violated: a node of a triangle is yielded twice. -/
theorem C71_once_violated : bfsTree triangle 0 (fun _ => true) 10 = [1, 2, 2] := by decide

/-- A path 0 - 1 - 2. -/
def path : Graph := ⟨[0, 1, 2], fun x => if x = 0 then [1] else if x = 1 then [0, 2] else if x = 2 then [1] else []⟩

/-- C71 violated: children of a node that fails the condition are not explored (the documentation promises that
they are), however many iterations are made. -/
theorem C71_no_early_stopping_violated (k : Nat) : bfsTree path 0 (fun x => decide (x ≠ 1)) k = [] := by
  have h2 : ∀ k v, bfsLoop path (fun x => decide (x ≠ 1)) k [] v = [] := by
    intro k v; cases k <;> rfl
  cases k with
  | zero => rfl
  | succ k => exact h2 k [0, 1]

/-- C71 partial: whatever the number of iterations, every yielded node satisfies the condition and can be reached
from the start node along a path whose nodes all satisfy the condition. Missing: the two violated parts. -/
theorem C71_sound_partial (g : Graph) (start : Nat) (cond : Nat → Bool) (k : Nat) (x : Nat)
    (hx : x ∈ bfsTree g start cond k) :
    cond x = true ∧ Relation.ReflTransGen (fun a b => b ∈ g.adj a ∧ cond b = true) start x := by
  have gen : ∀ (k : Nat) (q vis : List Nat),
      (∀ y ∈ q, ∃ p, y ∈ g.adj p ∧ Relation.ReflTransGen (fun a b => b ∈ g.adj a ∧ cond b = true) start p) →
      ∀ x ∈ bfsLoop g cond k q vis,
        cond x = true ∧ Relation.ReflTransGen (fun a b => b ∈ g.adj a ∧ cond b = true) start x := by
    intro k
    induction k with
    | zero => intro q vis _ x hx; simp [bfsLoop] at hx
    | succ k ih =>
      intro q vis hq x hx
      cases q with
      | nil => simp [bfsLoop] at hx
      | cons y q =>
        simp only [bfsLoop] at hx
        split at hx
        · rename_i hc
          obtain ⟨p, hp1, hp2⟩ := hq y (by simp)
          have hy : Relation.ReflTransGen (fun a b => b ∈ g.adj a ∧ cond b = true) start y := hp2.tail ⟨hp1, hc⟩
          rcases List.mem_cons.1 hx with rfl | hx
          · exact ⟨hc, hy⟩
          · refine ih _ _ ?_ x hx
            intro z hz
            rcases List.mem_append.1 hz with hz | hz
            · exact hq z (List.mem_cons_of_mem _ hz)
            · exact ⟨y, (List.mem_filter.1 hz).1, hy⟩
        · exact ih _ _ (fun z hz => hq z (List.mem_cons_of_mem _ hz)) x hx
  exact gen k _ _ (fun y hy => ⟨start, hy, .refl⟩) x hx

/-! #### What is yielded in the end -/

/-- The queue and the visited nodes after one iteration. -/
def bfsNext (g : Graph) (cond : Nat → Bool) (x : Nat) (queue visited : List Nat) : List Nat :=
  if cond x then queue ++ (g.adj x).filter (· ∉ addSet visited x) else queue

/-- The loop yields `u`, no matter how many iterations are added. -/
def Yields (g : Graph) (cond : Nat → Bool) (u : Nat) (queue visited : List Nat) : Prop := ∃ K, ∀ k, K ≤ k → u ∈ bfsLoop g cond k queue visited

/-- The loop ends. -/
def Ends (g : Graph) (cond : Nat → Bool) (queue visited : List Nat) : Prop :=
  ∃ K, ∀ k, K ≤ k → bfsLoop g cond k queue visited = bfsLoop g cond K queue visited

theorem bfs_step (g : Graph) (cond : Nat → Bool) (k x : Nat) (queue visited : List Nat) :
    bfsLoop g cond (k + 1) (x :: queue) visited = (if cond x then [x] else []) ++ bfsLoop g cond k (bfsNext g cond x queue visited) (addSet visited x) := by
  rw [bfsLoop]
  unfold bfsNext
  by_cases h : cond x = true
  · simp [h]
  · simp [h]

theorem mem_added {l : List Nat} {x y : Nat} : y ∈ addSet l x ↔ y ∈ l ∨ y = x := by rw [mem_addSet]; exact or_comm

theorem yields_head (g : Graph) (cond : Nat → Bool) (x : Nat) (queue visited : List Nat) (h : cond x = true) : Yields g cond x (x :: queue) visited :=
  ⟨1, fun k hk => by
    obtain ⟨k, rfl⟩ : ∃ n, k = n + 1 := ⟨k - 1, by omega⟩
    rw [bfs_step]; simp [h]⟩

theorem yields_next (g : Graph) (cond : Nat → Bool) (u x : Nat) (queue visited : List Nat) (h : Yields g cond u (bfsNext g cond x queue visited) (addSet visited x)) :
    Yields g cond u (x :: queue) visited := by
  obtain ⟨K, hK⟩ := h
  refine ⟨K + 1, fun k hk => ?_⟩
  obtain ⟨k, rfl⟩ : ∃ n, k = n + 1 := ⟨k - 1, by omega⟩
  rw [bfs_step]
  exact List.mem_append_right _ (hK k (by omega))

theorem yields_queue (g : Graph) (cond : Nat → Bool) (u : Nat) (h : cond u = true) : ∀ (queue more visited : List Nat), u ∈ queue → Yields g cond u (queue ++ more) visited
  | [], _, _, hm => by simp at hm
  | x :: queue, more, visited, hm => by
    rcases List.mem_cons.1 hm with rfl | hm
    · exact yields_head g cond u _ visited h
    · refine yields_next g cond u x _ visited ?_
      unfold bfsNext
      split
      · show Yields g cond u ((queue ++ more) ++ _) _
        rw [List.append_assoc]; exact yields_queue g cond u h queue _ _ hm
      · exact yields_queue g cond u h queue _ _ hm

theorem yields_neighbour (g : Graph) (cond : Nat → Bool) (t u : Nat) (hadj : u ∈ g.adj t) (hu : cond u = true) : ∀ (k : Nat) (queue visited : List Nat),
    t ∈ bfsLoop g cond k queue visited → u ∈ visited ∨ Yields g cond u queue visited
  | 0, _, _, h => by simp [bfsLoop] at h
  | k + 1, [], _, h => by simp [bfsLoop] at h
  | k + 1, x :: queue, visited, h => by
    by_cases hxu : x = u
    · subst hxu; exact .inr (yields_head g cond x queue visited hu)
    · rw [bfs_step] at h
      rcases List.mem_append.1 h with h | h
      · have hx : cond x = true ∧ t = x := by
          by_cases hc : cond x = true
          · simp only [hc, if_true, List.mem_singleton] at h; exact ⟨hc, h⟩
          · simp [hc] at h
        obtain ⟨hc, rfl⟩ := hx
        by_cases hv : u ∈ visited
        · exact .inl hv
        · refine .inr (yields_next g cond u t queue visited ?_)
          have hm : u ∈ bfsNext g cond t queue visited := by
            simp only [bfsNext, hc, if_true, List.mem_append, List.mem_filter, decide_eq_true_eq]
            exact .inr ⟨hadj, fun e => by
              rcases mem_added.1 e with e | e
              · exact hv e
              · exact hxu e.symm⟩
          have := yields_queue g cond u hu (bfsNext g cond t queue visited) [] (addSet visited t) hm
          simpa using this
      · rcases yields_neighbour g cond t u hadj hu k _ _ h with h | h
        · rcases mem_added.1 h with h | h
          · exact .inl h
          · exact absurd h.symm hxu
        · exact .inr (yields_next g cond u x queue visited h)

theorem ends_step (g : Graph) (cond : Nat → Bool) (x : Nat) (queue visited : List Nat) (h : Ends g cond (bfsNext g cond x queue visited) (addSet visited x)) :
    Ends g cond (x :: queue) visited := by
  obtain ⟨K, hK⟩ := h
  refine ⟨K + 1, fun k hk => ?_⟩
  obtain ⟨k, rfl⟩ : ∃ n, k = n + 1 := ⟨k - 1, by omega⟩
  rw [bfs_step, bfs_step, hK k (by omega)]

theorem ends (g : Graph) (hg : WFGraph g) (cond : Nat → Bool) : ∀ (n : Nat) (queue visited : List Nat), (g.nodes.filter (· ∉ visited)).length ≤ n →
    (∀ x ∈ queue, x ∈ g.nodes) → Ends g cond queue visited := by
  intro n
  induction n with
  | zero =>
    -- all nodes are visited: nothing is added to the queue
    intro queue
    induction queue with
    | nil => exact fun visited _ _ => ⟨0, fun k _ => by cases k <;> simp [bfsLoop]⟩
    | cons x queue ih =>
      intro visited hn hq
      have hall : ∀ y ∈ g.nodes, y ∈ visited := by
        intro y hy
        have := List.eq_nil_of_length_eq_zero (Nat.le_zero.1 hn)
        rw [List.filter_eq_nil_iff] at this
        simpa using this y hy
      have hx : x ∈ visited := hall x (hq x (by simp))
      have hadd : addSet visited x = visited := by simp [addSet, hx]
      refine ends_step g cond x queue visited ?_
      have : bfsNext g cond x queue visited = queue := by
        unfold bfsNext
        split
        · have he : (g.adj x).filter (· ∉ addSet visited x) = [] := by
            rw [hadd, List.filter_eq_nil_iff]
            intro y hy
            simpa using hall y (hg.2 x y hy)
          rw [he, List.append_nil]
        · rfl
      rw [this, hadd]
      exact ih visited hn fun y hy => hq y (by simp [hy])
  | succ n ih =>
    -- the visited nodes at the beginning of the queue are taken out first
    have key : ∀ (pre rest visited : List Nat), (g.nodes.filter (· ∉ visited)).length ≤ n + 1 → (∀ x ∈ pre ++ rest, x ∈ g.nodes) → (∀ x ∈ pre, x ∈ visited) →
        (∀ y l, rest = y :: l → y ∉ visited) → Ends g cond (pre ++ rest) visited := by
      intro pre
      induction pre with
      | nil =>
        intro rest visited hn hq _ hr
        cases rest with
        | nil => exact ⟨0, fun k _ => by cases k <;> simp [bfsLoop]⟩
        | cons y l =>
          have hy := hr y l rfl
          refine ends_step g cond y l visited (ih _ _ ?_ ?_)
          · have hlt : (g.nodes.filter (· ∉ addSet visited y)).length < (g.nodes.filter (· ∉ visited)).length := by
              have hsub : g.nodes.filter (· ∉ addSet visited y) = (g.nodes.filter (· ∉ visited)).filter (· ≠ y) := by
                rw [List.filter_filter]
                refine List.filter_congr fun z _ => ?_
                by_cases h1 : z = y <;> by_cases h2 : z ∈ visited <;> simp [mem_added, h1, h2]
              rw [hsub]
              refine List.length_filter_lt_length_iff_exists.2 ⟨y, ?_, by simp⟩
              exact List.mem_filter.2 ⟨hq y (by simp), by simpa using hy⟩
            omega
          · intro z hz
            unfold bfsNext at hz
            split at hz
            · rcases List.mem_append.1 hz with hz | hz
              · exact hq z (by simp [hz])
              · exact hg.2 y z (List.mem_filter.1 hz).1
            · exact hq z (by simp [hz])
      | cons x pre ihp =>
        intro rest visited hn hq hp hr
        have hx := hp x (by simp)
        have hadd : addSet visited x = visited := by simp [addSet, hx]
        refine ends_step g cond x (pre ++ rest) visited ?_
        rw [hadd]
        unfold bfsNext
        split
        · rw [hadd, List.append_assoc]
          refine ihp _ visited hn ?_ (fun z hz => hp z (by simp [hz])) ?_
          · intro z hz
            rcases List.mem_append.1 hz with hz | hz
            · exact hq z (by simp [hz])
            · rcases List.mem_append.1 hz with hz | hz
              · exact hq z (by simp [hz])
              · exact hg.2 x z (List.mem_filter.1 hz).1
          · intro y l e
            cases rest with
            | cons r rest =>
              simp only [List.cons_append, List.cons.injEq] at e
              rw [← e.1]; exact hr r rest rfl
            | nil =>
              have : y ∈ (g.adj x).filter (· ∉ visited) := by
                rw [List.nil_append] at e; rw [e]; simp
              simpa using (List.mem_filter.1 this).2
        · exact ihp rest visited hn (fun z hz => hq z (by simp at hz ⊢; exact .inr hz)) (fun z hz => hp z (by simp [hz])) hr
    intro queue visited hn hq
    have hsplit := List.takeWhile_append_dropWhile (p := fun x => decide (x ∈ visited)) (l := queue)
    rw [← hsplit]
    refine key _ _ visited hn (by rw [hsplit]; exact hq) (fun x hx => by
      have := List.all_takeWhile (p := fun x => decide (x ∈ visited)) (l := queue)
      simpa using List.all_eq_true.1 this x hx) ?_
    intro y l e
    have := List.head_dropWhile_not (p := fun x => decide (x ∈ visited)) (l := queue) (by rw [e]; simp)
    simpa [e] using this

/-- **C71**: the traversal ends, and in the end the nodes other than the start node that have been yielded are exactly those that satisfy the condition and can be
reached along nodes that satisfy it. Missing: see `C71_once_violated` and `C71_no_early_stopping_violated`. -/
theorem C71_exact_partial (g : Graph) (hg : WFGraph g) (start : Nat) (cond : Nat → Bool) :
    ∃ result : List Nat, (∃ K, ∀ k, K ≤ k → bfsTree g start cond k = result) ∧
      ∀ u, u ≠ start → (u ∈ result ↔ cond u = true ∧ Relation.ReflTransGen (fun a b => b ∈ g.adj a ∧ cond b = true) start u) := by
  obtain ⟨K, hK⟩ := ends g hg cond _ (g.adj start) [start] (Nat.le_refl _) (hg.2 start)
  refine ⟨bfsTree g start cond K, ⟨K, hK⟩, fun u hu => ⟨C71_sound_partial g start cond K u, ?_⟩⟩
  rintro ⟨hc, hr⟩
  have main : ∀ w, Relation.ReflTransGen (fun a b => b ∈ g.adj a ∧ cond b = true) start w → w = start ∨ Yields g cond w (g.adj start) [start] := by
    intro w hw
    induction hw with
    | refl => exact .inl rfl
    | @tail b c hb hbc ih =>
      rcases ih with rfl | ⟨L, hL⟩
      · right
        have := yields_queue g cond c hbc.2 (g.adj b) [] [b] hbc.1
        simpa using this
      · rcases yields_neighbour g cond b c hbc.1 hbc.2 L _ _ (hL L (Nat.le_refl _)) with h | h
        · exact .inl (by simpa using h)
        · exact .inr h
  rcases main u hr with h | ⟨L, hL⟩
  · exact absurd h hu
  · have := hL (max K L) (Nat.le_max_right _ _)
    rw [hK (max K L) (Nat.le_max_left _ _)] at this
    exact this

example : WFGraph triangle ∧ (1 : Nat) ≠ 0 ∧ 1 ∈ bfsTree triangle 0 (fun _ => true) 10 := by
  refine ⟨⟨by decide, fun x y hy => ?_⟩, by decide, by decide⟩
  simp only [triangle] at hy ⊢
  split at hy
  · simp at hy ⊢; omega
  · split at hy
    · simp at hy ⊢; omega
    · split at hy
      · simp at hy ⊢; omega
      · simp at hy

example : 2 ∈ bfsTree triangle 0 (fun _ => true) 10 := by decide

end PB.WalkProps
