import Verif.Model.DepGraph
import Mathlib.Logic.Relation
import Mathlib.Order.WellFounded
import Mathlib.Data.Finset.Lattice.Fold
import Mathlib.Tactic.Tauto

set_option linter.unusedSimpArgs false
set_option linter.unusedVariables false

/-! Property C12 (dependency graph iteration). -/

namespace PB.DepProps
open PB PB.Dep

/-- C12 violated: `c` depends on `a` and `b`, but is yielded before `b`. -/
theorem C12_order_violated :
    iter (build [(0, []), (1, []), (2, [0, 1])]) = [0, 2, 1] := by
  simp [iter, build, addTask, addDep, empty, addSet, Dict.set, Graph.succ, Dict.get?, iterFrom, drain]

/-- C12 violated: a node that is registered again without dependencies is yielded twice. -/
theorem C12_once_violated :
    iter (build [(0, []), (1, [0]), (1, [])]) = [0, 1, 1] := by
  simp [iter, build, addTask, addDep, empty, addSet, Dict.set, Graph.succ, Dict.get?, iterFrom, drain]

theorem drain_prov (g : Graph) (stack prov : List Nat) :
    (drain g stack prov).2 = prov ++ (drain g stack prov).1 := by
  induction stack, prov using drain.induct (g := g) with
  | case1 prov => simp [drain]
  | case2 prov d stack h ih => rw [drain, if_pos h]; exact ih
  | case3 prov d stack h ih => rw [drain, if_neg h]; simp [ih]

theorem drain_nodup (g : Graph) (stack prov : List Nat) :
    (drain g stack prov).1.Nodup ∧ ∀ y ∈ (drain g stack prov).1, y ∉ prov := by
  induction stack, prov using drain.induct (g := g) with
  | case1 prov => simp [drain]
  | case2 prov d stack h ih => rw [drain, if_pos h]; exact ih
  | case3 prov d stack h ih =>
    rw [drain, if_neg h]
    refine ⟨List.nodup_cons.2 ⟨fun hm => (ih.2 d hm) (by simp), ih.1⟩, ?_⟩
    intro y hy
    rcases List.mem_cons.1 hy with rfl | hy
    · exact h
    · intro hp; exact ih.2 y hy (List.mem_append_left _ hp)

theorem drain_pred (g : Graph) (stack prov : List Nat) (a : List Nat) (y : Nat) (b : List Nat)
    (h : (drain g stack prov).1 = a ++ y :: b) : y ∈ stack ∨ ∃ d ∈ a, y ∈ g.succ d := by
  induction stack, prov using drain.induct (g := g) generalizing a with
  | case1 prov => simp [drain] at h
  | case2 prov d stack hd ih =>
    rw [drain, if_pos hd] at h
    rcases ih a h with h | h
    · exact Or.inl (List.mem_cons_of_mem _ h)
    · exact Or.inr h
  | case3 prov d stack hd ih =>
    rw [drain, if_neg hd] at h
    cases a with
    | nil => simp at h; left; simp [h.1]
    | cons x a =>
      simp only [List.cons_append, List.cons.injEq] at h
      obtain ⟨rfl, h⟩ := h
      rcases ih a h with h | ⟨e, he, h⟩
      · rcases List.mem_append.1 h with h | h
        · exact Or.inr ⟨d, by simp, by simpa using h⟩
        · exact Or.inl (List.mem_cons_of_mem _ h)
      · exact Or.inr ⟨e, List.mem_cons_of_mem _ he, h⟩

theorem drain_closed (g : Graph) (stack prov : List Nat) :
    (∀ x ∈ stack, x ∈ prov ++ (drain g stack prov).1) ∧
    ∀ y ∈ (drain g stack prov).1, ∀ z ∈ g.succ y, z ∈ prov ++ (drain g stack prov).1 := by
  induction stack, prov using drain.induct (g := g) with
  | case1 prov => simp [drain]
  | case2 prov d stack h ih =>
    rw [drain, if_pos h]
    refine ⟨?_, ih.2⟩
    intro x hx
    rcases List.mem_cons.1 hx with rfl | hx
    · exact List.mem_append_left _ h
    · exact ih.1 x hx
  | case3 prov d stack h ih =>
    rw [drain, if_neg h]
    simp only [List.append_assoc, List.singleton_append] at ih ⊢
    refine ⟨?_, ?_⟩
    · intro x hx
      rcases List.mem_cons.1 hx with rfl | hx
      · simp
      · exact ih.1 x (List.mem_append_right _ hx)
    · intro y hy z hz
      rcases List.mem_cons.1 hy with rfl | hy
      · exact ih.1 z (List.mem_append_left _ (by simpa using hz))
      · exact ih.2 y hy z hz

/-- C12 partial: every yielded node is a source or is yielded after at least one of its dependencies (for every
graph, acyclic or not). Missing: after *all* of its dependencies, see `C12_order_violated`. -/
theorem C12_some_dependency_partial (g : Graph) (a : List Nat) (y : Nat) (b : List Nat)
    (h : iter g = a ++ y :: b) : y ∈ g.sources ∨ ∃ d ∈ a, y ∈ g.succ d := by
  have gen : ∀ (ss prov a : List Nat), iterFrom g ss prov = a ++ y :: b →
      y ∈ ss ∨ ∃ d ∈ a, y ∈ g.succ d := by
    intro ss
    induction ss with
    | nil => intro prov a h; simp [iterFrom] at h
    | cons s ss ih =>
      intro prov a h
      simp only [iterFrom] at h
      cases a with
      | nil => simp at h; left; simp [h.1]
      | cons x a =>
        simp only [List.cons_append, List.cons.injEq] at h
        obtain ⟨rfl, h⟩ := h
        rcases List.append_eq_append_iff.1 h with ⟨as, h1, h2⟩ | ⟨bs, h1, h2⟩
        · rcases ih _ as h2 with h3 | ⟨d, hd, h3⟩
          · exact Or.inl (List.mem_cons_of_mem _ h3)
          · refine Or.inr ⟨d, ?_, h3⟩
            rw [h1]; simp [hd]
        · cases bs with
          | nil =>
            simp at h2
            rcases ih _ [] (by simpa using h2.symm) with h3 | ⟨d, hd, h3⟩
            · exact Or.inl (List.mem_cons_of_mem _ h3)
            · simp at hd
          | cons w bs =>
            simp only [List.cons_append, List.cons.injEq] at h2
            obtain ⟨rfl, h2⟩ := h2
            rcases drain_pred g _ _ a y bs h1 with h3 | ⟨d, hd, h3⟩
            · exact Or.inr ⟨s, by simp, by simpa using h3⟩
            · exact Or.inr ⟨d, List.mem_cons_of_mem _ hd, h3⟩
  exact gen g.sources [] a h

example : ∃ a b, iter (build [(0, []), (1, [0]), (2, [1])]) = a ++ 2 :: b :=
  ⟨[0, 1], [], by
    simp [iter, build, addTask, addDep, empty, addSet, Dict.set, Graph.succ, Dict.get?, iterFrom, drain]⟩

/-- C12 partial: if every node has at most one dependency and no source has one, the iteration is in
dependency order. -/
theorem C12_forest_order_partial (g : Graph)
    (hsrc : ∀ s ∈ g.sources, ∀ d, s ∉ g.succ d)
    (hone : ∀ n d e, n ∈ g.succ d → n ∈ g.succ e → d = e)
    (a : List Nat) (y : Nat) (b : List Nat) (h : iter g = a ++ y :: b) (d : Nat) (hd : y ∈ g.succ d) :
    d ∈ a := by
  rcases C12_some_dependency_partial g a y b h with h1 | ⟨e, he, h1⟩
  · exact absurd hd (hsrc y h1 d)
  · rw [hone y d e hd h1]; exact he

theorem iterFrom_closed (g : Graph) (ss prov : List Nat)
    (hp : ∀ p ∈ prov, ∀ z ∈ g.succ p, z ∈ prov) :
    (∀ s ∈ ss, s ∈ iterFrom g ss prov) ∧
    ∀ y ∈ iterFrom g ss prov, ∀ z ∈ g.succ y, z ∈ prov ++ iterFrom g ss prov := by
  induction ss generalizing prov with
  | nil => simp [iterFrom]
  | cons s ss ih =>
    simp only [iterFrom]
    obtain ⟨c1, c2⟩ := drain_closed g (g.succ s).reverse (prov ++ [s])
    have hpr := drain_prov g (g.succ s).reverse (prov ++ [s])
    generalize hD : drain g (g.succ s).reverse (prov ++ [s]) = D at *
    have hp' : ∀ p ∈ D.2, ∀ z ∈ g.succ p, z ∈ D.2 := by
      rw [hpr]
      intro p hpm z hz
      rcases List.mem_append.1 hpm with h | h
      · rcases List.mem_append.1 h with h | h
        · exact List.mem_append_left _ (List.mem_append_left _ (hp p h z hz))
        · simp at h; subst h
          exact c1 z (by simpa using hz)
      · exact c2 p h z hz
    obtain ⟨i1, i2⟩ := ih D.2 hp'
    have hsz : ∀ z ∈ g.succ s, z ∈ prov ++ [s] ++ D.1 := fun z hz => c1 z (by simpa using hz)
    constructor
    · intro x hx
      rcases List.mem_cons.1 hx with rfl | hx
      · simp
      · simp [i1 x hx]
    · intro y hy z hz
      have conv : z ∈ prov ++ [s] ++ D.1 → z ∈ prov ++ (s :: D.1 ++ iterFrom g ss D.2) := by
        simp; tauto
      rcases List.mem_append.1 hy with hy | hy
      · rcases List.mem_cons.1 hy with rfl | hy
        · exact conv (hsz z hz)
        · exact conv (c2 y hy z hz)
      · have := i2 y hy z hz
        rcases List.mem_append.1 this with h | h
        · rw [hpr] at h
          exact conv h
        · simp [h]

/-- C12: the yielded nodes are exactly the nodes that can be reached from a source along dependency edges. -/
theorem C12_yields_reachable (g : Graph) (x : Nat) :
    x ∈ iter g ↔ ∃ s ∈ g.sources, Relation.ReflTransGen (fun d n => n ∈ g.succ d) s x := by
  obtain ⟨c1, c2⟩ := iterFrom_closed g g.sources [] (by simp)
  simp only [List.nil_append] at c2
  constructor
  · intro hx
    obtain ⟨n, hn⟩ : ∃ n, n = (iter g).idxOf x := ⟨_, rfl⟩
    have key : ∀ (n : Nat) (a b : List Nat) (x : Nat), a.length = n → iter g = a ++ x :: b →
        ∃ s ∈ g.sources, Relation.ReflTransGen (fun d n => n ∈ g.succ d) s x := by
      intro n
      induction n using Nat.strong_induction_on with
      | _ n ih =>
        intro a b x hl h
        rcases C12_some_dependency_partial g a x b h with h1 | ⟨d, hd, h1⟩
        · exact ⟨x, h1, .refl⟩
        · obtain ⟨a1, a2, rfl⟩ := List.append_of_mem hd
          obtain ⟨s, hs, hr⟩ := ih a1.length (by rw [← hl]; simp) a1 (a2 ++ x :: b) d rfl (by simpa using h)
          exact ⟨s, hs, hr.tail h1⟩
    obtain ⟨a, b, hab⟩ := List.append_of_mem hx
    exact key _ a b x rfl hab
  · rintro ⟨s, hs, hr⟩
    induction hr with
    | refl => exact c1 s hs
    | tail _ h ih => exact c2 _ ih _ h

theorem iterFrom_nodup (g : Graph) (ss prov : List Nat) (hs : ss.Nodup)
    (hsrc : ∀ s ∈ ss, ∀ d, s ∉ g.succ d) (hd : ∀ s ∈ ss, s ∉ prov) :
    (iterFrom g ss prov).Nodup ∧ ∀ y ∈ iterFrom g ss prov, y ∉ prov := by
  induction ss generalizing prov with
  | nil => simp [iterFrom]
  | cons s ss ih =>
    simp only [iterFrom]
    obtain ⟨d1, d2⟩ := drain_nodup g (g.succ s).reverse (prov ++ [s])
    have hpr := drain_prov g (g.succ s).reverse (prov ++ [s])
    have hpred := drain_pred g (g.succ s).reverse (prov ++ [s])
    generalize hD : drain g (g.succ s).reverse (prov ++ [s]) = D at *
    have hns : ∀ y ∈ D.1, ∃ d, y ∈ g.succ d := by
      intro y hy
      obtain ⟨a, b, hab⟩ := List.append_of_mem hy
      rcases hpred a y b hab with h | ⟨d, _, h⟩
      · exact ⟨s, by simpa using h⟩
      · exact ⟨d, h⟩
    rw [List.nodup_cons] at hs
    obtain ⟨i1, i2⟩ := ih D.2 hs.2 (fun x hx => hsrc x (List.mem_cons_of_mem _ hx)) (by
      intro x hx
      rw [hpr]
      simp only [List.mem_append, List.mem_singleton, not_or]
      refine ⟨⟨hd x (List.mem_cons_of_mem _ hx), ?_⟩, ?_⟩
      · rintro rfl; exact hs.1 hx
      · intro hxd
        obtain ⟨d, hd'⟩ := hns x hxd
        exact hsrc x (List.mem_cons_of_mem _ hx) d hd')
    have i2 : ∀ y ∈ iterFrom g ss D.2, y ∉ prov ++ [s] ++ D.1 := fun y hy h => i2 y hy (by rw [hpr]; exact h)
    constructor
    · rw [List.nodup_append]
      refine ⟨List.nodup_cons.2 ⟨fun h => d2 s h (by simp), d1⟩, i1, ?_⟩
      rintro x hx y hy rfl
      have := i2 x hy
      simp only [List.mem_append, List.mem_singleton, not_or] at this
      rcases List.mem_cons.1 hx with rfl | hx
      · exact this.1.2 rfl
      · exact this.2 hx
    · intro y hy
      rcases List.mem_append.1 hy with hy | hy
      · rcases List.mem_cons.1 hy with rfl | hy
        · exact hd y (by simp)
        · intro hp; exact d2 y hy (List.mem_append_left _ hp)
      · intro hp; exact i2 y hy (by simp [hp])

/-! #### Histories of `add_task` calls -/

/-- What a history says: `n` was registered with `d` among its dependencies. -/
def DependsOn (tasks : List (Nat × List Nat)) (n d : Nat) : Prop := ∃ t ∈ tasks, t.1 = n ∧ d ∈ t.2

/-- What a history says: `n` was registered or mentioned as a dependency. -/
def Mentioned (tasks : List (Nat × List Nat)) (n : Nat) : Prop := ∃ t ∈ tasks, n = t.1 ∨ n ∈ t.2

theorem mem_addSet (l : List Nat) (x y : Nat) : y ∈ addSet l x ↔ y = x ∨ y ∈ l := by
  unfold addSet
  split
  · rename_i h; constructor
    · exact Or.inr
    · rintro (rfl | h'); exacts [h, h']
  · simp; tauto

theorem nodup_addSet {l : List Nat} (h : l.Nodup) (x : Nat) : (addSet l x).Nodup := by
  unfold addSet
  split
  · exact h
  · rename_i hx
    rw [List.nodup_append]
    refine ⟨h, by simp, ?_⟩
    rintro a ha b hb rfl
    simp at hb; subst hb; exact hx ha

theorem succ_set (g : Graph) (k n d : Nat) (s' ns : List Nat) :
    n ∈ Graph.succ ⟨s', g.deps.set k (g.succ k ++ [x]), ns⟩ d ↔ n ∈ g.succ d ∨ (d = k ∧ n = x) := by
  unfold Graph.succ
  simp only [Dict.get?_set]
  by_cases h : k = d
  · subst h; simp
  · simp [h, Ne.symm h]

theorem addDep_succ (node dep : Nat) (g : Graph) (n d : Nat) :
    n ∈ (addDep node g dep).succ d ↔ n ∈ g.succ d ∨ (d = dep ∧ n = node) := by
  unfold addDep
  simp only
  split
  · exact succ_set g dep n d _ _
  · exact succ_set g dep n d _ _

theorem addDep_nodes (node dep : Nat) (g : Graph) (n : Nat) :
    n ∈ (addDep node g dep).nodes ↔ n = dep ∨ n ∈ g.nodes := by
  unfold addDep
  simp only
  split
  · rename_i h; constructor
    · exact Or.inr
    · rintro (rfl | h'); exacts [h, h']
  · exact mem_addSet _ _ _

theorem addDep_sources (node dep : Nat) (g : Graph) (n : Nat) :
    n ∈ (addDep node g dep).sources ↔ n ∈ g.sources ∨ (n = dep ∧ dep ∉ g.nodes) := by
  unfold addDep
  simp only
  split
  · rename_i h; simp [h]
  · rename_i h
    simp only [mem_addSet, h, not_false_eq_true, and_true]
    tauto

theorem addDep_sources_nodup (node dep : Nat) {g : Graph} (h : g.sources.Nodup) :
    (addDep node g dep).sources.Nodup := by
  unfold addDep
  simp only
  split
  · exact h
  · exact nodup_addSet h _

theorem fold_succ (node : Nat) (deps : List Nat) (g : Graph) (n d : Nat) :
    n ∈ (deps.foldl (addDep node) g).succ d ↔ n ∈ g.succ d ∨ (d ∈ deps ∧ n = node) := by
  induction deps generalizing g with
  | nil => simp
  | cons e deps ih => rw [List.foldl_cons, ih, addDep_succ]; simp; tauto

theorem fold_nodes (node : Nat) (deps : List Nat) (g : Graph) (n : Nat) :
    n ∈ (deps.foldl (addDep node) g).nodes ↔ n ∈ deps ∨ n ∈ g.nodes := by
  induction deps generalizing g with
  | nil => simp
  | cons e deps ih => rw [List.foldl_cons, ih, addDep_nodes]; simp; tauto

theorem fold_sources (node : Nat) (deps : List Nat) (g : Graph) (n : Nat) :
    n ∈ (deps.foldl (addDep node) g).sources ↔ n ∈ g.sources ∨ (n ∈ deps ∧ n ∉ g.nodes) := by
  induction deps generalizing g with
  | nil => simp
  | cons e deps ih =>
    rw [List.foldl_cons, ih, addDep_sources, addDep_nodes]
    simp only [List.mem_cons]
    by_cases h : n = e
    · subst h; tauto
    · tauto

theorem fold_sources_nodup (node : Nat) (deps : List Nat) {g : Graph} (h : g.sources.Nodup) :
    (deps.foldl (addDep node) g).sources.Nodup := by
  induction deps generalizing g with
  | nil => exact h
  | cons e deps ih => exact ih (addDep_sources_nodup node e h)

theorem addTask_succ (g : Graph) (node : Nat) (deps : List Nat) (n d : Nat) :
    n ∈ (addTask g node deps).succ d ↔ n ∈ g.succ d ∨ (d ∈ deps ∧ n = node) := by
  unfold addTask
  simp only
  split
  · rename_i h; subst h; simp [Graph.succ]
  · rw [fold_succ]; rfl

theorem addTask_nodes (g : Graph) (node : Nat) (deps : List Nat) (n : Nat) :
    n ∈ (addTask g node deps).nodes ↔ n = node ∨ n ∈ deps ∨ n ∈ g.nodes := by
  unfold addTask
  simp only
  split
  · rename_i h; subst h; simp [mem_addSet]
  · rw [fold_nodes]; simp only [mem_addSet]; tauto

theorem addTask_sources (g : Graph) (node : Nat) (deps : List Nat) (n : Nat) :
    n ∈ (addTask g node deps).sources ↔
      (deps = [] ∧ (n = node ∨ n ∈ g.sources)) ∨
      (deps ≠ [] ∧ n ≠ node ∧ (n ∈ g.sources ∨ (n ∈ deps ∧ n ∉ g.nodes))) := by
  unfold addTask
  simp only
  split
  · rename_i h; subst h; simp [mem_addSet]
  · rename_i h
    rw [fold_sources]
    simp only [mem_addSet, List.mem_filter, decide_eq_true_eq, h, false_and, false_or, ne_eq, not_false_eq_true,
      true_and, not_or]
    tauto

theorem addTask_sources_nodup {g : Graph} (hg : g.sources.Nodup) (node : Nat) (deps : List Nat) :
    (addTask g node deps).sources.Nodup := by
  unfold addTask
  simp only
  split
  · exact nodup_addSet hg _
  · exact fold_sources_nodup _ _ (hg.filter _)

/-- The graph built by any history: recorded edges and nodes are those of the history, sources are unique, and
every node is a source or has a dependency. -/
theorem build_inv (tasks : List (Nat × List Nat)) :
    (∀ n d, n ∈ (build tasks).succ d ↔ DependsOn tasks n d) ∧
    (∀ n, n ∈ (build tasks).nodes ↔ Mentioned tasks n) ∧
    (build tasks).sources.Nodup ∧
    (∀ n, n ∈ (build tasks).nodes → n ∈ (build tasks).sources ∨ ∃ d, n ∈ (build tasks).succ d) := by
  induction tasks using List.reverseRecOn with
  | nil => simp [build, empty, Graph.succ, Dict.get?, DependsOn, Mentioned]
  | append_singleton ts t ih =>
    obtain ⟨i1, i2, i3, i4⟩ := ih
    have hb : build (ts ++ [t]) = addTask (build ts) t.1 t.2 := by simp [build]
    rw [hb]
    refine ⟨?_, ?_, addTask_sources_nodup i3 _ _, ?_⟩
    · intro n d
      rw [addTask_succ, i1]
      unfold DependsOn
      simp only [List.mem_append, List.mem_singleton]
      constructor
      · rintro (⟨t', h1, h2⟩ | ⟨h1, h2⟩)
        · exact ⟨t', Or.inl h1, h2⟩
        · exact ⟨t, Or.inr rfl, h2.symm, h1⟩
      · rintro ⟨t', h1 | rfl, h2, h3⟩
        · exact Or.inl ⟨t', h1, h2, h3⟩
        · exact Or.inr ⟨h3, h2.symm⟩
    · intro n
      rw [addTask_nodes, i2]
      unfold Mentioned
      simp only [List.mem_append, List.mem_singleton]
      constructor
      · rintro (h | h | ⟨t', h1, h2⟩)
        · exact ⟨t, Or.inr rfl, Or.inl h⟩
        · exact ⟨t, Or.inr rfl, Or.inr h⟩
        · exact ⟨t', Or.inl h1, h2⟩
      · rintro ⟨t', h1 | rfl, h2⟩
        · exact Or.inr (Or.inr ⟨t', h1, h2⟩)
        · tauto
    · intro n hn
      rw [addTask_nodes] at hn
      simp only [addTask_sources, addTask_succ]
      by_cases hd : t.2 = []
      · simp only [hd, List.not_mem_nil, false_or, true_and, false_and, or_false, ne_eq, not_true_eq_false] at hn ⊢
        rcases hn with rfl | hn
        · exact Or.inl (Or.inl rfl)
        · rcases i4 n hn with h | h
          · exact Or.inl (Or.inr h)
          · exact Or.inr h
      · by_cases hnt : n = t.1
        · obtain ⟨d, hdm⟩ := List.exists_mem_of_ne_nil _ hd
          exact Or.inr ⟨d, Or.inr ⟨hdm, hnt⟩⟩
        · by_cases hng : n ∈ (build ts).nodes
          · rcases i4 n hng with h | ⟨d, h⟩
            · exact Or.inl (Or.inr ⟨hd, hnt, Or.inl h⟩)
            · exact Or.inr ⟨d, Or.inl h⟩
          · have : n ∈ t.2 := by tauto
            exact Or.inl (Or.inr ⟨hd, hnt, Or.inr ⟨this, hng⟩⟩)

/-- C12: for every history of `add_task` calls whose dependencies are acyclic, every registered or mentioned node
is yielded, and nothing else. (Acyclicity is expressed by a ranking of the nodes.) -/
theorem C12_yields_all (tasks : List (Nat × List Nat)) (rank : Nat → Nat)
    (hac : ∀ n d, DependsOn tasks n d → rank d < rank n) (n : Nat) :
    n ∈ iter (build tasks) ↔ Mentioned tasks n := by
  obtain ⟨i1, i2, i3, i4⟩ := build_inv tasks
  have hsrcnodes : ∀ (ts : List (Nat × List Nat)) s, s ∈ (build ts).sources → s ∈ (build ts).nodes := by
    intro ts
    induction ts using List.reverseRecOn with
    | nil => simp [build, empty]
    | append_singleton ts t ih =>
      intro s
      have hb : build (ts ++ [t]) = addTask (build ts) t.1 t.2 := by simp [build]
      rw [hb, addTask_nodes, addTask_sources]
      have := ih s
      tauto
  rw [C12_yields_reachable]
  constructor
  · rintro ⟨s, hs, hr⟩
    cases hr with
    | refl => exact (i2 _).1 (hsrcnodes tasks _ hs)
    | tail _ h =>
      obtain ⟨t, ht, h1, h2⟩ := (i1 _ _).1 h
      exact ⟨t, ht, Or.inl h1.symm⟩
  · intro hm
    have key : ∀ (r n : Nat), rank n = r → n ∈ (build tasks).nodes →
        ∃ s ∈ (build tasks).sources, Relation.ReflTransGen (fun d n => n ∈ (build tasks).succ d) s n := by
      intro r
      induction r using Nat.strong_induction_on with
      | _ r ih =>
        intro n hr hn
        rcases i4 n hn with h | ⟨d, h⟩
        · exact ⟨n, h, .refl⟩
        · have hdep := (i1 n d).1 h
          obtain ⟨t, ht, h1, h2⟩ := hdep
          obtain ⟨s, hs, hp⟩ := ih (rank d) (hr ▸ hac n d ⟨t, ht, h1, h2⟩) d rfl
            ((i2 d).2 ⟨t, ht, Or.inr h2⟩)
          exact ⟨s, hs, hp.tail h⟩
    exact key _ n rfl ((i2 n).2 hm)

/-- C12 partial: for every history that registers each node at most once, no node is yielded twice (cyclic or
not). Missing: histories that register a node again, see `C12_once_violated`. -/
theorem C12_once_partial (tasks : List (Nat × List Nat)) (hu : (tasks.map Prod.fst).Nodup) :
    (iter (build tasks)).Nodup := by
  have hs : ∀ (ts : List (Nat × List Nat)), (ts.map Prod.fst).Nodup →
      ∀ s ∈ (build ts).sources, ∀ d, s ∉ (build ts).succ d := by
    intro ts
    induction ts using List.reverseRecOn with
    | nil => simp [build, empty]
    | append_singleton ts t ih =>
      intro hu s hs d hd
      rw [List.map_append, List.nodup_append] at hu
      obtain ⟨hu1, _, hu2⟩ := hu
      have hfresh : ∀ d, t.1 ∉ (build ts).succ d := by
        intro d hd
        obtain ⟨t', ht', h1, _⟩ := ((build_inv ts).1 t.1 d).1 hd
        exact hu2 t'.1 (List.mem_map_of_mem ht') t.1 (by simp) h1
      have hb : build (ts ++ [t]) = addTask (build ts) t.1 t.2 := by simp [build]
      rw [hb] at hs hd
      rw [addTask_succ] at hd
      rw [addTask_sources] at hs
      rcases hd with hd | ⟨hd1, rfl⟩
      · have hns : s ∉ (build ts).sources := fun h => ih hu1 s h d hd
        rcases hs with ⟨_, rfl | h⟩ | ⟨_, _, h | ⟨h1, h2⟩⟩
        · exact hfresh d hd
        · exact hns h
        · exact hns h
        · apply h2
          obtain ⟨t', ht', h3, _⟩ := ((build_inv ts).1 s d).1 hd
          exact ((build_inv ts).2.1 s).2 ⟨t', ht', Or.inl h3.symm⟩
      · rcases hs with ⟨h, _⟩ | ⟨_, h, _⟩
        · rw [h] at hd1; simp at hd1
        · exact h rfl
  exact (iterFrom_nodup (build tasks) _ [] (build_inv tasks).2.2.1 (hs tasks hu) (by simp)).1

example : ([(0, []), (1, [0]), (2, [0, 1])].map (Prod.fst : Nat × List Nat → Nat)).Nodup ∧
    ∀ n d, DependsOn [(0, []), (1, [0]), (2, [0, 1])] n d → d < n := by
  refine ⟨by decide, ?_⟩
  rintro n d ⟨t, ht, rfl, hd⟩
  simp at ht
  rcases ht with rfl | rfl | rfl <;> simp at hd <;> omega

/-- C12 partial: for every history that registers each node at most once and with at most one dependency, every
node is yielded after its dependency. -/
theorem C12_history_order_partial (tasks : List (Nat × List Nat)) (hu : (tasks.map Prod.fst).Nodup)
    (h1 : ∀ t ∈ tasks, t.2.length ≤ 1) (a : List Nat) (y : Nat) (b : List Nat)
    (h : iter (build tasks) = a ++ y :: b) (d : Nat) (hd : DependsOn tasks y d) : d ∈ a := by
  obtain ⟨i1, i2, i3, i4⟩ := build_inv tasks
  have hone : ∀ n d e, n ∈ (build tasks).succ d → n ∈ (build tasks).succ e → d = e := by
    intro n d e hd he
    obtain ⟨t, ht, h2, h3⟩ := (i1 n d).1 hd
    obtain ⟨t', ht', h2', h3'⟩ := (i1 n e).1 he
    have : t = t' := List.inj_on_of_nodup_map hu ht ht' (h2.trans h2'.symm)
    subst this
    have hl := h1 t ht
    match hm : t.2, hl, h3, h3' with
    | [x], _, h3, h3' => simp at h3 h3'; rw [h3, h3']
  rcases C12_some_dependency_partial _ a y b h with hs | ⟨e, he, hy⟩
  · exfalso
    have hn := C12_once_partial tasks hu
    -- a source with a dependency would have to be registered twice
    have hsrc : ∀ (ts : List (Nat × List Nat)), (ts.map Prod.fst).Nodup →
        ∀ s ∈ (build ts).sources, ∀ t ∈ ts, t.1 = s → t.2 = [] := by
      intro ts
      induction ts using List.reverseRecOn with
      | nil => simp
      | append_singleton ts t ih =>
        intro hu s hs t' ht' hts
        rw [List.map_append, List.nodup_append] at hu
        obtain ⟨hu1, _, hu2⟩ := hu
        have hb : build (ts ++ [t]) = addTask (build ts) t.1 t.2 := by simp [build]
        rw [hb, addTask_sources] at hs
        simp only [List.mem_append, List.mem_singleton] at ht'
        rcases ht' with ht' | rfl
        · have hne : s ≠ t.1 := by
            rintro rfl; exact hu2 t'.1 (List.mem_map_of_mem ht') t.1 (by simp) hts
          have hin : s ∈ (build ts).sources := by
            rcases hs with ⟨_, h | h⟩ | ⟨_, _, h | ⟨_, h⟩⟩
            · exact absurd h hne
            · exact h
            · exact h
            · exact absurd (((build_inv ts).2.1 s).2 ⟨t', ht', Or.inl hts.symm⟩) h
          exact ih hu1 s hin t' ht' hts
        · rcases hs with ⟨h, _⟩ | ⟨_, h, _⟩
          · exact h
          · exact absurd hts.symm h
    obtain ⟨t, ht, h2, h3⟩ := hd
    rw [hsrc tasks hu y hs t ht h2] at h3
    simp at h3
  · rw [hone y d e ((i1 y d).2 hd) hy]; exact he

end PB.DepProps
