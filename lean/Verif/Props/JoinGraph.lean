import Mathlib.Logic.Relation
import Mathlib.Data.List.Dedup
import Mathlib.Data.Finset.Card
import Mathlib.Tactic.Tauto
import Verif.Model.JoinGraph

/-! Properties of the join graph: bookkeeping and join paths (C30), indexes (C103). -/

set_option linter.unusedSimpArgs false
set_option linter.unusedVariables false
set_option linter.unusedSectionVars false
set_option linter.unnecessarySimpa false

namespace PB.JoinGraphProps

open PB PB.JoinGraph

/-! ### Specification -/

/-- The predicate joins the two tables, in either direction. -/
def Connects (a b : Nat) (j : Col × Col) : Prop := (j.1.tab = a ∧ j.2.tab = b) ∨ (j.1.tab = b ∧ j.2.tab = a)

instance (a b : Nat) (j : Col × Col) : Decidable (Connects a b j) := by unfold Connects; infer_instance

/-- All join predicates between two tables. -/
def condBetween (joins : Cond) (a b : Nat) : Cond := joins.filter fun j => decide (Connects a b j)

/-- A list of join predicates for a list of tables: all tables are known, and each predicate joins two different tables. -/
structure ValidJoins (tables : List Nat) (joins : Cond) : Prop where
  nodup : tables.Nodup
  known : ∀ j ∈ joins, j.1.tab ∈ tables ∧ j.2.tab ∈ tables
  differ : ∀ j ∈ joins, j.1.tab ≠ j.2.tab

/-- A state of a join graph that is reached by marking the tables of `calls`. -/
def Reached (tables : List Nat) (joins extra : Cond) (index : Col → Index) (ord : List Nat → List Nat)
    (calls : List (Nat × Option Cond)) (g : JG) : Prop :=
  (JG.build tables joins extra index).run ord calls = some g

/-! ### Construction of the graph -/

theorem connects_iff (a b : Nat) (j : Col × Col) : Connects a b j ↔ ({j.1.tab, j.2.tab} : Finset Nat) = {a, b} := by
  unfold Connects
  constructor
  · rintro (⟨h1, h2⟩ | ⟨h1, h2⟩)
    · rw [h1, h2]
    · rw [h1, h2, Finset.pair_comm]
  · intro h
    have h1 : j.1.tab ∈ ({a, b} : Finset Nat) := h ▸ by simp
    have h2 : j.2.tab ∈ ({a, b} : Finset Nat) := h ▸ by simp
    have h3 : a ∈ ({j.1.tab, j.2.tab} : Finset Nat) := h ▸ by simp
    have h4 : b ∈ ({j.1.tab, j.2.tab} : Finset Nat) := h ▸ by simp
    simp only [Finset.mem_insert, Finset.mem_singleton] at h1 h2 h3 h4
    rcases h1 with h1 | h1 <;> rcases h2 with h2 | h2
    · rcases h4 with h4 | h4
      · exact .inl ⟨h1, by omega⟩
      · exact .inl ⟨h1, by omega⟩
    · exact .inl ⟨h1, h2⟩
    · exact .inr ⟨h1, h2⟩
    · rcases h3 with h3 | h3
      · exact .inl ⟨by omega, h2⟩
      · exact .inl ⟨by omega, h2⟩

theorem get?_addPred (m : Dict (Finset Nat) Cond) (l : Cond) (k : Finset Nat) :
    Dict.get? (l.foldl addPred m) k =
      if l.filter (fun j => decide (({j.1.tab, j.2.tab} : Finset Nat) = k)) = [] then Dict.get? m k
      else some ((Dict.get? m k).getD [] ++ l.filter fun j => decide (({j.1.tab, j.2.tab} : Finset Nat) = k)) := by
  induction l generalizing m with
  | nil => simp
  | cons j l ih =>
    rw [List.foldl_cons, ih]
    unfold addPred
    rw [Dict.get?_set]
    by_cases hk : ({j.1.tab, j.2.tab} : Finset Nat) = k
    · rw [if_pos hk, List.filter_cons_of_pos (by simpa using hk), hk]
      by_cases hn : l.filter (fun j => decide (({j.1.tab, j.2.tab} : Finset Nat) = k)) = []
      · simp [hn]
      · simp [hn]
    · rw [if_neg hk, List.filter_cons_of_neg (by simpa using hk)]

theorem wf_addPred (m : Dict (Finset Nat) Cond) (l : Cond) (h : Dict.WF m) : Dict.WF (l.foldl addPred m) := by
  induction l generalizing m with
  | nil => exact h
  | cons j l ih => exact ih _ (Dict.WF_set h _ _)

theorem mem_preds (l : Cond) (k : Finset Nat) (c : Cond) :
    (k, c) ∈ l.foldl addPred [] ↔ c = l.filter (fun j => decide (({j.1.tab, j.2.tab} : Finset Nat) = k)) ∧ c ≠ [] := by
  rw [← Dict.get?_iff_mem (wf_addPred [] l Dict.WF_nil), get?_addPred]
  split
  · rename_i h
    rw [h]
    simp only [Dict.get?, reduceCtorEq, false_iff, not_and, not_not]
    exact fun h => h
  · rename_i h
    simp only [Dict.get?, Option.getD_none, List.nil_append, Option.some.injEq]
    constructor
    · rintro rfl; exact ⟨rfl, h⟩
    · rintro ⟨h1, -⟩; exact h1.symm

/-- The edges of a new graph. -/
theorem mem_edges (tables : List Nat) (joins extra : Cond) (index : Col → Index) (a b : Nat) (c : Cond) :
    (a, b, c) ∈ (JG.build tables joins extra index).edges ↔
      c = condBetween (joins ++ extra) a b ∧ ∃ j, c.head? = some j ∧ j.1.tab = a ∧ j.2.tab = b := by
  simp only [JG.build, List.mem_filterMap, edgeOf, Prod.exists, Option.map_eq_some_iff]
  constructor
  · rintro ⟨k, c', hm, j1, j2, hj, he⟩
    rw [mem_preds] at hm
    simp only [Prod.mk.injEq] at he
    obtain ⟨rfl, rfl, rfl⟩ := he
    obtain ⟨h1, h2⟩ := hm
    have hmem : (j1, j2) ∈ c' := List.mem_of_head? hj
    have hk : ({j1.tab, j2.tab} : Finset Nat) = k := by
      rw [h1] at hmem
      simpa using (List.mem_filter.1 hmem).2
    refine ⟨?_, j1, j2, hj, rfl, rfl⟩
    rw [h1]
    unfold condBetween
    refine List.filter_congr fun x _ => ?_
    rw [decide_eq_decide, connects_iff, hk]
  · rintro ⟨hc, j1, j2, hj, rfl, rfl⟩
    refine ⟨{j1.tab, j2.tab}, c, ?_, j1, j2, hj, rfl⟩
    rw [mem_preds]
    refine ⟨?_, ?_⟩
    · rw [hc]
      unfold condBetween
      refine List.filter_congr fun x _ => ?_
      rw [decide_eq_decide, connects_iff]
    · rintro rfl; simp at hj

theorem connects_symm (a b : Nat) (j : Col × Col) : Connects a b j ↔ Connects b a j := by
  unfold Connects; tauto

theorem condBetween_symm (joins : Cond) (a b : Nat) : condBetween joins a b = condBetween joins b a := by
  unfold condBetween
  exact List.filter_congr fun x _ => by rw [decide_eq_decide, connects_symm]

theorem between_iff (a b : Nat) (e : Nat × Nat × Cond) : between a b e = true ↔ (e.1 = a ∧ e.2.1 = b) ∨ (e.1 = b ∧ e.2.1 = a) := by
  simp [between]

/-- There is an edge between two tables (in one of the directions) iff there is a join predicate. -/
theorem edge_iff (tables : List Nat) (joins extra : Cond) (index : Col → Index) (a b : Nat) :
    (∃ c, (a, b, c) ∈ (JG.build tables joins extra index).edges ∨ (b, a, c) ∈ (JG.build tables joins extra index).edges) ↔
      condBetween (joins ++ extra) a b ≠ [] := by
  constructor
  · rintro ⟨c, h | h⟩
    · rw [mem_edges] at h
      obtain ⟨hc, j, hj, -⟩ := h
      rw [← hc]; rintro rfl; simp at hj
    · rw [mem_edges] at h
      obtain ⟨hc, j, hj, -⟩ := h
      rw [condBetween_symm, ← hc]; rintro rfl; simp at hj
  · intro h
    obtain ⟨j, hj⟩ := Option.isSome_iff_exists.1 (List.isSome_head?.2 h)
    have hm : j ∈ condBetween (joins ++ extra) a b := List.mem_of_head? hj
    have hcon : Connects a b j := by simpa using (List.mem_filter.1 hm).2
    refine ⟨condBetween (joins ++ extra) a b, ?_⟩
    rcases hcon with ⟨h1, h2⟩ | ⟨h1, h2⟩
    · exact .inl ((mem_edges ..).2 ⟨rfl, j, hj, h1, h2⟩)
    · exact .inr ((mem_edges ..).2 ⟨condBetween_symm _ _ _, j, hj, h1, h2⟩)

/-! ### Histories -/

theorem partnerStep_fixed (c : Cond) (s : JG × Nat) (p : Nat) :
    (partnerStep c s p).1.nodes = s.1.nodes ∧ (partnerStep c s p).1.edges = s.1.edges ∧
    (partnerStep c s p).1.qjoins = s.1.qjoins := by
  unfold partnerStep
  simp only
  split
  · exact ⟨rfl, rfl, rfl⟩
  · split <;> exact ⟨rfl, rfl, rfl⟩

theorem foldPartner_fixed (c : Cond) (l : List Nat) (s : JG × Nat) :
    (l.foldl (partnerStep c) s).1.nodes = s.1.nodes ∧ (l.foldl (partnerStep c) s).1.edges = s.1.edges ∧
    (l.foldl (partnerStep c) s).1.qjoins = s.1.qjoins := by
  induction l generalizing s with
  | nil => exact ⟨rfl, rfl, rfl⟩
  | cons p l ih =>
    obtain ⟨h1, h2, h3⟩ := ih (partnerStep c s p)
    obtain ⟨g1, g2, g3⟩ := partnerStep_fixed c s p
    exact ⟨h1.trans g1, h2.trans g2, h3.trans g3⟩

/-- What `mark_joined` changes, besides the indexes. -/
theorem markJoined_fixed (g g' : JG) (ord : List Nat → List Nat) (t : Nat) (edge : Option Cond)
    (h : g.markJoined ord t edge = some g') :
    t ∈ Dict.keys g.nodes ∧ g'.nodes = Dict.set g.nodes t false ∧ g'.edges = g.edges ∧ g'.qjoins = g.qjoins := by
  unfold JG.markJoined at h
  split at h
  · simp at h
  · rename_i hk
    have hk' : t ∈ Dict.keys g.nodes := by
      rw [← Dict.has_iff]; simpa using hk
    refine ⟨hk', ?_⟩
    simp only at h
    split at h
    · simp only [Option.some.injEq] at h; subst h; exact ⟨rfl, rfl, rfl⟩
    · split at h
      · simp only [Option.some.injEq] at h; subst h; exact ⟨rfl, rfl, rfl⟩
      · simp only [Option.some.injEq] at h
        subst h
        exact foldPartner_fixed _ _ _

theorem keys_set_of_mem (d : Dict Nat Bool) (k : Nat) (v : Bool) (h : k ∈ Dict.keys d) : Dict.keys (Dict.set d k v) = Dict.keys d := by
  induction d with
  | nil => simp at h
  | cons e d ih =>
    obtain ⟨a, w⟩ := e
    unfold Dict.set
    split
    · rfl
    · rename_i hne
      rw [Dict.keys_cons, Dict.keys_cons, ih]
      rw [Dict.keys_cons] at h
      exact (List.mem_cons.1 h).resolve_left (fun he => hne he.symm)

/-- The nodes of a graph: exactly the marked tables are not free. -/
structure Marked (tables : List Nat) (marked : List Nat) (g : JG) : Prop where
  keys : Dict.keys g.nodes = tables
  flag : ∀ t ∈ tables, Dict.get? g.nodes t = some (decide (t ∉ marked))

theorem marked_build (tables : List Nat) (joins extra : Cond) (index : Col → Index) :
    Marked tables [] (JG.build tables joins extra index) := by
  have hk : Dict.keys (JG.build tables joins extra index).nodes = tables := by
    simp [JG.build, Dict.keys, Function.comp_def]
  refine ⟨hk, fun t ht => ?_⟩
  have : ∀ l : List Nat, t ∈ l → Dict.get? (l.map fun t => (t, true)) t = some true := by
    intro l hl
    induction l with
    | nil => simp at hl
    | cons a l ih =>
      by_cases h : a = t
      · simp [Dict.get?, h]
      · simp only [List.map_cons, Dict.get?, if_neg h]
        exact ih ((List.mem_cons.1 hl).resolve_left fun he => h he.symm)
  simpa [JG.build] using this tables ht

theorem run_cons (ord : List Nat → List Nat) (g : JG) (e : Nat × Option Cond) (calls : List (Nat × Option Cond)) :
    g.run ord (e :: calls) = (g.markJoined ord e.1 e.2).bind fun g => g.run ord calls := by
  simp [JG.run]

theorem run_marked (tables : List Nat) (ord : List Nat → List Nat) (calls : List (Nat × Option Cond)) (marked : List Nat) (g g' : JG)
    (hm : Marked tables marked g) (h : g.run ord calls = some g') :
    Marked tables (marked ++ calls.map (·.1)) g' ∧ g'.edges = g.edges ∧ (∀ e ∈ calls, e.1 ∈ tables) := by
  induction calls generalizing marked g with
  | nil =>
    simp only [JG.run, List.foldlM_nil, Option.pure_def, Option.some.injEq] at h
    subst h
    exact ⟨by simpa using hm, rfl, by simp⟩
  | cons e calls ih =>
    rw [run_cons] at h
    obtain ⟨g1, h1, h2⟩ := Option.bind_eq_some_iff.1 h
    obtain ⟨hk, hn, he, -⟩ := markJoined_fixed _ _ _ _ _ h1
    have hm1 : Marked tables (marked ++ [e.1]) g1 := by
      refine ⟨by rw [hn, keys_set_of_mem _ _ _ hk, hm.keys], fun t ht => ?_⟩
      rw [hn, Dict.get?_set]
      split
      · rename_i h; simp [h]
      · rename_i h
        rw [hm.flag t ht]
        have h' : t ≠ e.1 := fun he => h he.symm
        simp [h']
    obtain ⟨g2, g3, g4⟩ := ih (marked ++ [e.1]) g1 hm1 h2
    refine ⟨by simpa using g2, g3.trans he, ?_⟩
    intro x hx
    rcases List.mem_cons.1 hx with rfl | hx
    · rw [hm.keys] at hk; exact hk
    · exact g4 x hx

theorem run_isSome (tables : List Nat) (ord : List Nat → List Nat) (calls : List (Nat × Option Cond)) (marked : List Nat) (g : JG)
    (hm : Marked tables marked g) (h : ∀ e ∈ calls, e.1 ∈ tables) : ∃ g', g.run ord calls = some g' := by
  induction calls generalizing marked g with
  | nil => exact ⟨g, rfl⟩
  | cons e calls ih =>
    have hs : ∃ g1, g.markJoined ord e.1 e.2 = some g1 := by
      have hk : Dict.has g.nodes e.1 = true := by
        rw [Dict.has_iff, hm.keys]; exact h e (by simp)
      unfold JG.markJoined
      rw [hk]
      simp only [Bool.not_true, Bool.false_eq_true, if_false]
      split
      · exact ⟨_, rfl⟩
      · split <;> exact ⟨_, rfl⟩
    obtain ⟨g1, h1⟩ := hs
    have hr : g.run ord [e] = some g1 := by simp [JG.run, h1]
    obtain ⟨hm1, -, -⟩ := run_marked tables ord [e] marked g g1 hm hr
    obtain ⟨g', h2⟩ := ih _ g1 hm1 fun x hx => h x (by simp [hx])
    exact ⟨g', by rw [run_cons, h1]; exact h2⟩

theorem isFree_marked {tables marked : List Nat} {g : JG} (hm : Marked tables marked g) (t : Nat) (ht : t ∈ tables) :
    g.isFree t = decide (t ∉ marked) := by simp [JG.isFree, hm.flag t ht]

theorem mem_nodes_marked {tables marked : List Nat} {g : JG} (hm : Marked tables marked g) (hn : tables.Nodup) (t : Nat) (b : Bool) :
    (t, b) ∈ g.nodes ↔ t ∈ tables ∧ b = decide (t ∉ marked) := by
  rw [← Dict.get?_iff_mem (by unfold Dict.WF; rw [hm.keys]; exact hn)]
  constructor
  · intro h
    have ht : t ∈ tables := by
      rw [← hm.keys, ← Dict.get?_isSome, h]; rfl
    refine ⟨ht, ?_⟩
    rw [hm.flag t ht] at h
    simpa using h.symm
  · rintro ⟨ht, rfl⟩
    exact hm.flag t ht

theorem initial_marked {tables marked : List Nat} {g : JG} (hm : Marked tables marked g) (hn : tables.Nodup)
    (hs : ∀ t ∈ marked, t ∈ tables) : g.initial = true ↔ marked = [] := by
  unfold JG.initial
  rw [List.all_eq_true]
  constructor
  · intro h
    by_contra hne
    obtain ⟨t, ht⟩ := List.exists_mem_of_ne_nil _ hne
    have := h (t, false) ((mem_nodes_marked hm hn t false).2 ⟨hs t ht, by simp [ht]⟩)
    simp at this
  · rintro rfl e he
    have := (mem_nodes_marked hm hn e.1 e.2).1 he
    simpa using this.2

/-- **C30**: after any history of `mark_joined` calls, the consumed tables are exactly the marked ones and the free tables
are all others; the graph is initial iff nothing was marked; the counter and the test for free tables agree with this. A history is
possible iff it only contains tables of the query. -/
theorem C30_history (tables : List Nat) (joins extra : Cond) (index : Col → Index) (ord : List Nat → List Nat)
    (calls : List (Nat × Option Cond)) (hn : tables.Nodup) :
    ((∃ g, Reached tables joins extra index ord calls g) ↔ ∀ e ∈ calls, e.1 ∈ tables) ∧
    ∀ g, Reached tables joins extra index ord calls g →
      (∀ t, t ∈ g.joined ↔ t ∈ calls.map (·.1)) ∧
      (∀ t, t ∈ g.free ↔ t ∈ tables ∧ t ∉ calls.map (·.1)) ∧
      (g.initial = true ↔ calls = []) ∧
      (g.containsFree = true ↔ ∃ t ∈ tables, t ∉ calls.map (·.1)) ∧
      g.countConsumed = (calls.map (·.1)).toFinset.card := by
  have hb := marked_build tables joins extra index
  refine ⟨⟨fun ⟨g, h⟩ => (run_marked _ _ _ _ _ _ hb h).2.2, fun h => run_isSome _ _ _ _ _ hb h⟩, fun g hg => ?_⟩
  obtain ⟨hm, -, hs⟩ := run_marked _ _ _ _ _ _ hb hg
  rw [List.nil_append] at hm
  have hs' : ∀ t ∈ calls.map (·.1), t ∈ tables := by
    intro t ht
    obtain ⟨e, he, rfl⟩ := List.mem_map.1 ht
    exact hs e he
  refine ⟨?_, ?_, ?_, ?_, ?_⟩
  · intro t
    unfold JG.joined
    rw [List.mem_filter, hm.keys]
    constructor
    · rintro ⟨ht, h⟩
      rw [isFree_marked hm t ht] at h
      simpa using h
    · intro ht
      refine ⟨hs' t ht, ?_⟩
      rw [isFree_marked hm t (hs' t ht)]
      simpa using ht
  · intro t
    unfold JG.free
    rw [List.mem_filter, hm.keys]
    constructor
    · rintro ⟨ht, h⟩
      rw [isFree_marked hm t ht] at h
      exact ⟨ht, by simpa using h⟩
    · rintro ⟨ht, h⟩
      refine ⟨ht, ?_⟩
      rw [isFree_marked hm t ht]
      simpa using h
  · rw [initial_marked hm hn hs']; simp
  · unfold JG.containsFree
    rw [List.any_eq_true]
    constructor
    · rintro ⟨e, he, h⟩
      have := (mem_nodes_marked hm hn e.1 e.2).1 he
      rw [h] at this
      exact ⟨e.1, this.1, by simpa using this.2.symm⟩
    · rintro ⟨t, ht, h⟩
      exact ⟨(t, true), (mem_nodes_marked hm hn t true).2 ⟨ht, by simpa using h⟩, rfl⟩
  · unfold JG.countConsumed
    have hwf : (g.nodes.map (·.1)).Nodup := by
      have : g.nodes.map (·.1) = tables := hm.keys
      rw [this]; exact hn
    have hnd : ((g.nodes.filter fun e => !e.2).map (·.1)).Nodup := hwf.sublist ((List.filter_sublist).map _)
    rw [← List.length_map (f := (·.1)), ← List.toFinset_card_of_nodup hnd]
    congr 1
    ext t
    simp only [List.mem_toFinset, List.mem_map, List.mem_filter, Bool.not_eq_eq_eq_not, Bool.not_true, Prod.exists,
      exists_and_right, exists_eq_right]
    constructor
    · intro hb
      have := ((mem_nodes_marked hm hn t false).1 hb).2
      simpa using this
    · rintro ⟨x, hx⟩
      have ht : t ∈ calls.map (·.1) := List.mem_map.2 ⟨_, hx, rfl⟩
      exact (mem_nodes_marked hm hn t false).2 ⟨hs' t ht, by simpa using ht⟩

/-! ### Join paths -/

theorem edges_known {tables : List Nat} {joins extra : Cond} {index : Col → Index} (hv : ValidJoins tables (joins ++ extra))
    {a b : Nat} {c : Cond} (h : (a, b, c) ∈ (JG.build tables joins extra index).edges) : a ∈ tables ∧ b ∈ tables ∧ a ≠ b := by
  rw [mem_edges] at h
  obtain ⟨hc, j, hj, rfl, rfl⟩ := h
  have hm : j ∈ condBetween (joins ++ extra) j.1.tab j.2.tab := by rw [← hc]; exact List.mem_of_head? hj
  have := (List.mem_filter.1 hm).1
  exact ⟨(hv.known j this).1, (hv.known j this).2, hv.differ j this⟩

/-- **C30**: once the graph is not initial, the available join paths are exactly the paths from a consumed to a free
table that are joined by a predicate, and the path carries all predicates between the two tables. -/
theorem C30_paths (tables : List Nat) (joins extra : Cond) (index : Col → Index) (ord : List Nat → List Nat)
    (calls : List (Nat × Option Cond)) (hv : ValidJoins tables (joins ++ extra)) (hne : calls ≠ []) (g : JG)
    (hg : Reached tables joins extra index ord calls g) (both : Bool) (p : Path) :
    p ∈ g.availablePaths both ↔
      p.start ∈ calls.map (·.1) ∧ p.target ∈ tables ∧ p.target ∉ calls.map (·.1) ∧
      p.cond = condBetween (joins ++ extra) p.start p.target ∧ p.cond ≠ [] := by
  obtain ⟨hm, hed, hs⟩ := run_marked _ _ _ _ _ _ (marked_build tables joins extra index) hg
  rw [List.nil_append] at hm
  have hs' : ∀ t ∈ calls.map (·.1), t ∈ tables := by
    intro t ht
    obtain ⟨e, he, rfl⟩ := List.mem_map.1 ht
    exact hs e he
  have hini : g.initial = false := by
    rw [Bool.eq_false_iff]
    intro h
    rw [initial_marked hm hv.nodup hs'] at h
    exact hne (by simpa using h)
  unfold JG.availablePaths
  rw [hini]
  simp only [Bool.false_eq_true, if_false, List.mem_flatMap, hed, Prod.exists]
  obtain ⟨s, t, c⟩ := p
  simp only
  constructor
  · rintro ⟨a, b, c', he, hp⟩
    obtain ⟨ha, hb, hab⟩ := edges_known hv he
    have hcond := (mem_edges ..).1 he
    obtain ⟨hc', j, hj, -⟩ := hcond
    have hcne : c' ≠ [] := by rintro rfl; simp at hj
    unfold JG.dirtyPaths at hp
    simp only [isFree_marked hm a ha, isFree_marked hm b hb] at hp
    by_cases h1 : a ∈ calls.map (·.1) <;> by_cases h2 : b ∈ calls.map (·.1)
    · simp [h1, h2] at hp
    · simp only [h1, h2, not_true_eq_false, decide_false, not_false_eq_true, decide_true, Bool.false_and, Bool.false_eq_true,
        if_false, Bool.not_false, Bool.not_true, Bool.and_false, List.mem_singleton, Path.mk.injEq] at hp
      obtain ⟨rfl, rfl, rfl⟩ := hp
      exact ⟨h1, hb, h2, hc', hcne⟩
    · simp only [h1, h2, not_true_eq_false, decide_false, not_false_eq_true, decide_true, Bool.false_and, Bool.false_eq_true,
        if_false, Bool.not_false, Bool.not_true, Bool.and_false, Bool.and_true, if_true, List.mem_singleton, Path.mk.injEq] at hp
      obtain ⟨rfl, rfl, rfl⟩ := hp
      exact ⟨h2, ha, h1, by rw [hc', condBetween_symm], hcne⟩
    · simp [h1, h2] at hp
  · rintro ⟨h1, ht, h2, rfl, hcne⟩
    obtain ⟨c, hc⟩ := (edge_iff tables joins extra index s t).2 hcne
    have hst : s ∈ tables := hs' s h1
    rcases hc with hc | hc
    · have hcc := ((mem_edges ..).1 hc).1
      refine ⟨s, t, c, hc, ?_⟩
      unfold JG.dirtyPaths
      simp [isFree_marked hm s hst, isFree_marked hm t ht, h1, h2, hcc]
    · have hcc := ((mem_edges ..).1 hc).1
      refine ⟨t, s, c, hc, ?_⟩
      unfold JG.dirtyPaths
      rw [condBetween_symm] at hcc
      simp only [isFree_marked hm s hst, isFree_marked hm t ht, h1, h2, not_true_eq_false, decide_false, not_false_eq_true,
        decide_true, Bool.and_false, Bool.false_eq_true, if_false, Bool.not_true, Bool.false_and, if_true, List.mem_singleton, hcc]

/-- **C30**: in the initial graph, all joins are available: in both directions if requested, in one direction otherwise. -/
theorem C30_initial_paths (tables : List Nat) (joins extra : Cond) (index : Col → Index) (hv : ValidJoins tables (joins ++ extra))
    (p : Path) :
    (p ∈ (JG.build tables joins extra index).availablePaths true ↔
      p.cond = condBetween (joins ++ extra) p.start p.target ∧ p.cond ≠ []) ∧
    (p ∈ (JG.build tables joins extra index).availablePaths true ↔
      p ∈ (JG.build tables joins extra index).availablePaths false ∨
      ⟨p.target, p.start, p.cond⟩ ∈ (JG.build tables joins extra index).availablePaths false) := by
  have hini : (JG.build tables joins extra index).initial = true :=
    (initial_marked (marked_build tables joins extra index) hv.nodup (by simp)).2 rfl
  obtain ⟨s, t, c⟩ := p
  have key : ∀ (b : Bool) (s t : Nat) (c : Cond), (⟨s, t, c⟩ : Path) ∈ (JG.build tables joins extra index).availablePaths b ↔
      (s, t, c) ∈ (JG.build tables joins extra index).edges ∨ (b = true ∧ (t, s, c) ∈ (JG.build tables joins extra index).edges) := by
    intro b s t c
    unfold JG.availablePaths
    rw [hini, if_pos rfl, List.mem_flatMap]
    constructor
    · rintro ⟨⟨x, y, z⟩, he, hp⟩
      cases b
      · simp only [initialPaths, Bool.false_eq_true, if_false, List.mem_singleton, Path.mk.injEq] at hp
        obtain ⟨rfl, rfl, rfl⟩ := hp; exact .inl he
      · simp only [initialPaths, if_true, Path.flip, List.mem_cons, List.not_mem_nil, or_false, Path.mk.injEq] at hp
        rcases hp with ⟨rfl, rfl, rfl⟩ | ⟨rfl, rfl, rfl⟩
        · exact .inl he
        · exact .inr ⟨rfl, he⟩
    · rintro (h | ⟨rfl, h⟩)
      · exact ⟨(s, t, c), h, by cases b <;> simp [initialPaths]⟩
      · exact ⟨(t, s, c), h, by simp [initialPaths, Path.flip]⟩
  constructor
  · rw [key]
    simp only [true_and]
    constructor
    · rintro (h | h)
      · have := (mem_edges ..).1 h
        exact ⟨this.1, by obtain ⟨j, hj, -⟩ := this.2; rintro rfl; simp at hj⟩
      · have := (mem_edges ..).1 h
        exact ⟨this.1.trans (condBetween_symm _ _ _), by obtain ⟨j, hj, -⟩ := this.2; rintro rfl; simp at hj⟩
    · rintro ⟨rfl, hne⟩
      obtain ⟨c, hc⟩ := (edge_iff tables joins extra index s t).2 hne
      rcases hc with hc | hc
      · have := ((mem_edges ..).1 hc).1
        rw [← this]; exact .inl hc
      · have := ((mem_edges ..).1 hc).1
        rw [condBetween_symm, ← this]; exact .inr hc
  · simp only [key]
    simp

/-- Two tables are joined by a predicate. -/
def JoinedBy (joins : Cond) (a b : Nat) : Prop := ∃ j ∈ joins, Connects a b j

theorem joinedBy_iff (joins : Cond) (a b : Nat) : JoinedBy joins a b ↔ condBetween joins a b ≠ [] := by
  unfold JoinedBy condBetween
  rw [ne_eq, List.filter_eq_nil_iff]
  push Not
  simp

/-- If a path of a relation leaves a set, one of its steps does. -/
theorem leave {R : Nat → Nat → Prop} {a b : Nat} (h : Relation.ReflTransGen R a b) (S : List Nat) (ha : a ∈ S) (hb : b ∉ S) :
    ∃ x y, x ∈ S ∧ y ∉ S ∧ R x y := by
  induction h with
  | refl => exact absurd ha hb
  | tail h1 h2 ih =>
    rename_i b' c'
    by_cases hb' : b' ∈ S
    · exact ⟨b', c', hb', hb, h2⟩
    · exact ih hb'

/-- **C30**: no dead ends. If the join predicates connect all tables, an available join path exists as long as there are
free tables and at least one consumed one, whatever was joined before. -/
theorem C30_progress (tables : List Nat) (joins extra : Cond) (index : Col → Index) (ord : List Nat → List Nat)
    (calls : List (Nat × Option Cond)) (hv : ValidJoins tables (joins ++ extra))
    (hc : ∀ a ∈ tables, ∀ b ∈ tables, Relation.ReflTransGen (JoinedBy (joins ++ extra)) a b) (hne : calls ≠ []) (g : JG)
    (hg : Reached tables joins extra index ord calls g) (hf : g.containsFree = true) (both : Bool) :
    g.availablePaths both ≠ [] := by
  obtain ⟨h1, h2⟩ := C30_history tables joins extra index ord calls hv.nodup
  obtain ⟨-, -, -, h3, -⟩ := h2 g hg
  have hall := h1.1 ⟨g, hg⟩
  obtain ⟨t, ht, htn⟩ := h3.1 hf
  obtain ⟨e, he⟩ := List.exists_mem_of_ne_nil _ hne
  obtain ⟨x, y, hx, hy, hxy⟩ := leave (hc e.1 (hall e he) t ht) (calls.map (·.1)) (List.mem_map.2 ⟨e, he, rfl⟩) htn
  have hyt : y ∈ tables := by
    obtain ⟨j, hj, hj2⟩ := hxy
    rcases hj2 with ⟨-, rfl⟩ | ⟨rfl, -⟩
    · exact (hv.known j hj).2
    · exact (hv.known j hj).1
  have := (C30_paths tables joins extra index ord calls hv hne g hg both ⟨x, y, condBetween (joins ++ extra) x y⟩).2
    ⟨hx, hyt, hy, rfl, (joinedBy_iff _ _ _).1 hxy⟩
  exact List.ne_nil_of_mem this

theorem joinsTables_iff {tables : List Nat} {joins extra : Cond} {index : Col → Index} {g : JG}
    (hed : g.edges = (JG.build tables joins extra index).edges) (a b : Nat) :
    g.joinsTables a b = true ↔ JoinedBy (joins ++ extra) a b := by
  rw [joinedBy_iff, ← edge_iff tables joins extra index, ← hed]
  unfold JG.joinsTables
  rw [List.any_eq_true]
  constructor
  · rintro ⟨⟨x, y, c⟩, he, h⟩
    rw [between_iff] at h
    rcases h with ⟨rfl, rfl⟩ | ⟨rfl, rfl⟩
    · exact ⟨c, .inl he⟩
    · exact ⟨c, .inr he⟩
  · rintro ⟨c, h | h⟩
    · exact ⟨_, h, by simp [between]⟩
    · exact ⟨_, h, by simp [between]⟩

/-- **C30**: a join of two tables of the query is available iff there is a predicate and the graph is initial or exactly one
of the tables is free. -/
theorem C30_is_available (tables : List Nat) (joins extra : Cond) (index : Col → Index) (ord : List Nat → List Nat)
    (calls : List (Nat × Option Cond)) (hv : ValidJoins tables (joins ++ extra)) (g : JG)
    (hg : Reached tables joins extra index ord calls g) (a b : Nat) (ha : a ∈ tables) (hb : b ∈ tables) :
    g.isAvailable a b = true ↔
      JoinedBy (joins ++ extra) a b ∧ (calls = [] ∨ (a ∈ calls.map (·.1) ∧ b ∉ calls.map (·.1)) ∨
        (a ∉ calls.map (·.1) ∧ b ∈ calls.map (·.1))) := by
  obtain ⟨hm, hed, hs⟩ := run_marked _ _ _ _ _ _ (marked_build tables joins extra index) hg
  rw [List.nil_append] at hm
  have hini : g.initial = true ↔ calls = [] :=
    ((C30_history tables joins extra index ord calls hv.nodup).2 g hg).2.2.1
  unfold JG.isAvailable
  simp only [Bool.and_eq_true, Bool.or_eq_true, joinsTables_iff hed, isFree_marked hm a ha, isFree_marked hm b hb, hini,
    Bool.not_eq_eq_eq_not, Bool.not_true, decide_eq_true_eq, decide_eq_false_iff_not, not_not]
  tauto

/-! ### n:m joins -/

theorem edge_unique {tables : List Nat} {joins extra : Cond} {index : Col → Index} {a b : Nat} {c : Cond}
    (h : (a, b, c) ∈ (JG.build tables joins extra index).edges) : c = condBetween (joins ++ extra) a b :=
  ((mem_edges ..).1 h).1

theorem edgeCond_eq {tables : List Nat} {joins extra : Cond} {index : Col → Index} {g : JG}
    (hed : g.edges = (JG.build tables joins extra index).edges) (a b : Nat) (h : JoinedBy (joins ++ extra) a b) :
    g.edgeCond a b = some (condBetween (joins ++ extra) a b) := by
  unfold JG.edgeCond
  cases hf : g.edges.find? (between a b) with
  | none =>
    rw [List.find?_eq_none] at hf
    have h2 := (joinsTables_iff hed a b).2 h
    unfold JG.joinsTables at h2
    rw [List.any_eq_true] at h2
    obtain ⟨e, he, hb⟩ := h2
    exact absurd hb (hf e he)
  | some e =>
    have hm := List.mem_of_find?_eq_some hf
    have hb := List.find?_some hf
    obtain ⟨x, y, c⟩ := e
    rw [hed] at hm
    rw [between_iff] at hb
    simp only [Option.map_some, Option.some.injEq]
    rcases hb with ⟨rfl, rfl⟩ | ⟨rfl, rfl⟩
    · exact edge_unique hm
    · rw [edge_unique hm, condBetween_symm]

theorem edgeCond_none {tables : List Nat} {joins extra : Cond} {index : Col → Index} {g : JG}
    (hed : g.edges = (JG.build tables joins extra index).edges) (a b : Nat) (h : ¬ JoinedBy (joins ++ extra) a b) :
    g.edgeCond a b = none := by
  unfold JG.edgeCond
  rw [Option.map_eq_none_iff, List.find?_eq_none]
  intro e he hb
  exact h ((joinsTables_iff hed a b).1 (List.any_eq_true.2 ⟨e, he, hb⟩))

/-- The column of a table in a predicate (specification). -/
def side (t : Nat) (j : Col × Col) : Col := if j.1.tab = t then j.1 else j.2

/-- A usable index. -/
def Usable (i : Index) : Prop := i.invalid = false ∧ (i.kind = .primary ∨ i.kind = .secondary)

/-- A usable primary key index. -/
def UsablePK (i : Index) : Prop := i.invalid = false ∧ i.kind = .primary

theorem isIndexed_iff (i : Index) : i.isIndexed = true ↔ Usable i := by
  obtain ⟨k, v⟩ := i
  cases k <;> cases v <;> simp [Index.isIndexed, Index.isPrimary, Index.isSecondary, Usable]

theorem isPrimary_iff (i : Index) : i.isPrimary = true ↔ UsablePK i := by
  obtain ⟨k, v⟩ := i
  cases k <;> cases v <;> simp [Index.isPrimary, UsablePK]

/-- **C30**: a join is a primary key/foreign key join iff some predicate between the tables compares a usable index of the
foreign key table with a usable primary key of the other table. -/
theorem C30_pk_fk (tables : List Nat) (joins extra : Cond) (index : Col → Index) (ord : List Nat → List Nat)
    (calls : List (Nat × Option Cond)) (g : JG) (hg : Reached tables joins extra index ord calls g) (fk pk : Nat) :
    g.isPkFk fk pk = true ↔
      ∃ j ∈ joins ++ extra, Connects fk pk j ∧ Usable (g.idx (side fk j)) ∧ UsablePK (g.idx (side pk j)) := by
  obtain ⟨-, hed, -⟩ := run_marked _ _ _ _ _ _ (marked_build tables joins extra index) hg
  unfold JG.isPkFk
  by_cases h : JoinedBy (joins ++ extra) fk pk
  · rw [edgeCond_eq hed fk pk h]
    simp only [List.any_eq_true, Bool.and_eq_true, isIndexed_iff, isPrimary_iff, condBetween, List.mem_filter, decide_eq_true_eq]
    constructor
    · rintro ⟨j, ⟨h1, h2⟩, h3⟩; exact ⟨j, h1, h2, h3⟩
    · rintro ⟨j, h1, h2, h3⟩; exact ⟨j, ⟨h1, h2⟩, h3⟩
  · rw [edgeCond_none hed fk pk h]
    simp only [Bool.false_eq_true, false_iff]
    rintro ⟨j, h1, h2, -⟩
    exact h ⟨j, h1, h2⟩

/-- **C30**: `is_n_m_join` holds for two tables iff the query joins them and no join predicate between them relates a usable
index of one table to a usable primary key of the other one. -/
theorem C30_n_m (tables : List Nat) (joins extra : Cond) (index : Col → Index) (ord : List Nat → List Nat)
    (calls : List (Nat × Option Cond)) (g : JG) (hg : Reached tables joins extra index ord calls g) (a b : Nat) :
    g.isNM a b = true ↔ JoinedBy (joins ++ extra) a b ∧
      (∀ j ∈ joins ++ extra, Connects a b j → ¬ (Usable (g.idx (side a j)) ∧ UsablePK (g.idx (side b j)))) ∧
      (∀ j ∈ joins ++ extra, Connects b a j → ¬ (Usable (g.idx (side b j)) ∧ UsablePK (g.idx (side a j)))) := by
  obtain ⟨-, hed, -⟩ := run_marked _ _ _ _ _ _ (marked_build tables joins extra index) hg
  have neg : ∀ x y, (g.isPkFk x y = false ↔
      ∀ j ∈ joins ++ extra, Connects x y j → ¬ (Usable (g.idx (side x j)) ∧ UsablePK (g.idx (side y j)))) := by
    intro x y
    rw [← Bool.not_eq_true, C30_pk_fk tables joins extra index ord calls g hg x y]
    constructor
    · intro h j hj hc hu; exact h ⟨j, hj, hc, hu⟩
    · rintro h ⟨j, hj, hc, hu⟩; exact h j hj hc hu
  simp only [JG.isNM, Bool.and_eq_true, joinsTables_iff hed, Bool.not_eq_true', neg, and_assoc]

/-- **C30**: the available n:m join paths are the available join paths that are no primary key/foreign key joins in either
direction; in the initial graph, both directions are included if requested. -/
theorem C30_n_m_paths (g : JG) (both : Bool) (p : Path) :
    p ∈ g.availableNM both ↔
      g.isPkFk p.start p.target = false ∧ g.isPkFk p.target p.start = false ∧
      (p ∈ g.availablePaths false ∨
        (both = true ∧ g.initial = true ∧ ⟨p.target, p.start, p.cond⟩ ∈ g.availablePaths false)) := by
  unfold JG.availableNM
  rw [List.mem_flatMap]
  constructor
  · rintro ⟨q, hq, h⟩
    split at h
    · rename_i hc
      simp only [Bool.and_eq_true, Bool.not_eq_eq_eq_not, Bool.not_true] at hc
      split at h
      · rename_i hb
        simp only [Bool.and_eq_true] at hb
        simp only [List.mem_cons, List.not_mem_nil, or_false] at h
        rcases h with rfl | rfl
        · exact ⟨hc.1, hc.2, .inl hq⟩
        · exact ⟨hc.2, hc.1, .inr ⟨hb.1, hb.2, hq⟩⟩
      · simp only [List.mem_singleton] at h
        subst h
        exact ⟨hc.1, hc.2, .inl hq⟩
    · simp at h
  · rintro ⟨h1, h2, h3 | ⟨rfl, h4, h5⟩⟩
    · refine ⟨p, h3, ?_⟩
      simp only [h1, h2, Bool.not_false, Bool.and_self, if_true]
      split <;> simp
    · refine ⟨_, h5, ?_⟩
      simp [h1, h2, h4, Path.flip]

/-- **C30** (partial: at most one predicate between two tables): there are free n:m joins iff there is an available n:m join
path. -/
theorem C30_free_n_m_partial (tables : List Nat) (joins extra : Cond) (index : Col → Index) (ord : List Nat → List Nat)
    (calls : List (Nat × Option Cond)) (hv : ValidJoins tables (joins ++ extra))
    (hone : ∀ a b, (condBetween (joins ++ extra) a b).length ≤ 1) (g : JG)
    (hg : Reached tables joins extra index ord calls g) (both : Bool) :
    g.containsFreeNM = true ↔ g.availableNM both ≠ [] := by
  obtain ⟨hm, hed, hs⟩ := run_marked _ _ _ _ _ _ (marked_build tables joins extra index) hg
  rw [List.nil_append] at hm
  have hini : g.initial = true ↔ calls = [] :=
    ((C30_history tables joins extra index ord calls hv.nodup).2 g hg).2.2.1
  have hcan : ∀ i j : Index, i.canPkFk j = false ↔ ¬ (Usable i ∧ UsablePK j) ∧ ¬ (Usable j ∧ UsablePK i) := by
    rintro ⟨k, v⟩ ⟨k', v'⟩
    cases k <;> cases v <;> cases k' <;> cases v' <;>
      simp [Index.canPkFk, Index.isIndexed, Index.isPrimary, Index.isSecondary, Usable, UsablePK]
  -- n:m test of an edge with a single predicate
  have hnm : ∀ a b c, (a, b, c) ∈ g.edges →
      ((c.any fun j => !(g.idx j.1).canPkFk (g.idx j.2)) = true ↔ g.isPkFk a b = false ∧ g.isPkFk b a = false) := by
    intro a b c he
    rw [hed] at he
    obtain ⟨ha, hb, hab⟩ := edges_known hv he
    obtain ⟨hc, j, hj, hja, hjb⟩ := (mem_edges ..).1 he
    have hlen := hone a b
    rw [← hc] at hlen
    have hcj : c = [j] := by
      match c, hlen, hj with
      | [x], _, hj => simpa using hj
      | x :: y :: l, hlen, _ => simp at hlen
    have hjm : j ∈ joins ++ extra ∧ Connects a b j := by
      have : j ∈ condBetween (joins ++ extra) a b := by rw [← hc, hcj]; simp
      exact ⟨(List.mem_filter.1 this).1, by simpa using (List.mem_filter.1 this).2⟩
    have honly : ∀ x ∈ joins ++ extra, Connects a b x → x = j := by
      intro x hx hxc
      have : x ∈ condBetween (joins ++ extra) a b := List.mem_filter.2 ⟨hx, by simpa using hxc⟩
      rw [← hc, hcj] at this
      simpa using this
    have e1 : side a j = j.1 := by simp [side, hja]
    have e2 : side b j = j.2 := by simp [side, hja, hab]
    rw [← Bool.not_eq_true, ← Bool.not_eq_true, C30_pk_fk tables joins extra index ord calls g hg,
      C30_pk_fk tables joins extra index ord calls g hg, hcj]
    simp only [List.any_cons, List.any_nil, Bool.or_false, Bool.not_eq_eq_eq_not, Bool.not_true, hcan]
    constructor
    · rintro ⟨h1, h2⟩
      constructor
      · rintro ⟨x, hx, hxc, h3, h4⟩
        obtain rfl := honly x hx hxc
        rw [e1] at h3; rw [e2] at h4
        exact h1 ⟨h3, h4⟩
      · rintro ⟨x, hx, hxc, h3, h4⟩
        obtain rfl := honly x hx ((connects_symm _ _ _).1 hxc)
        rw [e2] at h3; rw [e1] at h4
        exact h2 ⟨h3, h4⟩
    · rintro ⟨h1, h2⟩
      refine ⟨fun ⟨h3, h4⟩ => h1 ⟨j, hjm.1, hjm.2, by rw [e1]; exact h3, by rw [e2]; exact h4⟩, fun ⟨h3, h4⟩ =>
        h2 ⟨j, hjm.1, (connects_symm _ _ _).1 hjm.2, by rw [e2]; exact h3, by rw [e1]; exact h4⟩⟩
  -- an edge is available iff it is a join path in one of the directions
  have hpath : ∀ a b c, (a, b, c) ∈ g.edges → ((g.isAvailable a b || g.initial) = true ↔
      (⟨a, b, c⟩ : Path) ∈ g.availablePaths false ∨ (⟨b, a, c⟩ : Path) ∈ g.availablePaths false) := by
    intro a b c he
    have he' := he
    rw [hed] at he'
    obtain ⟨ha, hb, hab⟩ := edges_known hv he'
    have hjb : JoinedBy (joins ++ extra) a b := (joinsTables_iff hed a b).1 (List.any_eq_true.2 ⟨_, he, by simp [between]⟩)
    have hcne : condBetween (joins ++ extra) a b ≠ [] := (joinedBy_iff _ _ _).1 hjb
    have hcc := edge_unique he'
    by_cases hcalls : calls = []
    · have h1 : g.initial = true := hini.2 hcalls
      simp only [h1, Bool.or_true, true_iff]
      left
      unfold JG.availablePaths
      rw [h1, if_pos rfl, List.mem_flatMap]
      exact ⟨_, he, by simp [initialPaths]⟩
    · have h1 : g.initial = false := by rw [Bool.eq_false_iff]; exact fun h => hcalls (hini.1 h)
      rw [h1, Bool.or_false, C30_is_available tables joins extra index ord calls hv g hg a b ha hb,
        C30_paths tables joins extra index ord calls hv hcalls g hg, C30_paths tables joins extra index ord calls hv hcalls g hg]
      simp only [hcalls, false_or, hjb, true_and, hcc, hcne, ne_eq, not_false_eq_true, and_true, condBetween_symm _ b a, ha, hb]
      tauto
  have hend : ∀ p ∈ g.availablePaths false, ∃ a b, (a, b, p.cond) ∈ g.edges ∧
      ((p.start = a ∧ p.target = b) ∨ (p.start = b ∧ p.target = a)) := by
    intro p hp
    unfold JG.availablePaths at hp
    split at hp
    · obtain ⟨⟨a, b, c⟩, he, hp⟩ := List.mem_flatMap.1 hp
      simp only [initialPaths, Bool.false_eq_true, if_false, List.mem_singleton] at hp
      subst hp
      exact ⟨a, b, he, .inl ⟨rfl, rfl⟩⟩
    · obtain ⟨⟨a, b, c⟩, he, hp⟩ := List.mem_flatMap.1 hp
      unfold JG.dirtyPaths at hp
      split at hp
      · simp at hp
      · split at hp
        · simp at hp
        · split at hp
          · simp only [List.mem_singleton] at hp
            subst hp
            exact ⟨a, b, he, .inr ⟨rfl, rfl⟩⟩
          · simp only [List.mem_singleton] at hp
            subst hp
            exact ⟨a, b, he, .inl ⟨rfl, rfl⟩⟩
  unfold JG.containsFreeNM
  rw [List.any_eq_true]
  constructor
  · rintro ⟨⟨a, b, c⟩, he, h⟩
    unfold JG.freeNM at h
    rw [Bool.and_eq_true] at h
    have h2 := (hnm a b c he).1 h.2
    rcases (hpath a b c he).1 h.1 with h3 | h3
    · exact List.ne_nil_of_mem ((C30_n_m_paths g both ⟨a, b, c⟩).2 ⟨h2.1, h2.2, .inl h3⟩)
    · exact List.ne_nil_of_mem ((C30_n_m_paths g both ⟨b, a, c⟩).2 ⟨h2.2, h2.1, .inl h3⟩)
  · intro hne
    obtain ⟨p, hp⟩ := List.exists_mem_of_ne_nil _ hne
    rw [C30_n_m_paths] at hp
    obtain ⟨h1, h2, h3⟩ := hp
    have h3' : ∃ q ∈ g.availablePaths false, ((q.start = p.start ∧ q.target = p.target) ∨ (q.start = p.target ∧ q.target = p.start)) := by
      rcases h3 with h3 | ⟨-, -, h3⟩
      · exact ⟨p, h3, .inl ⟨rfl, rfl⟩⟩
      · exact ⟨_, h3, .inr ⟨rfl, rfl⟩⟩
    obtain ⟨q, hq, hqp⟩ := h3'
    obtain ⟨a, b, he, hab⟩ := hend q hq
    refine ⟨_, he, ?_⟩
    unfold JG.freeNM
    rw [Bool.and_eq_true]
    constructor
    · rw [hpath a b _ he]
      rcases hab with ⟨h, h'⟩ | ⟨h, h'⟩
      · left; rw [← h, ← h']; exact hq
      · right; rw [← h, ← h']; exact hq
    · rw [hnm a b _ he]
      rcases hab with ⟨h, h'⟩ | ⟨h, h'⟩ <;> rcases hqp with ⟨g1, g2⟩ | ⟨g1, g2⟩ <;> rw [← h, ← h', g1, g2] <;>
        first | exact ⟨h1, h2⟩ | exact ⟨h2, h1⟩


/-! ### Further accessors -/

theorem mem_adj (g : JG) (t u : Nat) (c : Cond) (hne : ∀ a b c, (a, b, c) ∈ g.edges → a ≠ b) :
    (u, c) ∈ g.adj t ↔ (t, u, c) ∈ g.edges ∨ (u, t, c) ∈ g.edges := by
  unfold JG.adj
  rw [List.mem_filterMap]
  constructor
  · rintro ⟨⟨a, b, d⟩, he, h⟩
    simp only at h
    split at h
    · rename_i h1; subst h1
      simp only [Option.some.injEq, Prod.mk.injEq] at h
      obtain ⟨rfl, rfl⟩ := h; exact .inl he
    · split at h
      · rename_i h1; subst h1
        simp only [Option.some.injEq, Prod.mk.injEq] at h
        obtain ⟨rfl, rfl⟩ := h; exact .inr he
      · simp at h
  · rintro (h | h)
    · exact ⟨_, h, by simp⟩
    · exact ⟨_, h, by simp [hne _ _ _ h]⟩

theorem adj_iff {tables : List Nat} {joins extra : Cond} {index : Col → Index} {g : JG} (hv : ValidJoins tables (joins ++ extra))
    (hed : g.edges = (JG.build tables joins extra index).edges) (t u : Nat) (c : Cond) :
    (u, c) ∈ g.adj t ↔ c = condBetween (joins ++ extra) t u ∧ JoinedBy (joins ++ extra) t u := by
  rw [mem_adj g t u c (fun a b c h => (edges_known hv (by rw [← hed]; exact h)).2.2), hed, joinedBy_iff]
  constructor
  · rintro (h | h)
    · have := (edge_iff tables joins extra index t u).1 ⟨c, .inl h⟩
      exact ⟨edge_unique h, this⟩
    · have := (edge_iff tables joins extra index t u).1 ⟨c, .inr h⟩
      exact ⟨by rw [edge_unique h, condBetween_symm], this⟩
  · rintro ⟨rfl, hne⟩
    obtain ⟨c, h | h⟩ := (edge_iff tables joins extra index t u).2 hne
    · rw [← edge_unique h]; exact .inl h
    · rw [condBetween_symm, ← edge_unique h]; exact .inr h

/-- **C30**: `available_join_paths_for` returns the available joins of one table, starting there; it fails for unknown tables. -/
theorem C30_paths_for (tables : List Nat) (joins extra : Cond) (index : Col → Index) (ord : List Nat → List Nat)
    (calls : List (Nat × Option Cond)) (hv : ValidJoins tables (joins ++ extra)) (g : JG)
    (hg : Reached tables joins extra index ord calls g) (t : Nat) :
    (t ∉ tables → g.availableFor t = none) ∧
    (t ∈ tables → ∃ ps, g.availableFor t = some ps ∧ ∀ p, p ∈ ps ↔
      p.start = t ∧ p.cond = condBetween (joins ++ extra) t p.target ∧ JoinedBy (joins ++ extra) t p.target ∧
      (calls = [] ∨ (t ∈ calls.map (·.1) ∧ p.target ∉ calls.map (·.1)) ∨
        (t ∉ calls.map (·.1) ∧ p.target ∈ calls.map (·.1)))) := by
  obtain ⟨hm, hed, hs⟩ := run_marked _ _ _ _ _ _ (marked_build tables joins extra index) hg
  unfold JG.availableFor
  constructor
  · intro ht
    have : Dict.has g.nodes t = false := by
      rw [Bool.eq_false_iff, ne_eq, Dict.has_iff, hm.keys]; exact ht
    simp [this]
  · intro ht
    have : Dict.has g.nodes t = true := by rw [Dict.has_iff, hm.keys]; exact ht
    rw [this]
    refine ⟨_, rfl, fun p => ?_⟩
    rw [List.mem_filterMap]
    constructor
    · rintro ⟨⟨u, c⟩, he, h⟩
      rw [adj_iff hv hed] at he
      simp only at h
      split at h
      · rename_i hav
        simp only [Option.some.injEq] at h
        subst h
        have hu : u ∈ tables := by
          obtain ⟨-, j, hj, h | h⟩ := he
          · rw [← h.2]; exact (hv.known j hj).2
          · rw [← h.1]; exact (hv.known j hj).1
        rw [C30_is_available tables joins extra index ord calls hv g hg t u ht hu] at hav
        exact ⟨rfl, he.1, he.2, hav.2⟩
      · simp at h
    · rintro ⟨h1, h2, h3, h4⟩
      obtain ⟨s, u, c⟩ := p
      simp only at h1 h2 h3 h4
      subst h1 h2
      have hu : u ∈ tables := by
        obtain ⟨j, hj, h | h⟩ := h3
        · rw [← h.2]; exact (hv.known j hj).2
        · rw [← h.1]; exact (hv.known j hj).1
      refine ⟨(u, _), (adj_iff hv hed _ _ _).2 ⟨rfl, h3⟩, ?_⟩
      simp only
      rw [if_pos ((C30_is_available tables joins extra index ord calls hv g hg s u ht hu).2 ⟨h3, h4⟩)]

/-- **C30**: the join partners of a table among candidates, and the predicates between sets of tables, are the ones of the
query, whatever was joined before. -/
theorem C30_partners (tables : List Nat) (joins extra : Cond) (index : Col → Index) (ord : List Nat → List Nat)
    (calls : List (Nat × Option Cond)) (hv : ValidJoins tables (joins ++ extra)) (g : JG)
    (hg : Reached tables joins extra index ord calls g) :
    (∀ t candidates u, u ∈ g.joinPartnersFrom t candidates ↔ u ∈ candidates ∧ JoinedBy (joins ++ extra) t u) ∧
    (∀ first second c, c ∈ g.predicatesBetween first (some second) ↔
      ∃ a ∈ first, ∃ b ∈ second, JoinedBy (joins ++ extra) a b ∧ c = condBetween (joins ++ extra) a b) ∧
    (∀ first c, c ∈ g.predicatesBetween first none ↔
      ∃ a ∈ first, ∃ b ∈ first, JoinedBy (joins ++ extra) a b ∧ c = condBetween (joins ++ extra) a b) := by
  obtain ⟨hm, hed, hs⟩ := run_marked _ _ _ _ _ _ (marked_build tables joins extra index) hg
  have hbet : ∀ (first second : List Nat) (c : Cond), (c ∈ first.flatMap fun a => second.filterMap fun b => g.edgeCond a b) ↔
      ∃ a ∈ first, ∃ b ∈ second, JoinedBy (joins ++ extra) a b ∧ c = condBetween (joins ++ extra) a b := by
    intro first second c
    simp only [List.mem_flatMap, List.mem_filterMap]
    constructor
    · rintro ⟨a, ha, b, hb, h⟩
      by_cases hj : JoinedBy (joins ++ extra) a b
      · rw [edgeCond_eq hed a b hj] at h
        exact ⟨a, ha, b, hb, hj, by simpa using h.symm⟩
      · rw [edgeCond_none hed a b hj] at h; simp at h
    · rintro ⟨a, ha, b, hb, hj, rfl⟩
      exact ⟨a, ha, b, hb, edgeCond_eq hed a b hj⟩
  refine ⟨?_, ?_, ?_⟩
  · intro t cs u
    unfold JG.joinPartnersFrom
    simp only [List.mem_filter, List.mem_map, Prod.exists, exists_and_right, exists_eq_right, decide_eq_true_eq, adj_iff hv hed]
    constructor
    · rintro ⟨h, hu⟩; exact ⟨hu, by simpa using h⟩
    · rintro ⟨hu, h⟩; exact ⟨by simpa using h, hu⟩
  · intro first second c
    exact hbet first second c
  · intro first c
    exact hbet first first c

theorem bfs_chain (g : JG) (k : Nat) (queue : List Path) (visited : List Nat) (known : List Nat)
    (hq : ∀ p ∈ queue, p.start ∈ known) (pre : List Path) (p : Path) (post : List Path)
    (h : g.bfs k queue visited = pre ++ p :: post) :
    g.isPkFk p.start p.target = true ∧ (p.start ∈ known ∨ ∃ q ∈ pre, q.target = p.start) := by
  induction k generalizing queue visited known pre with
  | zero => simp [JG.bfs] at h
  | succ k ih =>
    match queue, hq, h with
    | [], _, h => simp [JG.bfs] at h
    | q :: queue, hq, h =>
      rw [JG.bfs] at h
      split at h
      · rename_i hpk
        cases pre with
        | nil =>
          simp only [List.nil_append, List.cons.injEq] at h
          rw [← h.1]
          exact ⟨hpk, .inl (hq q (by simp))⟩
        | cons r pre =>
          simp only [List.cons_append, List.cons.injEq] at h
          obtain ⟨h1, h2⟩ := ih _ _ (q.target :: known) (by
            intro p hp
            rcases List.mem_append.1 hp with hp | hp
            · exact List.mem_cons_of_mem _ (hq p (by simp [hp]))
            · obtain ⟨e, -, rfl⟩ := List.mem_map.1 hp
              simp) pre h.2
          refine ⟨h1, ?_⟩
          rcases h2 with h2 | ⟨x, hx, h2⟩
          · rcases List.mem_cons.1 h2 with h2 | h2
            · exact .inr ⟨r, by simp, by rw [← h.1]; exact h2.symm⟩
            · exact .inl h2
          · exact .inr ⟨x, by simp [hx], h2⟩
      · exact ih _ _ known (fun p hp => hq p (by simp [hp])) pre h

/-- **C30**: the deep primary key joins form a tree that starts at the given table: each path is a primary key/foreign key
join whose foreign key table is the given table or the target of an earlier path. -/
theorem C30_deep_pk (g : JG) (k : Nat) (fk : Nat) (pre : List Path) (p : Path) (post : List Path)
    (h : g.deepPk k fk = pre ++ p :: post) :
    g.isPkFk p.start p.target = true ∧ (p.start = fk ∨ ∃ q ∈ pre, q.target = p.start) := by
  obtain ⟨h1, h2⟩ := bfs_chain g k _ _ [fk] (by
    intro p hp
    obtain ⟨e, -, rfl⟩ := List.mem_map.1 hp
    simp) pre p post h
  exact ⟨h1, by simpa using h2⟩

/-- The search lists a path to `u`, no matter how many iterations are added. -/
def Finds (g : JG) (u : Nat) (queue : List Path) (visited : List Nat) : Prop :=
  ∃ K, ∀ k, K ≤ k → ∃ p ∈ g.bfs k queue visited, p.target = u

theorem finds_head (g : JG) (q : Path) (queue : List Path) (visited : List Nat) (h : g.isPkFk q.start q.target = true) : Finds g q.target (q :: queue) visited :=
  ⟨1, fun k hk => by
    obtain ⟨k, rfl⟩ : ∃ n, k = n + 1 := ⟨k - 1, by omega⟩
    exact ⟨q, by rw [JG.bfs]; simp [h], rfl⟩⟩

/-- The rest of the queue after one iteration. -/
def bfsRest (g : JG) (q : Path) (queue : List Path) (visited : List Nat) : List Path :=
  if g.isPkFk q.start q.target then queue ++ ((g.adj q.target).filter fun e => e.1 ∉ q.target :: visited).map fun e => ⟨q.target, e.1, e.2⟩ else queue

theorem finds_rest (g : JG) (u : Nat) (q : Path) (queue : List Path) (visited : List Nat) (h : Finds g u (bfsRest g q queue visited) (q.target :: visited)) :
    Finds g u (q :: queue) visited := by
  obtain ⟨K, hK⟩ := h
  refine ⟨K + 1, fun k hk => ?_⟩
  obtain ⟨k, rfl⟩ : ∃ n, k = n + 1 := ⟨k - 1, by omega⟩
  obtain ⟨p, hp, ht⟩ := hK k (by omega)
  refine ⟨p, ?_, ht⟩
  rw [JG.bfs]
  unfold bfsRest at hp
  split
  · rename_i h; rw [if_pos h] at hp; exact List.mem_cons_of_mem _ hp
  · rename_i h; rw [if_neg h] at hp; exact hp

theorem finds_queue (g : JG) (p : Path) (h : g.isPkFk p.start p.target = true) : ∀ (queue : List Path) (visited : List Nat), p ∈ queue → Finds g p.target queue visited
  | [], _, hm => by simp at hm
  | q :: queue, visited, hm => by
    rcases List.mem_cons.1 hm with rfl | hm
    · exact finds_head g p queue visited h
    · refine finds_rest g _ q queue visited ?_
      unfold bfsRest
      split
      · rename_i hq
        -- the longer queue has the same beginning
        have := finds_queue g p h queue (q.target :: visited) hm
        exact finds_append g p h queue _ _ hm
      · exact finds_queue g p h queue _ hm
where
  finds_append (g : JG) (p : Path) (h : g.isPkFk p.start p.target = true) : ∀ (queue more : List Path) (visited : List Nat), p ∈ queue → Finds g p.target (queue ++ more) visited
    | [], _, _, hm => by simp at hm
    | q :: queue, more, visited, hm => by
      rcases List.mem_cons.1 hm with rfl | hm
      · exact finds_head g p _ visited h
      · refine finds_rest g _ q _ visited ?_
        unfold bfsRest
        split
        · show Finds g p.target ((queue ++ more) ++ _) _
          rw [List.append_assoc]; exact finds_append g p h queue _ _ hm
        · exact finds_append g p h queue _ _ hm

/-- If the search lists a path to `t` and `u` is a neighbour of `t`, the search lists a path to `u`, unless `u` has been visited before. -/
theorem finds_next (g : JG) (fk t u : Nat) (c : Cond) (hadj : (u, c) ∈ g.adj t) (hpk : g.isPkFk t u = true)
    (hall : ∀ r, Relation.ReflTransGen (fun a b => g.isPkFk a b = true) fk r → ∀ d, (u, d) ∈ g.adj r → g.isPkFk r u = true) :
    ∀ (k : Nat) (queue : List Path) (visited : List Nat), (∀ e ∈ queue, Relation.ReflTransGen (fun a b => g.isPkFk a b = true) fk e.start ∧ (e.target, e.cond) ∈ g.adj e.start) →
      (∃ p ∈ g.bfs k queue visited, p.target = t) → u ∈ visited ∨ Finds g u queue visited
  | 0, _, _, _, h => by obtain ⟨p, hp, _⟩ := h; simp [JG.bfs] at hp
  | k + 1, [], _, _, h => by obtain ⟨p, hp, _⟩ := h; simp [JG.bfs] at hp
  | k + 1, q :: queue, visited, hq, h => by
    by_cases hqu : q.target = u
    · right
      have h1 := hq q (by simp)
      have := hall q.start h1.1 q.cond (by rw [← hqu]; exact h1.2)
      rw [← hqu] at this ⊢
      exact finds_head g q queue visited this
    · have key : u ∈ q.target :: visited ∨ Finds g u (bfsRest g q queue visited) (q.target :: visited) → u ∈ visited ∨ Finds g u (q :: queue) visited := by
        rintro (h | h)
        · rcases List.mem_cons.1 h with h | h
          · exact absurd h.symm hqu
          · exact .inl h
        · exact .inr (finds_rest g u q queue visited h)
      obtain ⟨p, hp, rfl⟩ := h
      rw [JG.bfs] at hp
      by_cases hqpk : g.isPkFk q.start q.target = true
      · simp only [hqpk, if_true, List.mem_cons] at hp
        have hrest : bfsRest g q queue visited = queue ++ ((g.adj q.target).filter fun e => e.1 ∉ q.target :: visited).map fun e => ⟨q.target, e.1, e.2⟩ := if_pos hqpk
        rcases hp with rfl | hp
        · -- the neighbours of the table are added to the queue
          by_cases hv : u ∈ visited
          · exact .inl hv
          · refine key (.inr ?_)
            rw [hrest]
            exact finds_queue g ⟨p.target, u, c⟩ hpk _ _ (List.mem_append_right _ (List.mem_map.2 ⟨(u, c), List.mem_filter.2 ⟨hadj, by
              simp only [List.mem_cons, decide_eq_true_eq, not_or]
              exact ⟨fun e => hqu e.symm, hv⟩⟩, rfl⟩))
        · refine key (finds_next g fk p.target u c hadj hpk hall k _ _ ?_ ⟨p, by rw [hrest]; simpa using hp, rfl⟩)
          rw [hrest]
          intro e he
          rcases List.mem_append.1 he with he | he
          · exact hq e (by simp [he])
          · obtain ⟨x, hx, rfl⟩ := List.mem_map.1 he
            exact ⟨(hq q (by simp)).1.tail hqpk, (List.mem_filter.1 hx).1⟩
      · simp only [hqpk] at hp
        have hrest : bfsRest g q queue visited = queue := if_neg hqpk
        refine key (finds_next g fk p.target u c hadj hpk hall k _ _ ?_ ⟨p, by rw [hrest]; simpa using hp, rfl⟩)
        rw [hrest]
        exact fun e he => hq e (by simp [he])

/-- **C30**: the deep primary key joins of a table contain all primary key/foreign key joins of the table itself and reach all tables that can be reached by
such joins, provided that a table that can be reached is joined with all tables that can be reached in this way only. Otherwise tables can be missing
(`C30_deep_pk_missed_violated`). -/
theorem C30_deep_pk_complete_partial (tables : List Nat) (joins extra : Cond) (index : Col → Index) (ord : List Nat → List Nat) (calls : List (Nat × Option Cond))
    (hv : ValidJoins tables (joins ++ extra)) (g : JG) (hg : Reached tables joins extra index ord calls g) (fk u : Nat) (hu : u ≠ fk) :
    (g.isPkFk fk u = true → ∃ K, ∀ k, K ≤ k → ∃ p ∈ g.deepPk k fk, p.target = u) ∧
    (Relation.ReflTransGen (fun a b => g.isPkFk a b = true) fk u →
      (∀ r s, Relation.ReflTransGen (fun a b => g.isPkFk a b = true) fk r → Relation.ReflTransGen (fun a b => g.isPkFk a b = true) fk s → s ≠ fk →
        JoinedBy (joins ++ extra) r s → g.isPkFk r s = true) →
      ∃ K, ∀ k, K ≤ k → ∃ p ∈ g.deepPk k fk, p.target = u) := by
  obtain ⟨hm, hed, hs⟩ := run_marked _ _ _ _ _ _ (marked_build tables joins extra index) hg
  have hadj : ∀ a b, g.isPkFk a b = true → (b, condBetween (joins ++ extra) a b) ∈ g.adj a := by
    intro a b h
    obtain ⟨j, hj, hc, _⟩ := (C30_pk_fk tables joins extra index ord calls g hg a b).1 h
    exact (adj_iff hv hed a b _).2 ⟨rfl, j, hj, hc⟩
  have hdirect : ∀ b, g.isPkFk fk b = true → Finds g b ((g.adj fk).map fun e => ⟨fk, e.1, e.2⟩) [fk] := fun b h =>
    finds_queue g ⟨fk, b, condBetween (joins ++ extra) fk b⟩ h _ _ (List.mem_map.2 ⟨_, hadj fk b h, rfl⟩)
  refine ⟨hdirect u, fun hr hall => ?_⟩
  have main : ∀ w, Relation.ReflTransGen (fun a b => g.isPkFk a b = true) fk w → w = fk ∨ Finds g w ((g.adj fk).map fun e => ⟨fk, e.1, e.2⟩) [fk] := by
    intro w hw
    induction hw with
    | refl => exact .inl rfl
    | @tail b c hb hbc ih =>
      by_cases hcf : c = fk
      · exact .inl hcf
      · right
        rcases ih with rfl | ⟨K, hK⟩
        · exact hdirect c hbc
        · have := finds_next g fk b c _ (hadj b c hbc) hbc (fun r hr d hd => hall r c hr (hb.tail hbc) hcf ((adj_iff hv hed r c d).1 hd).2) K _ [fk] (by
            intro e he
            obtain ⟨x, hx, rfl⟩ := List.mem_map.1 he
            exact ⟨.refl, hx⟩) (hK K (Nat.le_refl _))
          rcases this with h | h
          · exact absurd (by simpa using h) hcf
          · exact h
  rcases main u hr with h | h
  · exact absurd h hu
  · exact h

/-! ### Examples -/

def col (t n : Nat) : Col := ⟨t, n⟩
def pk : Index := ⟨.primary, false⟩
def sec : Index := ⟨.secondary, false⟩
def noIx : Index := ⟨.none, false⟩
/-- The order of the set of partners used in the examples. -/
def idOrd : List Nat → List Nat := id

/-- Columns: 0 is the primary key of each table, columns from 5 have secondary indexes, other columns are not indexed. -/
def ex_index : Col → Index := fun c => if c.name = 0 then pk else if 5 ≤ c.name then sec else noIx

/-- `t1.x = t2.y AND t3.a = t1.id`. -/
def ex_joins : Cond := [(col 1 1, col 2 1), (col 3 5, col 1 0)]

theorem ex_valid : ValidJoins [1, 2, 3] (ex_joins ++ []) := ⟨by decide, by decide, by decide⟩

theorem ex_connected : ∀ a ∈ [1, 2, 3], ∀ b ∈ [1, 2, 3], Relation.ReflTransGen (JoinedBy (ex_joins ++ [])) a b := by
  have h12 : JoinedBy (ex_joins ++ []) 1 2 := ⟨(col 1 1, col 2 1), by decide, by decide⟩
  have h21 : JoinedBy (ex_joins ++ []) 2 1 := ⟨(col 1 1, col 2 1), by decide, by decide⟩
  have h13 : JoinedBy (ex_joins ++ []) 1 3 := ⟨(col 3 5, col 1 0), by decide, by decide⟩
  have h31 : JoinedBy (ex_joins ++ []) 3 1 := ⟨(col 3 5, col 1 0), by decide, by decide⟩
  have to1 : ∀ a ∈ [1, 2, 3], Relation.ReflTransGen (JoinedBy (ex_joins ++ [])) a 1 := by
    intro a ha
    simp only [List.mem_cons, List.not_mem_nil, or_false] at ha
    rcases ha with rfl | rfl | rfl
    · exact .refl
    · exact .single h21
    · exact .single h31
  have from1 : ∀ a ∈ [1, 2, 3], Relation.ReflTransGen (JoinedBy (ex_joins ++ [])) 1 a := by
    intro a ha
    simp only [List.mem_cons, List.not_mem_nil, or_false] at ha
    rcases ha with rfl | rfl | rfl
    · exact .refl
    · exact .single h12
    · exact .single h13
  exact fun a ha b hb => (to1 a ha).trans (from1 b hb)

theorem ex_reached : ∃ g, Reached [1, 2, 3] ex_joins [] ex_index idOrd [(1, none)] g :=
  (C30_history [1, 2, 3] ex_joins [] ex_index idOrd [(1, none)] (by decide)).1.2 (by decide)

example : ∃ g, Reached [1, 2, 3] ex_joins [] ex_index idOrd [(1, none)] g ∧ (∃ p, p ∈ g.availablePaths true) ∧
    g.containsFree = true ∧ g.availablePaths false ≠ [] ∧ g.isAvailable 1 2 = true := by
  obtain ⟨g, hg⟩ := ex_reached
  have hf : g.containsFree = true :=
    ((C30_history [1, 2, 3] ex_joins [] ex_index idOrd [(1, none)] (by decide)).2 g hg).2.2.2.1.2 ⟨2, by decide, by decide⟩
  refine ⟨g, hg, ⟨⟨1, 2, [(col 1 1, col 2 1)]⟩, ?_⟩, hf, ?_, ?_⟩
  · exact (C30_paths _ _ _ _ _ _ ex_valid (by simp) g hg true _).2 ⟨by decide, by decide, by decide, by decide, by decide⟩
  · exact C30_progress _ _ _ _ _ _ ex_valid ex_connected (by simp) g hg hf false
  · exact (C30_is_available _ _ _ _ _ _ ex_valid g hg 1 2 (by decide) (by decide)).2
      ⟨⟨(col 1 1, col 2 1), by decide, by decide⟩, by decide⟩

example : ∀ a b, (condBetween (ex_joins ++ []) a b).length ≤ 1 := by
  intro a b
  by_cases h1 : Connects a b (col 1 1, col 2 1) <;> by_cases h2 : Connects a b (col 3 5, col 1 0)
  · simp only [Connects, col] at h1 h2; omega
  all_goals simp [condBetween, ex_joins, h1, h2]

example : ((JG.build [1, 2, 3] ex_joins [] ex_index).run idOrd [(1, none)]).map (fun g => (g.joined, g.free, g.containsFreeNM,
    g.availableNM true, (g.availableFor 1).map List.length)) =
    some ([1], [2, 3], true, [⟨1, 2, [(col 1 1, col 2 1)]⟩], some 2) := by decide +kernel

example : (JG.build [1, 2, 3] ex_joins [] ex_index).deepPk 10 3 = [⟨3, 1, [(col 3 5, col 1 0)]⟩] := by decide +kernel

/-- **C30** (violated): if two tables are joined by a primary key/foreign key predicate and by another predicate, the graph
reports free n:m joins, but there is no available n:m join path. -/
theorem C30_free_n_m_violated : ∃ (tables : List Nat) (joins : Cond) (index : Col → Index), ValidJoins tables (joins ++ []) ∧
    (JG.build tables joins [] index).containsFreeNM = true ∧ (JG.build tables joins [] index).availableNM true = [] :=
  ⟨[1, 2], [(col 1 5, col 2 0), (col 1 1, col 2 1)], ex_index, ⟨by decide, by decide, by decide⟩, by decide +kernel, by decide +kernel⟩

/-- **C30** (violated): the deep primary key joins can contain the same table more than once. -/
theorem C30_deep_pk_twice_violated : ∃ (tables : List Nat) (joins : Cond) (index : Col → Index) (p q : Path),
    ValidJoins tables (joins ++ []) ∧ p ≠ q ∧ p.target = q.target ∧
    p ∈ (JG.build tables joins [] index).deepPk 10 1 ∧ q ∈ (JG.build tables joins [] index).deepPk 10 1 :=
  ⟨[1, 2, 3, 4], [(col 1 5, col 2 0), (col 1 6, col 3 0), (col 2 5, col 4 0), (col 3 5, col 4 0)], ex_index,
    ⟨2, 4, [(col 2 5, col 4 0)]⟩, ⟨3, 4, [(col 3 5, col 4 0)]⟩, ⟨by decide, by decide, by decide⟩, by decide, rfl,
    by decide +kernel, by decide +kernel⟩

/-- **C30** (violated): the deep primary key joins can miss a table that is joined by primary key with one of their tables, and by another join with the table
they start at. -/
theorem C30_deep_pk_missed_violated : ∃ (tables : List Nat) (joins : Cond) (index : Col → Index), ValidJoins tables (joins ++ []) ∧
    (JG.build tables joins [] index).isPkFk 1 3 = true ∧ (JG.build tables joins [] index).isPkFk 3 2 = true ∧
    ∀ p ∈ (JG.build tables joins [] index).deepPk 10 1, p.target ≠ 2 :=
  ⟨[1, 2, 3], [(col 1 1, col 2 1), (col 1 5, col 3 0), (col 3 5, col 2 0)], ex_index, ⟨by decide, by decide, by decide⟩, by decide +kernel, by decide +kernel,
    by decide +kernel⟩

/-- A chain of primary keys meets the hypotheses of `C30_deep_pk_complete_partial`. -/
example : (JG.build [1, 2, 3] [(col 1 5, col 2 0), (col 2 5, col 3 0)] [] ex_index).isPkFk 1 2 = true ∧
    (JG.build [1, 2, 3] [(col 1 5, col 2 0), (col 2 5, col 3 0)] [] ex_index).isPkFk 2 3 = true ∧
    (∃ p ∈ (JG.build [1, 2, 3] [(col 1 5, col 2 0), (col 2 5, col 3 0)] [] ex_index).deepPk 10 1, p.target = 3) := by decide +kernel

/-! ### C103: indexes -/

/-- The index is the same, but possibly invalidated. -/
def Weaker (i i' : Index) : Prop := i'.kind = i.kind ∧ (i.invalid = true → i'.invalid = true)

theorem Weaker.rfl' (i : Index) : Weaker i i := ⟨rfl, id⟩

theorem Weaker.trans {i j k : Index} (h1 : Weaker i j) (h2 : Weaker j k) : Weaker i k :=
  ⟨h2.1.trans h1.1, fun h => h2.2 (h1.2 h)⟩

theorem weaker_inv (i : Index) : Weaker i i.invalidate := ⟨rfl, fun _ => rfl⟩

theorem invalidateCol_weaker (idx : Col → Index) (c x : Col) : Weaker (idx x) (invalidateCol idx c x) := by
  unfold invalidateCol; split
  · exact weaker_inv _
  · exact .rfl' _

theorem invalidateTable_weaker (idx : Col → Index) (t : Nat) (x : Col) : Weaker (idx x) (invalidateTable idx t x) := by
  unfold invalidateTable; split
  · exact weaker_inv _
  · exact .rfl' _

theorem invalidatePair_weaker (t : Nat) (a b : Bool) (idx : Col → Index) (j : Col × Col) (x : Col) :
    Weaker (idx x) (invalidatePair t a b idx j x) := by
  unfold invalidatePair
  split
  · exact invalidateCol_weaker _ _ _
  · split
    · exact invalidateCol_weaker _ _ _
    · exact (invalidateCol_weaker _ _ _).trans (invalidateCol_weaker _ _ _)

theorem foldPair_weaker (t : Nat) (a b : Bool) (c : Cond) (idx : Col → Index) (x : Col) :
    Weaker (idx x) (c.foldl (invalidatePair t a b) idx x) := by
  induction c generalizing idx with
  | nil => exact .rfl' _
  | cons j c ih => exact (invalidatePair_weaker t a b idx j x).trans (ih _)

theorem foldTable_weaker (l : List (Nat × Bool)) (idx : Col → Index) (x : Col) :
    Weaker (idx x) (l.foldl (fun i e => invalidateTable i e.1) idx x) := by
  induction l generalizing idx with
  | nil => exact .rfl' _
  | cons e l ih => exact (invalidateTable_weaker idx e.1 x).trans (ih _)

theorem partnerStep_weaker (c : Cond) (s : JG × Nat) (p : Nat) (x : Col) : Weaker (s.1.idx x) ((partnerStep c s p).1.idx x) := by
  unfold partnerStep
  simp only
  split
  · exact .rfl' _
  · split
    · exact foldPair_weaker _ _ _ _ _ _
    · exact (foldPair_weaker _ _ _ _ _ _).trans (foldTable_weaker _ _ _)

theorem foldPartner_weaker (c : Cond) (l : List Nat) (s : JG × Nat) (x : Col) :
    Weaker (s.1.idx x) ((l.foldl (partnerStep c) s).1.idx x) := by
  induction l generalizing s with
  | nil => exact .rfl' _
  | cons p l ih => exact (partnerStep_weaker c s p x).trans (ih _)

theorem markJoined_weaker (g g' : JG) (ord : List Nat → List Nat) (t : Nat) (edge : Option Cond)
    (h : g.markJoined ord t edge = some g') (x : Col) : Weaker (g.idx x) (g'.idx x) := by
  unfold JG.markJoined at h
  split at h
  · simp at h
  · simp only at h
    split at h
    · simp only [Option.some.injEq] at h; subst h; exact .rfl' _
    · split at h
      · simp only [Option.some.injEq] at h; subst h; exact .rfl' _
      · simp only [Option.some.injEq] at h
        subst h
        exact foldPartner_weaker _ _ _ x

/-- **C103**: whatever is joined, indexes are never created and never become valid again. -/
theorem C103_monotone (ord : List Nat → List Nat) (calls : List (Nat × Option Cond)) (g g' : JG)
    (h : g.run ord calls = some g') (x : Col) :
    (Usable (g'.idx x) → Usable (g.idx x)) ∧ (UsablePK (g'.idx x) → UsablePK (g.idx x)) := by
  have hw : Weaker (g.idx x) (g'.idx x) := by
    induction calls generalizing g with
    | nil =>
      simp only [JG.run, List.foldlM_nil, Option.pure_def, Option.some.injEq] at h
      subst h; exact .rfl' _
    | cons e calls ih =>
      rw [run_cons] at h
      obtain ⟨g1, h1, h2⟩ := Option.bind_eq_some_iff.1 h
      exact (markJoined_weaker _ _ _ _ _ h1 x).trans (ih g1 h2)
  obtain ⟨hk, hi⟩ := hw
  have hinv : (g'.idx x).invalid = false → (g.idx x).invalid = false := by
    intro h
    cases hc : (g.idx x).invalid with
    | false => rfl
    | true => rw [hi hc] at h; simp at h
  exact ⟨fun ⟨h1, h2⟩ => ⟨hinv h1, by rw [← hk]; exact h2⟩, fun ⟨h1, h2⟩ => ⟨hinv h1, by rw [← hk]; exact h2⟩⟩

end PB.JoinGraphProps
