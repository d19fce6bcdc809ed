import Mathlib.Data.List.Induction
import Mathlib.Data.List.Dedup
import Mathlib.Data.List.Perm.Subperm
import Verif.Model.QueryGen
import Verif.Props.Walk

set_option linter.unusedSimpArgs false
set_option linter.unusedVariables false
set_option linter.unnecessarySimpa false
set_option linter.unnecessarySeqFocus false

/-!
# Properties of the random query generator (C183-C185)
-/

namespace PB.QGenProps

open PB.QGen

/-! ### Specification -/

/-- What the functions of the module `random` and the database guarantee: numbers are within their bounds, choices are
elements of the sequence, samples are different elements, and the distinct values of a column occur in the data. -/
structure Valid (data : Col → List Val) (c : Choices) : Prop where
  nTables : ∀ lo hi, lo ≤ hi → lo ≤ c.nTables lo hi ∧ c.nTables lo hi ≤ hi
  walk : ∀ k l, l ≠ [] → c.walk k l ∈ l
  key : ∀ t u l, l ≠ [] → c.key t u l ∈ l
  nFilters : ∀ lo hi, lo ≤ hi → lo ≤ c.nFilters lo hi ∧ c.nFilters lo hi ≤ hi
  sample : ∀ l n, n ≤ l.length → (c.sample l n).length = n ∧ (c.sample l n).Subperm l
  distinct : ∀ x, ∀ v ∈ c.distinct x, v ∈ data x
  value : ∀ x l, l ≠ [] → c.value x l ∈ l

/-- The generator can yield the query. -/
def Yields (data : Col → List Val) (s : Sch) (o : Opts) (q : Query) : Prop :=
  ∃ (cs : Nat → Choices) (fuel : Nat), (∀ i, Valid data (cs i)) ∧ generate s o cs fuel = some (.query q)

/-- The atomic predicates of a conjunction. -/
inductive Atom : Pd → Pd → Prop
  | join (a b) : Atom (.join a b) (.join a b)
  | filter (c op v) : Atom (.filter c op v) (.filter c op v)
  | conj (ps p x) : p ∈ ps → Atom p x → Atom (.conj ps) x

/-- The `WHERE` clause of the query contains the predicate. -/
def Has (q : Query) (x : Pd) : Prop := ∃ p, q.predicate = some p ∧ Atom p x

/-- The query filters the column. -/
def Filters (q : Query) (c : Col) : Prop := ∃ op v, Has q (.filter c op v)

/-- Tables the user allows. -/
def Allowed (s : Sch) (o : Opts) (t : Nat) : Prop :=
  t ∈ s.nodes ∧ t ∉ o.ignore ∧ ¬ (o.postgres = true ∧ o.system t = true)

/-- Some foreign key relates the tables. -/
def Related (s : Sch) (t u : Nat) : Prop := s.fks t u ≠ [] ∨ s.fks u t ≠ []

/-- A join predicate of the query relates the tables. -/
def JoinedBy (q : Query) (t u : Nat) : Prop :=
  ∃ a b, Has q (.join a b) ∧ ((a.1 = t ∧ b.1 = u) ∨ (a.1 = u ∧ b.1 = t))

/-- The annotations of the schema graph belong to the tables of the edge. -/
def WF (s : Sch) : Prop := s.nodes.Nodup ∧ ∀ t u, ∀ k ∈ s.fks t u, k.1.1 = t ∧ k.2.1 = u

/-! ### Helpers -/

theorem orElse_pos (n d : Nat) (h : 0 < n) : orElse (some n) d = n := by
  cases n with
  | zero => omega
  | succ n => rfl

theorem le_orElse (n d : Nat) : n ≤ orElse (some n) d := by
  cases n with
  | zero => omega
  | succ n => exact Nat.le_refl _

theorem one_le_orElse (x : Option Nat) : 1 ≤ orElse x 1 := by
  unfold orElse
  split
  · exact Nat.le_refl _
  · exact Nat.le_refl _
  · rename_i n h
    cases n with
    | zero => exact absurd rfl (h)
    | succ n => omega

theorem mem_prune (s : Sch) (o : Opts) (t : Nat) : t ∈ (prune s o).nodes ↔ Allowed s o t := by
  simp only [prune, Allowed, List.mem_filter, Bool.not_eq_true', List.contains_eq_mem, decide_eq_false_iff_not]
  constructor
  · rintro ⟨⟨h1, h2⟩, h3⟩
    refine ⟨h1, h2, ?_⟩
    rintro ⟨h4, h5⟩
    simp [h4, h5] at h3
  · rintro ⟨h1, h2, h3⟩
    refine ⟨⟨h1, h2⟩, ?_⟩
    by_contra hc
    simp only [Bool.not_eq_false, Bool.and_eq_true] at hc
    exact h3 hc

theorem prune_nodup {s : Sch} (h : s.nodes.Nodup) (o : Opts) : (prune s o).nodes.Nodup := (h.filter _).filter _

theorem undirected_WF {s : Sch} (h : s.nodes.Nodup) : WalkProps.WFGraph (undirected s) :=
  ⟨h, fun x y hy => (List.mem_filter.mp hy).1⟩

theorem mem_adj (s : Sch) (t u : Nat) : u ∈ (undirected s).adj t ↔ u ∈ s.nodes ∧ Related s t u := by
  simp [undirected, Related, List.isEmpty_iff]

theorem run_spec (s : Sch) (o : Opts) (b : Nat × Nat) (cs : Nat → Choices) (fuel i : Nat) (q : Query)
    (h : run s o b cs fuel i = some (.query q)) : ∃ j, iteration s o b (cs j) = .query q := by
  induction fuel generalizing i with
  | zero => simp [run] at h
  | succ fuel ih =>
    unfold run at h
    split at h
    · exact ih _ h
    · exact ⟨i, by simpa using h⟩

theorem yields_iteration {data : Col → List Val} {s : Sch} {o : Opts} {q : Query} (h : Yields data s o q) :
    ∃ b c, Valid data c ∧ tableBounds (prune s o) o = some b ∧ iteration (prune s o) o b c = .query q := by
  obtain ⟨cs, fuel, hv, hg⟩ := h
  unfold generate at hg
  simp only at hg
  split at hg
  · simp at hg
  · rename_i b hb
    obtain ⟨j, hj⟩ := run_spec _ _ _ _ _ _ _ hg
    exact ⟨b, cs j, hv j, hb, hj⟩

theorem bounds_spec {s : Sch} {o : Opts} {b : Nat × Nat} (h : tableBounds s o = some b) :
    b.1 = orElse o.minTables 1 ∧ b.2 = min (orElse o.maxTables s.nodes.length) s.nodes.length ∧ b.1 ≤ b.2 := by
  unfold tableBounds at h
  simp only at h
  split at h
  · simp at h
  · rename_i hh
    simp only [Option.some.injEq] at h
    subst h
    exact ⟨rfl, rfl, by simpa using hh⟩

/-- The parts of an iteration that yields a query. -/
theorem iteration_query {s : Sch} {o : Opts} {b : Nat × Nat} {c : Choices} {q : Query} (h : iteration s o b c = .query q) :
    q.tables = (Walk.randomWalk (undirected s) c.walk none).take (c.nTables b.1 b.2) ∧
    ∃ joins, joinPart s c (c.nTables b.1 b.2) q.tables = some joins ∧
      (filterBounds s o).1 < min (filterBounds s o).2 (availableColumns s o q.tables).length ∧
      whereClause (whereParts joins joins ++ whereParts joins (filterPart c (c.nFilters (filterBounds s o).1
        (min (filterBounds s o).2 (availableColumns s o q.tables).length)) (availableColumns s o q.tables))) =
        some q.predicate := by
  unfold iteration at h
  simp only at h
  split at h
  · simp at h
  · rename_i joins hj
    split at h
    · simp at h
    · rename_i hb
      split at h
      · simp at h
      · rename_i p hp
        simp only [Outcome.query.injEq] at h
        subst h
        exact ⟨rfl, joins, hj, by simpa using hb, hp⟩

theorem walk_spec {data : Col → List Val} {s : Sch} (hs : s.nodes.Nodup) (hne : s.nodes ≠ []) {c : Choices} (hc : Valid data c) :
    WalkProps.ExplorationOrder (undirected s) (Walk.randomWalk (undirected s) c.walk none) :=
  (WalkProps.C15_random_walk (undirected s) (undirected_WF hs) hne c.walk hc.walk none (by simp)).1

theorem nodes_ne {s : Sch} {o : Opts} {b : Nat × Nat} (h : tableBounds s o = some b) : s.nodes ≠ [] := by
  obtain ⟨h1, h2, h3⟩ := bounds_spec h
  intro hn
  rw [hn] at h2
  simp only [List.length_nil, Nat.min_zero] at h2
  have : 1 ≤ b.1 := h1 ▸ one_le_orElse _
  omega

theorem tables_length {data : Col → List Val} {s : Sch} {o : Opts} {b : Nat × Nat} {c : Choices} (hs : s.nodes.Nodup)
    (hb : tableBounds s o = some b) (hc : Valid data c) :
    ((Walk.randomWalk (undirected s) c.walk none).take (c.nTables b.1 b.2)).length = c.nTables b.1 b.2 := by
  obtain ⟨h1, h2, h3⟩ := bounds_spec hb
  have hw := (walk_spec hs (nodes_ne hb) hc).1.length_eq
  have := (hc.nTables _ _ h3).2
  simp only [List.length_take]
  have hnn : (undirected s).nodes.length = s.nodes.length := rfl
  omega

/-! ### The tables (C183) -/

/-- C183: a generated query has at least one table, as many as the user allows, each of them once, and only tables of the schema
that the user has not excluded. -/
theorem C183_tables (data : Col → List Val) (s : Sch) (hs : s.nodes.Nodup) (o : Opts) (q : Query) (h : Yields data s o q) :
    q.tables.Nodup ∧ (∀ t ∈ q.tables, Allowed s o t) ∧ 1 ≤ q.tables.length ∧
    (∀ n, o.minTables = some n → n ≤ q.tables.length) ∧
    (∀ n, o.maxTables = some n → 0 < n → q.tables.length ≤ n) := by
  obtain ⟨b, c, hc, hb, hi⟩ := yields_iteration h
  have hp := prune_nodup hs o
  obtain ⟨ht, -⟩ := iteration_query hi
  obtain ⟨h1, h2, h3⟩ := bounds_spec hb
  have hl := tables_length hp hb hc
  rw [← ht] at hl
  have hw := (walk_spec hp (nodes_ne hb) hc).1
  have hn := hc.nTables _ _ h3
  refine ⟨?_, ?_, ?_, ?_, ?_⟩
  · rw [ht]
    exact ((hw.nodup_iff).mpr hp).sublist (List.take_sublist _ _)
  · intro t hm
    rw [ht] at hm
    exact (mem_prune s o t).mp ((hw.mem_iff).mp (List.mem_of_mem_take hm))
  · have : 1 ≤ b.1 := h1 ▸ one_le_orElse _
    omega
  · intro n hn'
    have : n ≤ b.1 := by
      rw [h1, hn']; exact le_orElse _ _
    omega
  · intro n hn' h0
    have : b.2 ≤ n := by
      rw [h2, hn', orElse_pos _ _ h0]
      exact Nat.min_le_left _ _
    omega

/-! ### The joins -/

theorem mem_joinPredicates (s : Sch) (key) (l : List Nat) (x : Pd) (h : x ∈ joinPredicates s key l) :
    ∃ t ∈ l, ∃ u ∈ l, pairPredicate s key t u = some x := by
  induction l with
  | nil => simp [joinPredicates] at h
  | cons t rest ih =>
    simp only [joinPredicates, List.mem_append, List.mem_filterMap] at h
    rcases h with ⟨u, hu, he⟩ | h
    · exact ⟨t, by simp, u, by simp [hu], he⟩
    · obtain ⟨t', ht', u, hu, he⟩ := ih h
      exact ⟨t', by simp [ht'], u, by simp [hu], he⟩

theorem joinPredicates_complete (s : Sch) (key) (l : List Nat) (t u : Nat) (ht : t ∈ l) (hu : u ∈ l) (hne : t ≠ u)
    (hr : Related s t u) : ∃ x ∈ joinPredicates s key l, pairPredicate s key t u = some x ∨ pairPredicate s key u t = some x := by
  have key' : ∀ t u, Related s t u → ∃ x, pairPredicate s key t u = some x := by
    intro t u hr
    unfold pairPredicate
    simp only [Bool.not_eq_true', List.isEmpty_eq_false_iff]
    split
    · exact ⟨_, rfl⟩
    · rename_i h1
      rcases hr with hr | hr
      · exact absurd hr h1
      · rw [if_pos hr]; exact ⟨_, rfl⟩
  induction l with
  | nil => simp at ht
  | cons a rest ih =>
    simp only [List.mem_cons] at ht hu
    simp only [joinPredicates, List.mem_append, List.mem_filterMap]
    rcases ht with rfl | ht
    · rcases hu with rfl | hu
      · exact absurd rfl hne
      · obtain ⟨x, hx⟩ := key' t u hr
        exact ⟨x, Or.inl ⟨u, hu, hx⟩, Or.inl hx⟩
    · rcases hu with rfl | hu
      · obtain ⟨x, hx⟩ := key' u t hr.symm
        exact ⟨x, Or.inl ⟨t, ht, hx⟩, Or.inr hx⟩
      · obtain ⟨x, hx, h⟩ := ih ht hu
        exact ⟨x, Or.inr hx, h⟩

theorem pairPredicate_spec {data : Col → List Val} {c : Choices} (hc : Valid data c) (s : Sch) (t u : Nat) (x : Pd)
    (h : pairPredicate s c.key t u = some x) :
    ∃ k, x = .join k.2 k.1 ∧ (k ∈ s.fks t u ∨ k ∈ s.fks u t) := by
  unfold pairPredicate at h
  simp only [Bool.not_eq_true', List.isEmpty_eq_false_iff] at h
  split at h
  · rename_i h1
    simp only [Option.some.injEq] at h
    exact ⟨_, h.symm, Or.inl (hc.key t u _ h1)⟩
  · split at h
    · rename_i h1
      simp only [Option.some.injEq] at h
      exact ⟨_, h.symm, Or.inr (hc.key t u _ h1)⟩
    · simp at h

theorem createAnd_atoms {ps : List Pd} {p : Pd} (h : createAnd ps = some p) (x : Pd) : Atom p x ↔ ∃ y ∈ ps, Atom y x := by
  unfold createAnd at h
  split at h
  · simp at h
  · simp only [Option.some.injEq] at h; subst h; simp
  · simp only [Option.some.injEq] at h
    subst h
    constructor
    · intro ha
      cases ha with
      | conj _ y _ hy hx => exact ⟨y, hy, hx⟩
    · rintro ⟨y, hy, hx⟩
      exact .conj _ y _ hy hx

/-- The parts that are used for the `WHERE` clause. -/
theorem whereClause_atoms {parts : List (Option Pd)} {p : Option Pd} (h : whereClause parts = some p) (x : Pd) :
    (∃ y, p = some y ∧ Atom y x) ↔ ∃ y, some y ∈ parts ∧ Atom y x := by
  unfold whereClause at h
  split at h
  · rename_i he
    simp only [Option.some.injEq] at h
    subst h
    have : parts = [] := List.isEmpty_iff.mp he
    simp [this]
  · obtain ⟨ps, hps, h2⟩ := Option.bind_eq_some_iff.mp h
    obtain ⟨y, hy, rfl⟩ := Option.map_eq_some_iff.mp h2
    have hmem : ∀ z, some z ∈ parts ↔ z ∈ ps := by
      have : parts = ps.map some := by
        clear h h2 hy
        induction parts generalizing ps with
        | nil => simp_all
        | cons a rest ih =>
          cases a with
          | none => simp [List.mapM_cons] at hps
          | some a =>
            simp only [List.mapM_cons, id_eq, Option.pure_def, Option.bind_eq_bind, Option.bind_some] at hps
            obtain ⟨r, hr, he⟩ := Option.bind_eq_some_iff.mp hps
            simp only [Option.some.injEq] at he
            subst he
            by_cases hemp : rest.isEmpty = true
            · have : rest = [] := List.isEmpty_iff.mp hemp
              subst this
              simp_all
            · rw [ih (by simpa using hemp) r hr]; rfl
      intro z
      rw [this]
      simp
    constructor
    · rintro ⟨z, hz, ha⟩
      simp only [Option.some.injEq] at hz
      subst hz
      obtain ⟨w, hw, hx⟩ := (createAnd_atoms hy x).mp ha
      exact ⟨w, (hmem w).mpr hw, hx⟩
    · rintro ⟨z, hz, ha⟩
      exact ⟨y, rfl, (createAnd_atoms hy x).mpr ⟨z, (hmem z).mp hz, ha⟩⟩

theorem whereParts_self_atoms (joins : Option Pd) (x : Pd) :
    (∃ y, some y ∈ whereParts joins joins ∧ Atom y x) ↔ ∃ p, joins = some p ∧ Atom p x := by
  unfold whereParts
  split
  · simp
  · rename_i ps
    constructor
    · rintro ⟨y, hy, ha⟩
      obtain ⟨z, hz, he⟩ := List.mem_map.mp hy
      simp only [Option.some.injEq] at he
      subst he
      exact ⟨_, rfl, .conj _ z _ hz ha⟩
    · rintro ⟨p, hp, ha⟩
      simp only [Option.some.injEq] at hp
      subst hp
      cases ha with
      | conj _ y _ hy hx => exact ⟨y, List.mem_map.mpr ⟨y, hy, rfl⟩, hx⟩
  · rename_i p hnp
    constructor
    · rintro ⟨y, hy, ha⟩
      simp only [List.mem_singleton] at hy
      exact ⟨y, hy.symm, ha⟩
    · rintro ⟨y, hy, ha⟩
      exact ⟨y, by simp [hy], ha⟩

/-- Atoms of the part of the filters: the filters of a conjunction, else those of the joins once more. -/
theorem whereParts_atoms (joins part : Option Pd) (x : Pd) (h : ∃ y, some y ∈ whereParts joins part ∧ Atom y x) :
    (∃ ps, part = some (.conj ps) ∧ Atom (.conj ps) x) ∨ ∃ p, joins = some p ∧ Atom p x := by
  obtain ⟨y, hy, ha⟩ := h
  unfold whereParts at hy
  split at hy
  · simp at hy
  · rename_i ps
    obtain ⟨z, hz, he⟩ := List.mem_map.mp hy
    simp only [Option.some.injEq] at he
    subst he
    exact Or.inl ⟨ps, rfl, .conj _ z _ hz ha⟩
  · simp only [List.mem_singleton] at hy
    exact Or.inr ⟨y, hy.symm, ha⟩

theorem filterPart_atoms {c : Choices} {n : Nat} {av : List Col} {p : Pd} (h : filterPart c n av = some p) (x : Pd) :
    Atom p x ↔ ∃ col ∈ c.sample av n, generateFilter c col = some x := by
  unfold filterPart at h
  split at h
  · rw [createAnd_atoms h]
    constructor
    · rintro ⟨y, hy, ha⟩
      obtain ⟨col, hcol, he⟩ := List.mem_filterMap.mp hy
      refine ⟨col, hcol, ?_⟩
      unfold generateFilter at he ⊢
      split at he
      · simp at he
      · rename_i hc
        simp only [Option.some.injEq] at he
        subst he
        cases ha
        simp [hc]
    · rintro ⟨col, hcol, he⟩
      refine ⟨x, List.mem_filterMap.mpr ⟨col, hcol, he⟩, ?_⟩
      unfold generateFilter at he
      split at he
      · simp at he
      · simp only [Option.some.injEq] at he
        subst he
        exact .filter _ _ _
  · simp at h

theorem joinPart_atoms {data : Col → List Val} {c : Choices} (hc : Valid data c) {s : Sch} {n : Nat} {tables : List Nat}
    {joins : Option Pd} (h : joinPart s c n tables = some joins) (x : Pd) :
    (∃ p, joins = some p ∧ Atom p x) ↔ 1 < n ∧ x ∈ joinPredicates s c.key tables := by
  unfold joinPart at h
  split at h
  · rename_i hn
    simp only at h
    split at h
    · simp at h
    · simp only [Option.some.injEq] at h
      have hat : ∀ y ∈ joinPredicates s c.key tables, Atom y x ↔ y = x := by
        intro y hy
        obtain ⟨t, -, u, -, hp⟩ := mem_joinPredicates _ _ _ _ hy
        obtain ⟨k, rfl, -⟩ := pairPredicate_spec hc s t u y hp
        constructor
        · intro ha; cases ha; rfl
        · rintro rfl; exact .join _ _
      constructor
      · rintro ⟨p, hp, ha⟩
        rw [hp] at h
        obtain ⟨y, hy, hx⟩ := (createAnd_atoms h x).mp ha
        exact ⟨hn, (hat y hy).mp hx ▸ hy⟩
      · rintro ⟨-, hx⟩
        have : ∃ p, createAnd (joinPredicates s c.key tables) = some p := by
          unfold createAnd
          split
          · simp_all
          · exact ⟨_, rfl⟩
          · exact ⟨_, rfl⟩
        obtain ⟨p, hp⟩ := this
        refine ⟨p, by rw [← h, hp], (createAnd_atoms hp x).mpr ⟨x, hx, (hat x hx).mpr rfl⟩⟩
  · rename_i hn
    simp only [Option.some.injEq] at h
    subst h
    simp
    omega

/-- All atoms of a generated query. -/
theorem has_cases {data : Col → List Val} {s : Sch} {o : Opts} {b : Nat × Nat} {c : Choices} (hc : Valid data c) {q : Query}
    (h : iteration s o b c = .query q) (x : Pd) (hx : Has q x) :
    (1 < c.nTables b.1 b.2 ∧ x ∈ joinPredicates s c.key q.tables) ∨
    ∃ ps, filterPart c (c.nFilters (filterBounds s o).1 (min (filterBounds s o).2 (availableColumns s o q.tables).length))
        (availableColumns s o q.tables) = some (.conj ps) ∧ Atom (.conj ps) x := by
  obtain ⟨-, joins, hj, -, hw⟩ := iteration_query h
  obtain ⟨y, hy, ha⟩ := (whereClause_atoms hw x).mp hx
  rcases List.mem_append.mp hy with hy | hy
  · exact Or.inl ((joinPart_atoms hc hj x).mp ((whereParts_self_atoms joins x).mp ⟨y, hy, ha⟩))
  · rcases whereParts_atoms _ _ _ ⟨y, hy, ha⟩ with hf | hf
    · exact Or.inr hf
    · exact Or.inl ((joinPart_atoms hc hj x).mp hf)

theorem has_joins {data : Col → List Val} {s : Sch} {o : Opts} {b : Nat × Nat} {c : Choices} (hc : Valid data c) {q : Query}
    (h : iteration s o b c = .query q) (x : Pd) (hn : 1 < c.nTables b.1 b.2) (hx : x ∈ joinPredicates s c.key q.tables) :
    Has q x := by
  obtain ⟨-, joins, hj, -, hw⟩ := iteration_query h
  refine (whereClause_atoms hw x).mpr ?_
  obtain ⟨y, hy, ha⟩ := (whereParts_self_atoms joins x).mpr ((joinPart_atoms hc hj x).mpr ⟨hn, hx⟩)
  exact ⟨y, List.mem_append_left _ hy, ha⟩

theorem generateFilter_spec {c : Choices} {col : Col} {x : Pd} (h : generateFilter c col = some x) :
    c.distinct col ≠ [] ∧ x = .filter col (c.op col) (c.value col (c.distinct col)) := by
  unfold generateFilter at h
  split at h
  · simp at h
  · rename_i hn
    simp only [Option.some.injEq] at h
    refine ⟨?_, h.symm⟩
    intro he
    rw [he] at hn
    simp [noCandidates] at hn

/-- C183: the join predicates of a generated query are foreign keys between its tables, and there is one between any two of its
tables that are related by a foreign key. -/
theorem C183_joins (data : Col → List Val) (s : Sch) (hs : WF s) (o : Opts) (q : Query) (h : Yields data s o q) :
    (∀ a b, Has q (.join a b) → ∃ t ∈ q.tables, ∃ u ∈ q.tables, (b, a) ∈ s.fks t u) ∧
    (∀ t ∈ q.tables, ∀ u ∈ q.tables, t ≠ u → Related s t u → JoinedBy q t u) := by
  obtain ⟨b, c, hc, hb, hi⟩ := yields_iteration h
  have hp := prune_nodup hs.1 o
  have hl := tables_length hp hb hc
  rw [← (iteration_query hi).1] at hl
  constructor
  · intro a b' hx
    rcases has_cases hc hi _ hx with ⟨-, hx⟩ | ⟨ps, hf, ha⟩
    · obtain ⟨t, ht, u, hu, he⟩ := mem_joinPredicates _ _ _ _ hx
      obtain ⟨k, hk, hm⟩ := pairPredicate_spec hc _ t u _ he
      simp only [Pd.join.injEq] at hk
      obtain ⟨rfl, rfl⟩ := hk
      rcases hm with hm | hm
      · exact ⟨t, ht, u, hu, hm⟩
      · exact ⟨u, hu, t, ht, hm⟩
    · obtain ⟨col, -, he⟩ := (filterPart_atoms hf _).mp ha
      have := (generateFilter_spec he).2
      simp at this
  · intro t ht u hu hne hr
    obtain ⟨x, hx, he⟩ := joinPredicates_complete (prune s o) c.key q.tables t u ht hu hne hr
    have hn : 1 < c.nTables b.1 b.2 := by
      rw [← hl]
      by_contra hcon
      have h1 : q.tables.length ≤ 1 := by omega
      match hq : q.tables, h1 with
      | [], _ => simp [hq] at ht
      | [z], _ =>
        simp only [hq, List.mem_singleton] at ht hu
        exact hne (ht.trans hu.symm)
    have hh := has_joins hc hi x hn hx
    have fin : ∀ t u, pairPredicate (prune s o) c.key t u = some x → JoinedBy q t u := by
      intro t u he
      obtain ⟨k, rfl, hm⟩ := pairPredicate_spec hc _ t u _ he
      refine ⟨_, _, hh, ?_⟩
      rcases hm with hm | hm
      · have := hs.2 _ _ _ hm
        exact Or.inr ⟨this.2, this.1⟩
      · have := hs.2 _ _ _ hm
        exact Or.inl ⟨this.2, this.1⟩
    rcases he with he | he
    · exact fin t u he
    · obtain ⟨a, b', hab, hor⟩ := fin u t he
      exact ⟨a, b', hab, hor.symm⟩

/-! ### Connectedness -/

/-- A non-trivial set of nodes of a connected graph can be extended along an edge. -/
theorem canExtend_of_connected (s : Sch)
    (hcon : ∀ x ∈ s.nodes, ∀ y ∈ s.nodes, Relation.ReflTransGen (fun t u => u ∈ s.nodes ∧ Related s t u) x y)
    (a : List Nat) (ha : ∀ x ∈ a, x ∈ s.nodes) (hne : a ≠ []) (y : Nat) (hy : y ∈ s.nodes) (hya : y ∉ a) :
    WalkProps.CanExtend (undirected s) a := by
  obtain ⟨x, hx⟩ := List.exists_mem_of_ne_nil a hne
  have h := hcon x (ha x hx) y hy
  clear hcon
  induction h with
  | refl => exact absurd hx hya
  | tail h1 h2 ih =>
    rename_i v w
    by_cases hv : v ∈ a
    · exact ⟨v, hv, w, (mem_adj s v w).mpr h2, hya⟩
    · by_cases hvn : v ∈ s.nodes
      · exact ih hvn hv
      · rcases Relation.ReflTransGen.cases_tail h1 with he | ⟨z, hz1, hz2⟩
        · subst he; exact absurd hx hv
        · exact absurd hz2.1 hvn

/-- C183 (partial: the tables that the user allows have to be connected by foreign keys): the tables of a generated query are
connected by its join predicates, there are no cross products. -/
theorem C183_connected_partial (data : Col → List Val) (s : Sch) (hs : WF s) (o : Opts) (q : Query) (h : Yields data s o q)
    (hcon : ∀ x y, Allowed s o x → Allowed s o y → Relation.ReflTransGen (fun t u => Allowed s o u ∧ Related s t u) x y) :
    ∀ x ∈ q.tables, ∀ y ∈ q.tables, Relation.ReflTransGen (JoinedBy q) x y := by
  have hjoins := (C183_joins data s hs o q h).2
  have hnod := (C183_tables data s hs.1 o q h).1
  obtain ⟨b, c, hc, hb, hi⟩ := yields_iteration h
  have hp := prune_nodup hs.1 o
  have hw := walk_spec hp (nodes_ne hb) hc
  have hq := (iteration_query hi).1
  have hcon' : ∀ x ∈ (prune s o).nodes, ∀ y ∈ (prune s o).nodes,
      Relation.ReflTransGen (fun t u => u ∈ (prune s o).nodes ∧ Related (prune s o) t u) x y := by
    intro x hx y hy
    have := hcon x y ((mem_prune s o x).mp hx) ((mem_prune s o y).mp hy)
    clear hcon hx hy
    induction this with
    | refl => exact .refl
    | tail _ h2 ih => exact .tail ih ⟨(mem_prune s o _).mpr h2.1, h2.2⟩
  -- each table except the first is related to an earlier one
  have step : ∀ a x r, q.tables = a ++ x :: r → a ≠ [] → ∃ v ∈ a, Related s v x := by
    intro a x r he hne
    have hfull : Walk.randomWalk (undirected (prune s o)) c.walk none =
        a ++ x :: (r ++ (Walk.randomWalk (undirected (prune s o)) c.walk none).drop (c.nTables b.1 b.2)) := by
      conv_lhs => rw [← List.take_append_drop (c.nTables b.1 b.2) (Walk.randomWalk (undirected (prune s o)) c.walk none)]
      rw [← hq, he]
      simp
    have hmem : ∀ z ∈ a ++ [x], z ∈ (prune s o).nodes := by
      intro z hz
      refine hw.1.mem_iff.mp ?_
      rw [hfull]
      rcases List.mem_append.mp hz with hz | hz
      · simp [hz]
      · simp at hz; simp [hz]
    rcases hw.2 _ _ _ hfull hne with ⟨v, hv, hx⟩ | hno
    · exact ⟨v, hv, ((mem_adj _ v x).mp hx).2⟩
    · exfalso
      apply hno
      refine canExtend_of_connected (prune s o) hcon' a (fun z hz => hmem z (by simp [hz])) hne x (hmem x (by simp)) ?_
      rw [he] at hnod
      intro hxa
      exact (List.nodup_append.mp hnod).2.2 x hxa x (by simp) rfl
  have sym : ∀ x y, Relation.ReflTransGen (JoinedBy q) x y → Relation.ReflTransGen (JoinedBy q) y x := by
    intro x y hxy
    induction hxy with
    | refl => exact .refl
    | tail _ h2 ih =>
      obtain ⟨a, b', h1, h3⟩ := h2
      exact .head ⟨a, b', h1, h3.symm⟩ ih
  -- prefixes are connected
  have pre : ∀ a r, q.tables = a ++ r → ∀ x ∈ a, ∀ y ∈ a, Relation.ReflTransGen (JoinedBy q) x y := by
    intro a
    induction a using List.reverseRecOn with
    | nil => simp
    | append_singleton a z ih =>
      intro r he
      have he' : q.tables = a ++ z :: r := by rw [he]; simp
      have hconn := ih (z :: r) he'
      by_cases hne : a = []
      · subst hne
        intro x hx y hy
        simp at hx hy
        subst hx; subst hy
        exact .refl
      · obtain ⟨v, hv, hrel⟩ := step a z r he' hne
        have hzv : v ≠ z := by
          rw [he'] at hnod
          rintro rfl
          exact (List.nodup_append.mp hnod).2.2 v hv v (by simp) rfl
        have hvz : JoinedBy q v z := hjoins v (by rw [he']; simp [hv]) z (by rw [he']; simp) hzv hrel
        have toz : ∀ x ∈ a, Relation.ReflTransGen (JoinedBy q) x z := fun x hx => .tail (hconn x hx v hv) hvz
        intro x hx y hy
        rcases List.mem_append.mp hx with hx | hx
        · rcases List.mem_append.mp hy with hy | hy
          · exact hconn x hx y hy
          · have hyz : y = z := by simpa using hy
            rw [hyz]; exact toz x hx
        · have hxz : x = z := by simpa using hx
          rw [hxz]
          rcases List.mem_append.mp hy with hy | hy
          · exact sym _ _ (toz y hy)
          · have hyz : y = z := by simpa using hy
            rw [hyz]
  exact pre q.tables [] (by simp)

/-- Three tables; the second references the first, the third is unrelated. -/
def exS : Sch where
  nodes := [0, 1, 2]
  cols t := if t = 0 then [0, 1] else if t = 1 then [0, 1, 2] else if t = 2 then [0] else []
  fks t u := if t = 1 ∧ u = 0 then [((1, 0), (0, 0))] else []
  key c := c.2 == 0
  numeric c := c.2 == 1

/-- Values of the columns. -/
def exData (c : Col) : List Val := if c.2 = 1 then [.num 7, .num 9] else if c.2 = 2 then [.null, .num 4] else [.num 1, .num 2]

/-- Choices: the largest number of tables, the first of each sequence, the given number of filters. -/
def exC (nt nf : Nat) (v : List Val → Val) : Choices where
  nTables lo hi := max lo (min nt hi)
  walk _ l := l.headD 0
  key _ _ l := l.headD ((0, 0), (0, 0))
  nFilters lo hi := max lo (min nf hi)
  sample l n := l.take n
  distinct c := exData c
  value _ l := v l
  op _ := .eq

theorem headD_mem {α : Type} (l : List α) (d : α) (h : l ≠ []) : l.headD d ∈ l := by
  cases l with
  | nil => exact absurd rfl h
  | cons a r => simp

theorem exC_valid (nt nf : Nat) (v : List Val → Val) (hv : ∀ l, l ≠ [] → v l ∈ l) : Valid exData (exC nt nf v) where
  nTables lo hi h := by simp only [exC]; omega
  walk _ l h := headD_mem l 0 h
  key _ _ l h := headD_mem l _ h
  nFilters lo hi h := by simp only [exC]; omega
  sample l n h := ⟨by simp only [exC, List.length_take]; omega, (List.take_sublist n l).subperm⟩
  distinct _ _ h := h
  value _ l h := hv l h

theorem exS_WF : WF exS := by
  refine ⟨by decide, ?_⟩
  intro t u k hk
  simp only [exS] at hk
  split at hk
  · rename_i h
    simp only [List.mem_singleton] at hk
    subst hk
    exact ⟨h.1.symm, h.2.symm⟩
  · simp at hk

/-- A query that the generator yields. -/
def exQ : Query :=
  ⟨[0, 1], some (.conj [.join (0, 0) (1, 0), .filter (0, 0) .eq (.num 1), .filter (0, 1) .eq (.num 7)])⟩

theorem exQ_yields : Yields exData exS {} exQ :=
  ⟨fun _ => exC 2 2 (fun l => l.headD .null), 1, fun _ => exC_valid _ _ _ fun l h => headD_mem l _ h, by with_unfolding_all rfl⟩

example : exS.nodes.Nodup ∧ WF exS ∧ Yields exData exS {} exQ := ⟨by decide, exS_WF, exQ_yields⟩

/-- The hypothesis of `C183_connected_partial` can be met: without the third table the schema is connected. -/
example : Yields exData exS { ignore := [2] } exQ ∧ ∀ x y, Allowed exS { ignore := [2] } x → Allowed exS { ignore := [2] } y →
    Relation.ReflTransGen (fun t u => Allowed exS { ignore := [2] } u ∧ Related exS t u) x y := by
  refine ⟨⟨fun _ => exC 2 2 (fun l => l.headD .null), 1, fun _ => exC_valid _ _ _ fun l h => headD_mem l _ h,
    by with_unfolding_all rfl⟩, ?_⟩
  have h0 : Allowed exS { ignore := [2] } 0 := ⟨by decide, by decide, by decide⟩
  have h1 : Allowed exS { ignore := [2] } 1 := ⟨by decide, by decide, by decide⟩
  have r : Related exS 1 0 := Or.inl (by decide)
  have only : ∀ x, Allowed exS { ignore := [2] } x → x = 0 ∨ x = 1 := by
    intro x hx
    have h2 := hx.1
    have h3 := hx.2.1
    simp [exS] at h2 h3
    omega
  intro x y hx hy
  rcases only x hx with rfl | rfl <;> rcases only y hy with rfl | rfl
  · exact .refl
  · exact .single ⟨h1, r.symm⟩
  · exact .single ⟨h0, r⟩
  · exact .refl

/-- C183 violated (cross products): with a table that is unrelated to the others the generator yields a query that is no
connected join. -/
theorem C183_cross_violated : ∃ q, Yields exData exS {} q ∧ 2 ∈ q.tables ∧ 0 ∈ q.tables ∧
    ∀ t, ¬ JoinedBy q 2 t := by
  refine ⟨⟨[0, 1, 2], some (.conj [.join (0, 0) (1, 0), .filter (0, 0) .eq (.num 1), .filter (0, 1) .eq (.num 7)])⟩,
    ⟨fun _ => exC 3 2 (fun l => l.headD .null), 1, fun _ => exC_valid _ _ _ fun l h => headD_mem l _ h,
      by with_unfolding_all rfl⟩, by decide, by decide, ?_⟩
  rintro t ⟨a, b, ⟨p, hp, ha⟩, hab⟩
  simp only [Option.some.injEq] at hp
  subst hp
  cases ha with
  | conj _ y _ hy hx =>
    simp only [List.mem_cons, List.not_mem_nil, or_false] at hy
    rcases hy with rfl | rfl | rfl
    · cases hx
      rcases hab with ⟨h1, h2⟩ | ⟨h1, h2⟩ <;> simp at h1 h2
    · cases hx
    · cases hx

/-- C183 violated (unrelated tables): if there are no foreign keys, the generator never yields a query with several tables; it
fails or does not stop. -/
theorem C183_unrelated_violated (data : Col → List Val) (s : Sch) (hs : s.nodes.Nodup) (o : Opts)
    (hno : ∀ t u, ¬ Related s t u) (q : Query) (h : Yields data s o q) : q.tables.length = 1 := by
  obtain ⟨b, c, hc, hb, hi⟩ := yields_iteration h
  have hp := prune_nodup hs o
  have hl := tables_length hp hb hc
  obtain ⟨ht, joins, hj, -⟩ := iteration_query hi
  rw [← ht] at hl
  have h1 := (C183_tables data s hs o q h).2.2.1
  by_contra hne
  have hn : 1 < c.nTables b.1 b.2 := by omega
  unfold joinPart at hj
  rw [if_pos hn] at hj
  simp only at hj
  have : joinPredicates (prune s o) c.key q.tables = [] := by
    by_contra hne'
    obtain ⟨x, hx⟩ := List.exists_mem_of_ne_nil _ hne'
    obtain ⟨t, -, u, -, he⟩ := mem_joinPredicates _ _ _ _ hx
    obtain ⟨k, -, hk⟩ := pairPredicate_spec hc _ t u _ he
    apply hno t u
    rcases hk with hk | hk
    · exact Or.inl (List.ne_nil_of_mem hk)
    · exact Or.inr (List.ne_nil_of_mem hk)
  rw [this] at hj
  simp at hj

/-! ### The filters (C184) -/

theorem mem_available (s : Sch) (o : Opts) (tables : List Nat) (c : Col) :
    c ∈ availableColumns s o tables ↔ c.1 ∈ s.nodes ∧ c.1 ∈ tables ∧ c.2 ∈ s.cols c.1 ∧
      (o.filterKeyColumns = false → s.key c = false) ∧ (o.numericFilters = true → s.numeric c = true) := by
  have base : c ∈ ((s.nodes.filter fun t => tables.contains t).flatMap fun t => (s.cols t).map fun i => (t, i)) ↔
      c.1 ∈ s.nodes ∧ c.1 ∈ tables ∧ c.2 ∈ s.cols c.1 := by
    simp only [List.mem_flatMap, List.mem_filter, List.contains_eq_mem, decide_eq_true_eq, List.mem_map]
    constructor
    · rintro ⟨t, ⟨h1, h2⟩, i, hi, rfl⟩
      exact ⟨h1, h2, hi⟩
    · rintro ⟨h1, h2, h3⟩
      exact ⟨c.1, ⟨h1, h2⟩, c.2, h3, rfl⟩
  unfold availableColumns
  simp only
  cases o.filterKeyColumns <;> cases o.numericFilters <;>
    simp only [Bool.false_eq_true, if_true, if_false, List.mem_filter, base, Bool.not_eq_true'] <;> simp <;> tauto

theorem available_nodup (s : Sch) (hs : s.nodes.Nodup) (hcol : ∀ t, (s.cols t).Nodup) (o : Opts) (tables : List Nat) :
    (availableColumns s o tables).Nodup := by
  have base : ((s.nodes.filter fun t => tables.contains t).flatMap fun t => (s.cols t).map fun i => (t, i)).Nodup := by
    refine List.nodup_flatMap.mpr ⟨?_, ?_⟩
    · intro t _
      exact (hcol t).map fun a b h => (Prod.mk.inj h).2
    · refine (hs.filter _).imp ?_
      intro t u htu
      simp only [Function.onFun, List.disjoint_left, List.mem_map]
      rintro x ⟨i, -, rfl⟩ ⟨j, -, hj⟩
      exact htu (Prod.mk.inj hj).1.symm
  unfold availableColumns
  simp only
  split <;> split
  · exact base.filter _
  · exact (base.filter _).filter _
  · exact base
  · exact base.filter _

/-- The filters of a generated query are those of the sample, if these are several; else there are none. -/
theorem filters_iff {data : Col → List Val} {s : Sch} {o : Opts} {b : Nat × Nat} {c : Choices} (hc : Valid data c) {q : Query}
    (h : iteration s o b c = .query q) (x : Col) :
    Filters q x ↔ ∃ ps, filterPart c (c.nFilters (filterBounds s o).1
        (min (filterBounds s o).2 (availableColumns s o q.tables).length)) (availableColumns s o q.tables) = some (.conj ps) ∧
      x ∈ c.sample (availableColumns s o q.tables) (c.nFilters (filterBounds s o).1
        (min (filterBounds s o).2 (availableColumns s o q.tables).length)) ∧ (generateFilter c x).isSome = true := by
  constructor
  · rintro ⟨op, v, hx⟩
    rcases has_cases hc h _ hx with ⟨-, hx⟩ | ⟨ps, hf, ha⟩
    · obtain ⟨t, -, u, -, he⟩ := mem_joinPredicates _ _ _ _ hx
      obtain ⟨k, hk, -⟩ := pairPredicate_spec hc _ t u _ he
      simp at hk
    · obtain ⟨col, hcol, he⟩ := (filterPart_atoms hf _).mp ha
      have := (generateFilter_spec he).2
      simp only [Pd.filter.injEq] at this
      obtain ⟨rfl, -, -⟩ := this
      exact ⟨ps, hf, hcol, by simp [he]⟩
  · rintro ⟨ps, hf, hx, hs⟩
    obtain ⟨y, hy⟩ := Option.isSome_iff_exists.mp hs
    have hy' := (generateFilter_spec hy).2
    refine ⟨c.op x, c.value x (c.distinct x), ?_⟩
    obtain ⟨-, joins, hj, -, hw⟩ := iteration_query h
    refine (whereClause_atoms hw _).mpr ?_
    have ha : Atom (.conj ps) y := (filterPart_atoms hf y).mpr ⟨x, hx, hy⟩
    rw [hy'] at ha
    cases ha with
    | conj _ z _ hz hx' =>
      refine ⟨z, List.mem_append_right _ ?_, hx'⟩
      rw [hf]
      exact List.mem_map.mpr ⟨z, hz, rfl⟩

theorem sample_ok {data : Col → List Val} {s : Sch} {o : Opts} {b : Nat × Nat} {c : Choices} (hc : Valid data c) {q : Query}
    (h : iteration s o b c = .query q) :
    let n := c.nFilters (filterBounds s o).1 (min (filterBounds s o).2 (availableColumns s o q.tables).length)
    (filterBounds s o).1 ≤ n ∧ n ≤ (filterBounds s o).2 ∧ n ≤ (availableColumns s o q.tables).length ∧
      (c.sample (availableColumns s o q.tables) n).length = n ∧
      (c.sample (availableColumns s o q.tables) n).Subperm (availableColumns s o q.tables) := by
  obtain ⟨-, joins, -, hb, -⟩ := iteration_query h
  have h1 := hc.nFilters _ _ (Nat.le_of_lt hb)
  intro n
  have h2 : n ≤ (availableColumns s o q.tables).length := Nat.le_trans h1.2 (Nat.min_le_right _ _)
  have h3 := hc.sample _ n h2
  exact ⟨h1.1, Nat.le_trans h1.2 (Nat.min_le_left _ _), h2, h3.1, h3.2⟩

/-- C184: the filters of a generated query are on columns of its tables that the user allows to be filtered, compare them with a
value that occurs in the column, and there are no more of them than the user wants. -/
theorem C184_filters (data : Col → List Val) (s : Sch) (o : Opts) (q : Query) (h : Yields data s o q) :
    (∀ c op v, Has q (.filter c op v) → c.1 ∈ q.tables ∧ c.2 ∈ s.cols c.1 ∧
      (o.filterKeyColumns = false → s.key c = false) ∧ (o.numericFilters = true → s.numeric c = true) ∧ v ∈ data c) ∧
    ∃ F : List Col, F.Nodup ∧ (∀ c, c ∈ F ↔ Filters q c) ∧ ∀ n, o.maxFilters = some n → 0 < n → F.length ≤ n := by
  obtain ⟨b, c, hc, hb, hi⟩ := yields_iteration h
  have hsam := sample_ok hc hi
  simp only at hsam
  constructor
  · intro x op v hx
    rcases has_cases hc hi _ hx with ⟨-, hx⟩ | ⟨ps, hf, ha⟩
    · obtain ⟨t, -, u, -, he⟩ := mem_joinPredicates _ _ _ _ hx
      obtain ⟨k, hk, -⟩ := pairPredicate_spec hc _ t u _ he
      simp at hk
    · obtain ⟨col, hcol, he⟩ := (filterPart_atoms hf _).mp ha
      obtain ⟨hne, he⟩ := generateFilter_spec he
      simp only [Pd.filter.injEq] at he
      obtain ⟨rfl, rfl, rfl⟩ := he
      have hm := (mem_available _ _ _ _).mp (hsam.2.2.2.2.subset hcol)
      exact ⟨hm.2.1, hm.2.2.1, hm.2.2.2.1, hm.2.2.2.2, hc.distinct _ _ (hc.value _ _ hne)⟩
  · by_cases hex : ∃ ps, filterPart c (c.nFilters (filterBounds (prune s o) o).1
        (min (filterBounds (prune s o) o).2 (availableColumns (prune s o) o q.tables).length))
        (availableColumns (prune s o) o q.tables) = some (.conj ps)
    · refine ⟨((c.sample (availableColumns (prune s o) o q.tables) (c.nFilters (filterBounds (prune s o) o).1
        (min (filterBounds (prune s o) o).2 (availableColumns (prune s o) o q.tables).length))).filter
        fun x => (generateFilter c x).isSome).dedup, List.nodup_dedup _, ?_, ?_⟩
      · intro x
        rw [filters_iff hc hi]
        simp only [List.mem_dedup, List.mem_filter]
        obtain ⟨ps, hps⟩ := hex
        constructor
        · rintro ⟨h1, h2⟩
          exact ⟨ps, hps, h1, h2⟩
        · rintro ⟨_, _, h1, h2⟩
          exact ⟨h1, h2⟩
      · intro n hn h0
        refine Nat.le_trans (List.dedup_sublist _).length_le (Nat.le_trans (List.length_filter_le _ _) ?_)
        rw [hsam.2.2.2.1]
        refine Nat.le_trans hsam.2.1 ?_
        simp [filterBounds, hn, orElse_pos _ _ h0]
    · refine ⟨[], by simp, ?_, by simp⟩
      intro x
      rw [filters_iff hc hi]
      simp only [List.not_mem_nil, false_iff]
      rintro ⟨ps, hps, -⟩
      exact hex ⟨ps, hps⟩

example : Yields exData exS {} exQ ∧ Filters exQ (0, 1) :=
  ⟨exQ_yields, .eq, .num 7, _, rfl, .conj _ (.filter (0, 1) .eq (.num 7)) _ (by simp) (.filter _ _ _)⟩

/-- A run in which the query for the distinct values finds some for each column. -/
def YieldsFull (data : Col → List Val) (s : Sch) (o : Opts) (q : Query) : Prop :=
  ∃ (cs : Nat → Choices) (fuel : Nat), (∀ i, Valid data (cs i) ∧ ∀ c, (cs i).distinct c ≠ []) ∧
    generate s o cs fuel = some (.query q)

theorem subperm_nodup {α : Type} {l l' : List α} (h : l.Subperm l') (hn : l'.Nodup) : l.Nodup := by
  obtain ⟨m, hp, hs⟩ := h
  exact hp.nodup_iff.mp (hn.sublist hs)

theorem filterMap_all {α β : Type} (f : α → Option β) (l : List α) (h : ∀ x, (f x).isSome = true) :
    (l.filterMap f).length = l.length := by
  induction l with
  | nil => rfl
  | cons a r ih =>
    obtain ⟨y, hy⟩ := Option.isSome_iff_exists.mp (h a)
    simp [hy, ih]

theorem createAnd_conj {ps : List Pd} (h : 2 ≤ ps.length) : createAnd ps = some (.conj ps) := by
  match ps, h with
  | _ :: _ :: _, _ => rfl

/-- C184 (partial: at least two filters are asked for, there are values for each column, and none of them is NULL, zero or the
empty string): a generated query has as many filters as the user wants. -/
theorem C184_min_partial (data : Col → List Val) (s : Sch) (hs : s.nodes.Nodup) (hcol : ∀ t, (s.cols t).Nodup) (o : Opts)
    (q : Query) (h : YieldsFull data s o q) (hdata : ∀ c, ∀ v ∈ data c, v ≠ .null ∧ v ≠ .num 0 ∧ v ≠ .txt "")
    (n : Nat) (hn : o.minFilters = some n) (h2 : 2 ≤ n) :
    ∃ F : List Col, F.Nodup ∧ (∀ c, c ∈ F ↔ Filters q c) ∧ n ≤ F.length := by
  obtain ⟨cs, fuel, hv, hg⟩ := h
  unfold generate at hg
  simp only at hg
  split at hg
  · simp at hg
  rename_i b hb
  obtain ⟨j, hi⟩ := run_spec _ _ _ _ _ _ _ hg
  have hc := (hv j).1
  have hsam := sample_ok hc hi
  simp only at hsam
  generalize hN : (cs j).nFilters (filterBounds (prune s o) o).1
    (min (filterBounds (prune s o) o).2 (availableColumns (prune s o) o q.tables).length) = N at hsam
  have hNn : n ≤ N := by
    have : (filterBounds (prune s o) o).1 = n := by
      simp only [filterBounds, hn]; exact orElse_pos _ _ (by omega)
    omega
  have hgen : ∀ x, ((generateFilter (cs j) x).isSome) = true := by
    intro x
    have hno : noCandidates ((cs j).distinct x) = false := by
      have hne := (hv j).2 x
      have hd := hc.distinct x
      match hl : (cs j).distinct x with
      | [] => exact absurd hl hne
      | [v] =>
        rw [hl] at hd
        have := hdata x v (hd v (by simp))
        cases v with
        | null => simp at this
        | num k => simpa [noCandidates, falsy] using this
        | txt t => simpa [noCandidates, falsy] using this
      | _ :: _ :: _ => rfl
    simp [generateFilter, hno]
  refine ⟨(cs j).sample (availableColumns (prune s o) o q.tables) N,
    subperm_nodup hsam.2.2.2.2 (available_nodup (prune s o) (prune_nodup hs o) hcol o q.tables), ?_, by rw [hsam.2.2.2.1]; exact hNn⟩
  intro x
  rw [filters_iff hc hi, hN]
  have hlen : ((((cs j).sample (availableColumns (prune s o) o q.tables) N)).filterMap (generateFilter (cs j))).length = N := by
    rw [filterMap_all _ _ hgen]
    exact hsam.2.2.2.1
  have hfp : ∃ ps, filterPart (cs j) N (availableColumns (prune s o) o q.tables) = some (.conj ps) := by
    unfold filterPart
    have h0 : decide (N > 0) = true := by simp; omega
    have hav : (availableColumns (prune s o) o q.tables).isEmpty = false := by
      rw [List.isEmpty_eq_false_iff]
      intro he
      rw [he] at hsam
      simp at hsam
      omega
    rw [h0, hav]
    exact ⟨_, createAnd_conj (by rw [hlen]; omega)⟩
  constructor
  · intro hx
    obtain ⟨ps, hps⟩ := hfp
    exact ⟨ps, hps, hx, hgen x⟩
  · rintro ⟨_, _, hx, _⟩
    exact hx

/-- A schema whose values are all usable, and a query with two filters. -/
example : ∃ q, YieldsFull (fun _ => [.num 7, .num 9]) exS { minFilters := some 2 } q := by
  refine ⟨⟨[0, 1], some (.conj [.join (0, 0) (1, 0), .filter (0, 0) .eq (.num 7), .filter (0, 1) .eq (.num 7)])⟩,
    fun _ => { exC 2 2 (fun l => l.headD .null) with distinct := fun _ => [.num 7, .num 9] }, 1, ?_, by with_unfolding_all rfl⟩
  intro _
  have h := exC_valid 2 2 (fun l => l.headD .null) (fun l h => headD_mem l _ h)
  exact ⟨⟨h.nTables, h.walk, h.key, h.nFilters, h.sample, fun _ _ h => h, h.value⟩, fun _ => by simp⟩

/-- C184 violated (one filter): no generated query has exactly one filter, although one filter is allowed by default: the
single filter is replaced by the join predicates. -/
theorem C184_single_violated (data : Col → List Val) (s : Sch) (hs : s.nodes.Nodup) (hcol : ∀ t, (s.cols t).Nodup) (o : Opts)
    (q : Query) (h : Yields data s o q) (c : Col) (hf : Filters q c) : ∃ c', c' ≠ c ∧ Filters q c' := by
  obtain ⟨b, ch, hc, hb, hi⟩ := yields_iteration h
  have hsam := sample_ok hc hi
  simp only at hsam
  have hiff := filters_iff hc hi
  obtain ⟨ps, hps, hx, hs'⟩ := (hiff c).mp hf
  generalize hN : ch.nFilters (filterBounds (prune s o) o).1
    (min (filterBounds (prune s o) o).2 (availableColumns (prune s o) o q.tables).length) = N at *
  have hnd := subperm_nodup hsam.2.2.2.2 (available_nodup (prune s o) (prune_nodup hs o) hcol o q.tables)
  by_contra hcon
  push Not at hcon
  have huniq : ∀ x ∈ ch.sample (availableColumns (prune s o) o q.tables) N, (generateFilter ch x).isSome = true → x = c := by
    intro x hx1 hx2
    by_contra hne
    exact hcon x hne ((hiff x).mpr ⟨ps, hps, hx1, hx2⟩)
  have hlen : (((ch.sample (availableColumns (prune s o) o q.tables) N)).filterMap (generateFilter ch)).length ≤ 1 := by
    generalize ch.sample (availableColumns (prune s o) o q.tables) N = l at hnd huniq
    have hsub : (l.filterMap (generateFilter ch)).length = (l.filter fun x => (generateFilter ch x).isSome).length := by
      clear hnd huniq
      induction l with
      | nil => rfl
      | cons a r ih =>
        cases hg : generateFilter ch a <;> simp [hg, ih]
    rw [hsub]
    have hnd2 := hnd.filter fun x => (generateFilter ch x).isSome
    have hall : ∀ x ∈ (l.filter fun x => (generateFilter ch x).isSome), x = c := by
      intro x hx
      obtain ⟨h1, h2⟩ := List.mem_filter.mp hx
      exact huniq x h1 h2
    match hl : (l.filter fun x => (generateFilter ch x).isSome) with
    | [] => simp
    | [_] => simp
    | a :: b :: r =>
      rw [hl] at hnd2 hall
      have h1 := hall a (by simp)
      have h2 := hall b (by simp)
      rw [h1, h2] at hnd2
      simp at hnd2
  unfold filterPart at hps
  split at hps
  · match hl : (ch.sample (availableColumns (prune s o) o q.tables) N).filterMap (generateFilter ch) with
    | [] => simp [hl, createAnd] at hps
    | [y] =>
      simp only [hl, createAnd, Option.some.injEq] at hps
      have hy : y ∈ (ch.sample (availableColumns (prune s o) o q.tables) N).filterMap (generateFilter ch) := by rw [hl]; simp
      obtain ⟨x, -, hgx⟩ := List.mem_filterMap.mp hy
      have := (generateFilter_spec hgx).2
      rw [this] at hps
      simp at hps
    | _ :: _ :: _ => rw [hl] at hlen; simp at hlen
  · simp at hps

/-- C184 violated (lost filters): at least one filter is asked for, but the query has none. -/
theorem C184_lost_violated : ∃ q, Yields exData exS { minFilters := some 1 } q ∧ ∀ c, ¬ Filters q c := by
  refine ⟨⟨[0, 1], some (.conj [.join (0, 0) (1, 0), .join (0, 0) (1, 0)])⟩,
    ⟨fun _ => exC 2 1 (fun l => l.headD .null), 1, fun _ => exC_valid _ _ _ fun l h => headD_mem l _ h,
      by with_unfolding_all rfl⟩, ?_⟩
  rintro c ⟨op, v, p, hp, ha⟩
  simp only [Option.some.injEq] at hp
  subst hp
  cases ha with
  | conj _ y _ hy hx =>
    simp only [List.mem_cons, List.not_mem_nil, or_false, or_self] at hy
    subst hy
    cases hx

/-- C184 violated (one table, one filter): the generator ends with an error. -/
theorem C184_error_violated : ∃ cs, (∀ i, Valid exData (cs i)) ∧ generate exS {} cs 1 = some .error :=
  ⟨fun _ => exC 1 1 (fun l => l.headD .null), fun _ => exC_valid _ _ _ fun l h => headD_mem l _ h, by with_unfolding_all rfl⟩

/-- C184 violated (NULL): columns are compared with NULL, which no row satisfies. -/
theorem C184_null_violated : ∃ q c, Yields exData exS {} q ∧ Has q (.filter c .eq .null) := by
  refine ⟨⟨[0, 1], some (.conj [.join (0, 0) (1, 0), .filter (0, 0) .eq (.num 1), .filter (0, 1) .eq (.num 7),
    .filter (1, 0) .eq (.num 1), .filter (1, 1) .eq (.num 7), .filter (1, 2) .eq .null])⟩, (1, 2),
    ⟨fun _ => exC 2 5 (fun l => l.headD .null), 1, fun _ => exC_valid _ _ _ fun l h => headD_mem l _ h,
      by with_unfolding_all rfl⟩, _, rfl, .conj _ (.filter (1, 2) .eq .null) _ (by simp) (.filter _ _ _)⟩

/-! ### Termination (C185) -/

/-- C185 violated (fixed number of filters): if the least and the largest number of filters are the same, the generator never
yields a query. -/
theorem C185_exact_violated (data : Col → List Val) (s : Sch) (o : Opts) (n : Nat) (hn : 0 < n)
    (h1 : o.minFilters = some n) (h2 : o.maxFilters = some n) (q : Query) : ¬ Yields data s o q := by
  intro h
  obtain ⟨b, c, hc, hb, hi⟩ := yields_iteration h
  obtain ⟨-, joins, -, hlt, -⟩ := iteration_query hi
  simp only [filterBounds, h1, h2, orElse_pos _ _ hn] at hlt
  omega

/-- C185 violated (no columns): if the tables have no columns that may be filtered, the generator never yields a query, although
queries without filters are allowed. -/
theorem C185_no_columns_violated (data : Col → List Val) (s : Sch) (o : Opts) (hk : o.filterKeyColumns = false)
    (hall : ∀ c, s.key c = true) (q : Query) : ¬ Yields data s o q := by
  intro h
  obtain ⟨b, c, hc, hb, hi⟩ := yields_iteration h
  obtain ⟨-, joins, -, hlt, -⟩ := iteration_query hi
  have : availableColumns (prune s o) o q.tables = [] := by
    by_contra hne
    obtain ⟨x, hx⟩ := List.exists_mem_of_ne_nil _ hne
    have := ((mem_available _ _ _ _).mp hx).2.2.2.1 hk
    rw [show (prune s o).key x = s.key x from rfl, hall x] at this
    simp at this
  rw [this] at hlt
  simp at hlt

/-- C185 violated (no filters): the largest number of filters zero is taken as "no limit". -/
theorem C185_zero_violated : ∃ q c, Yields exData exS { maxFilters := some 0 } q ∧ Filters q c :=
  ⟨exQ, (0, 1), ⟨fun _ => exC 2 2 (fun l => l.headD .null), 1, fun _ => exC_valid _ _ _ fun l h => headD_mem l _ h,
    by with_unfolding_all rfl⟩, .eq, .num 7, _, rfl, .conj _ (.filter (0, 1) .eq (.num 7)) _ (by simp) (.filter _ _ _)⟩

/-- C185 (partial: each table has more columns that may be filtered than the least number of filters, and the largest number is
greater than the least): the generator answers at once, with a query or an error. -/
theorem C185_progress_partial (data : Col → List Val) (s : Sch) (hs : s.nodes.Nodup) (o : Opts) (lo : Nat)
    (hlo : o.minFilters = none ∧ lo = 0 ∨ o.minFilters = some lo)
    (hmax : o.maxFilters = none ∨ ∃ hi, o.maxFilters = some hi ∧ lo < hi)
    (hcols : ∀ t, Allowed s o t → ∃ L : List Nat, L.Nodup ∧ lo < L.length ∧ L.Subperm (s.cols t) ∧ ∀ i ∈ L,
      (o.filterKeyColumns = false → s.key (t, i) = false) ∧ (o.numericFilters = true → s.numeric (t, i) = true))
    (cs : Nat → Choices) (hv : ∀ i, Valid data (cs i)) : ∃ r, generate s o cs 1 = some r := by
  unfold generate
  simp only
  split
  · exact ⟨_, rfl⟩
  rename_i b hb
  have hp := prune_nodup hs o
  have key : iteration (prune s o) o b (cs 0) ≠ .retry := by
    have hl := tables_length hp hb (hv 0)
    have hw := (walk_spec hp (nodes_ne hb) (hv 0)).1
    have h1 : 1 ≤ b.1 := (bounds_spec hb).1 ▸ one_le_orElse _
    have hn := (hv 0).nTables _ _ (bounds_spec hb).2.2
    unfold iteration
    simp only
    generalize hT : (Walk.randomWalk (undirected (prune s o)) (cs 0).walk none).take ((cs 0).nTables b.1 b.2) = T at hl
    split
    · simp
    split
    · rename_i hretry
      exfalso
      have hne : T ≠ [] := by
        intro he; rw [he] at hl; simp at hl; omega
      obtain ⟨t, ht⟩ := List.exists_mem_of_ne_nil _ hne
      have htn : t ∈ (prune s o).nodes := by
        rw [← hT] at ht
        exact hw.mem_iff.mp (List.mem_of_mem_take ht)
      obtain ⟨L, hL1, hL2, hL3, hL4⟩ := hcols t ((mem_prune s o t).mp htn)
      have hsub : (L.map fun i => (t, i)).Subperm (availableColumns (prune s o) o T) := by
        refine List.subperm_of_subset (hL1.map fun a b h => (Prod.mk.inj h).2) ?_
        intro x hx
        obtain ⟨i, hi, rfl⟩ := List.mem_map.mp hx
        exact (mem_available _ _ _ _).mpr ⟨htn, ht, hL3.subset hi, hL4 i hi⟩
      have hlen := hsub.length_le
      simp only [List.length_map] at hlen
      have hf1 : (filterBounds (prune s o) o).1 = lo := by
        rcases hlo with ⟨h, rfl⟩ | h
        · simp [filterBounds, h, orElse]
        · cases lo <;> simp [filterBounds, h, orElse]
      have hf2 : lo < (filterBounds (prune s o) o).2 := by
        have all : lo < ((prune s o).nodes.flatMap (prune s o).cols).length := by
          have h1 := hL3.length_le
          have h2 : ((prune s o).cols t).length ≤ ((prune s o).nodes.flatMap (prune s o).cols).length :=
            by
              rw [List.flatMap_def]
              exact (List.sublist_flatten_of_mem (List.mem_map.mpr ⟨t, htn, rfl⟩)).length_le
          have h3 : (prune s o).cols t = s.cols t := rfl
          rw [h3] at h2
          omega
        rcases hmax with h | ⟨hi, h, hlt⟩
        · simpa [filterBounds, h, orElse] using all
        · simp [filterBounds, h, orElse_pos hi _ (by omega), hlt]
      omega
    · split <;> simp
  unfold run
  split
  · rename_i h; exact absurd h key
  · exact ⟨_, rfl⟩

example : ∀ t, Allowed exS {} t → ∃ L : List Nat, L.Nodup ∧ 0 < L.length ∧ L.Subperm (exS.cols t) ∧ ∀ i ∈ L,
    (({} : Opts).filterKeyColumns = false → exS.key (t, i) = false) ∧
    (({} : Opts).numericFilters = true → exS.numeric (t, i) = true) := by
  intro t ht
  refine ⟨[0], by simp, by simp, ?_, by simp⟩
  have h := ht.1
  simp only [exS, List.mem_cons, List.not_mem_nil, or_false] at h
  refine List.singleton_subperm_iff.mpr ?_
  rcases h with rfl | rfl | rfl <;> decide

end PB.QGenProps
