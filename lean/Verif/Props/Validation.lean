import Verif.Model.Validation
import Verif.Props.EquivClasses

/-! Properties C43, C44, C45, C95, C96: pre-checks. -/

set_option linter.unusedSimpArgs false
set_option linter.unusedVariables false
set_option linter.unusedSectionVars false
set_option linter.unnecessarySimpa false

namespace PB.ValidationProps
open PB PB.Qal PB.Qal.Expr PB.Validation PB.QueryPredsProps PB.ExprProps PB.PredProps PB.EquivProps

variable {Qy D Q : Type}

/-! ### C43: merging checks -/

/-- The check accepts the query. -/
def AcceptsQuery (c : Check Qy D) (q : Qy) : Prop := (c.onQuery q).passed = true

/-- The check accepts the database system. -/
def AcceptsDb (c : Check Qy D) (d : D) : Prop := (c.onDb d).passed = true

/-- Atomic checks that compare equal behave equally. -/
def Faithful (as : List (Atom Qy D)) : Prop :=
  ∀ a ∈ as, ∀ b ∈ as, a.key = b.key → a.onQuery = b.onQuery ∧ a.onDb = b.onDb

/-- Sets are iterated in some order. -/
def Order (ord : List (Check Qy D) → List (Check Qy D)) : Prop := ∀ l, (ord l).Perm l

theorem pySet_subset {α κ : Type} [DecidableEq κ] (key : α → κ) (l : List α) : ∀ a ∈ pySet key l, a ∈ l := by
  induction l with
  | nil => simp [pySet]
  | cons x l ih =>
    intro a ha
    rw [pySet, List.mem_cons, List.mem_filter] at ha
    rcases ha with rfl | ⟨h, _⟩
    · simp
    · simp [ih a h]

theorem pySet_repr {α κ : Type} [DecidableEq κ] (key : α → κ) (l : List α) (a : α) (ha : a ∈ l) :
    ∃ b ∈ pySet key l, key b = key a := by
  induction l with
  | nil => simp at ha
  | cons x l ih =>
    rw [pySet]
    by_cases hx : key x = key a
    · exact ⟨x, by simp, hx⟩
    · rcases List.mem_cons.1 ha with rfl | ha
      · exact absurd rfl hx
      · obtain ⟨b, hb, hk⟩ := ih ha
        exact ⟨b, List.mem_cons_of_mem _ (List.mem_filter.2 ⟨hb, by simpa [hk] using hx⟩), hk⟩

theorem pySet_distinct {α κ : Type} [DecidableEq κ] (key : α → κ) (l : List α) : ((pySet key l).map key).Nodup := by
  induction l with
  | nil => simp [pySet]
  | cons x l ih =>
    rw [pySet, List.map_cons, List.nodup_cons]
    refine ⟨?_, ih.sublist (List.filter_sublist.map _)⟩
    rw [List.mem_map]
    rintro ⟨b, hb, hk⟩
    rw [List.mem_filter] at hb
    simp [hk] at hb

theorem onQuery_passed (c : Check Qy D) (q : Qy) :
    (c.onQuery q).passed = true ↔ ∀ a ∈ c.atoms, (a.onQuery q).passed = true := by
  cases c with
  | empty => simp [Check.onQuery, Check.atoms, Res.ok]
  | atom a => simp [Check.onQuery, Check.atoms]
  | compound as => simp [Check.onQuery, Check.atoms, compoundQuery]

theorem onQuery_reasons (c : Check Qy D) (q : Qy) (h : (c.onQuery q).passed = false) (s : String) :
    s ∈ (c.onQuery q).reason.list ↔ ∃ a ∈ c.atoms, s ∈ (a.onQuery q).reason.list := by
  cases c with
  | empty => simp [Check.onQuery, Res.ok] at h
  | atom a => simp [Check.onQuery, Check.atoms]
  | compound as =>
    simp only [Check.onQuery, compoundQuery] at h ⊢
    simp only [h, Bool.not_false, if_true, Reason.list, List.mem_flatMap, List.mem_map, Check.atoms]
    constructor
    · rintro ⟨_, ⟨a, ha, rfl⟩, hs⟩; exact ⟨a, ha, hs⟩
    · rintro ⟨a, ha, hs⟩; exact ⟨_, ⟨a, ha, rfl⟩, hs⟩

theorem key_atoms {c d : Check Qy D} (h : c.key = d.key) : c.atoms.map (·.key) = d.atoms.map (·.key) := by
  cases c <;> cases d <;> simp [Check.key, Check.atoms] at h ⊢ <;> exact h

theorem mergedAtoms_spec (ord : List (Check Qy D) → List (Check Qy D)) (ho : Order ord) (all : List (Check Qy D)) :
    (∀ a ∈ mergedAtoms ord all, ∃ c ∈ all, a ∈ c.atoms) ∧
    ∀ c ∈ all, ∀ a ∈ c.atoms, ∃ b ∈ mergedAtoms ord all, b.key = a.key := by
  have hmem : ∀ a, a ∈ ((ord (pySet Check.key all)).flatMap fun c => match c with | .atom a => [a] | _ => []) ++
      ((ord (pySet Check.key all)).flatMap fun c => match c with | .compound as => as | _ => []) ↔
      ∃ c ∈ pySet Check.key all, a ∈ c.atoms := by
    intro a
    simp only [List.mem_append, List.mem_flatMap, (ho _).mem_iff]
    constructor
    · rintro (⟨c, hc, ha⟩ | ⟨c, hc, ha⟩) <;> refine ⟨c, hc, ?_⟩ <;> cases c <;> simp [Check.atoms] at ha ⊢ <;> exact ha
    · rintro ⟨c, hc, ha⟩
      cases c with
      | empty => simp [Check.atoms] at ha
      | atom b => exact .inl ⟨_, hc, ha⟩
      | compound bs => exact .inr ⟨_, hc, ha⟩
  constructor
  · intro a ha
    obtain ⟨c, hc, h⟩ := (hmem a).1 (pySet_subset _ _ a ha)
    exact ⟨c, pySet_subset _ _ c hc, h⟩
  · intro c hc a ha
    obtain ⟨d, hd, hk⟩ := pySet_repr Check.key all c hc
    have : a.key ∈ d.atoms.map (·.key) := by rw [key_atoms hk]; exact List.mem_map.2 ⟨a, ha, rfl⟩
    obtain ⟨b, hb, hbk⟩ := List.mem_map.1 this
    obtain ⟨e, he, hek⟩ := pySet_repr Atom.key _ b ((hmem b).2 ⟨d, hd, hb⟩)
    exact ⟨e, he, hek.trans hbk⟩

theorem mergeChecks_atoms (ord : List (Check Qy D) → List (Check Qy D)) (checks more : List (Check Qy D))
    (h : checks ≠ []) : (mergeChecks ord checks more).atoms = mergedAtoms ord (checks ++ more) := by
  rw [mergeChecks, if_neg (by simpa using h)]
  split <;> rename_i he <;> simp [Check.atoms, he]

/-- **C43** (partial: checks that compare equal behave equally, and the first argument is not empty). A merged check accepts
a query iff all its parts do. -/
theorem C43_query_partial (ord : List (Check Qy D) → List (Check Qy D)) (ho : Order ord) (checks more : List (Check Qy D))
    (hne : checks ≠ []) (hf : Faithful ((checks ++ more).flatMap Check.atoms)) (q : Qy) :
    AcceptsQuery (mergeChecks ord checks more) q ↔ ∀ c ∈ checks ++ more, AcceptsQuery c q := by
  obtain ⟨h1, h2⟩ := mergedAtoms_spec ord ho (checks ++ more)
  unfold AcceptsQuery
  rw [onQuery_passed, mergeChecks_atoms ord checks more hne]
  constructor
  · intro h c hc
    rw [onQuery_passed]
    intro a ha
    obtain ⟨b, hb, hk⟩ := h2 c hc a ha
    obtain ⟨c', hc', hb'⟩ := h1 b hb
    rw [← (hf b (List.mem_flatMap.2 ⟨c', hc', hb'⟩) a (List.mem_flatMap.2 ⟨c, hc, ha⟩) hk).1]
    exact h b hb
  · intro h a ha
    obtain ⟨c, hc, hac⟩ := h1 a ha
    exact (onQuery_passed c q).1 (h c hc) a hac

/-- **C43** (partial, as above). A rejected query is reported with the reasons of all rejecting parts, and all reasons
belong to some part. -/
theorem C43_report_partial (ord : List (Check Qy D) → List (Check Qy D)) (ho : Order ord) (checks more : List (Check Qy D))
    (hne : checks ≠ []) (hf : Faithful ((checks ++ more).flatMap Check.atoms)) (q : Qy)
    (hr : ¬ AcceptsQuery (mergeChecks ord checks more) q) :
    (∀ c ∈ checks ++ more, ¬ AcceptsQuery c q → ∀ s ∈ (c.onQuery q).reason.list,
      s ∈ ((mergeChecks ord checks more).onQuery q).reason.list) ∧
    ∀ s ∈ ((mergeChecks ord checks more).onQuery q).reason.list,
      ∃ c ∈ checks ++ more, ∃ a ∈ c.atoms, s ∈ (a.onQuery q).reason.list := by
  obtain ⟨h1, h2⟩ := mergedAtoms_spec ord ho (checks ++ more)
  have hiff := onQuery_reasons (mergeChecks ord checks more) q (by simpa [AcceptsQuery] using hr)
  rw [mergeChecks_atoms ord checks more hne] at hiff
  constructor
  · intro c hc hrej s hs
    rw [onQuery_reasons c q (by simpa [AcceptsQuery] using hrej)] at hs
    obtain ⟨a, ha, hs⟩ := hs
    obtain ⟨b, hb, hk⟩ := h2 c hc a ha
    obtain ⟨c', hc', hb'⟩ := h1 b hb
    refine (hiff s).2 ⟨b, hb, ?_⟩
    rw [(hf b (List.mem_flatMap.2 ⟨c', hc', hb'⟩) a (List.mem_flatMap.2 ⟨c, hc, ha⟩) hk).1]
    exact hs
  · intro s hs
    obtain ⟨a, ha, hs⟩ := (hiff s).1 hs
    obtain ⟨c, hc, hac⟩ := h1 a ha
    exact ⟨c, hc, a, hac, hs⟩

/-- **C43.** The children of a compound check are the non-empty parts of the given checks; it accepts a query iff all of
them do. -/
theorem C43_compound (cs : List (Check Qy D)) (q : Qy) : AcceptsQuery (mkCompound cs) q ↔ ∀ c ∈ cs, AcceptsQuery c q := by
  unfold AcceptsQuery
  rw [onQuery_passed]
  simp only [mkCompound, Check.atoms, List.mem_flatMap]
  constructor
  · intro h c hc; rw [onQuery_passed]; exact fun a ha => h a ⟨c, hc, ha⟩
  · rintro h a ⟨c, hc, ha⟩; exact (onQuery_passed c q).1 (h c hc) a ha

/-- **C43 is violated**: checks of the same class with the same name compare equal (e.g. two custom checks with the default
name, or two hint checks for different hints), so only one of them is performed. -/
theorem C43_same_name_violated (a b : Atom Qy D) (h : a.key = b.key) (q : Qy) :
    AcceptsQuery (mergeChecks id [.atom a] [.atom b]) q ↔ (a.onQuery q).passed = true := by
  have : mergeChecks id [.atom a] [.atom b] = .atom a := by
    simp [mergeChecks, mergedAtoms, pySet, Check.key, h]
  rw [this]; rfl

/-- **C43 is violated** if the first argument is empty: all further checks are dropped. -/
theorem C43_first_empty_violated (ord : List (Check Qy D) → List (Check Qy D)) (more : List (Check Qy D)) (q : Qy) :
    AcceptsQuery (mergeChecks ord [] more) q := rfl

/-- **C43 is violated** for databases: as soon as two different checks are merged, every database system is accepted. -/
theorem C43_database_violated (ord : List (Check Qy D) → List (Check Qy D)) (ho : Order ord) (checks more : List (Check Qy D))
    (c c' : Check Qy D) (hc : c ∈ checks ++ more) (hc' : c' ∈ checks ++ more) (a b : Atom Qy D) (ha : a ∈ c.atoms)
    (hb : b ∈ c'.atoms) (hk : a.key ≠ b.key) (d : D) : AcceptsDb (mergeChecks ord checks more) d := by
  by_cases hne : checks = []
  · subst hne; rfl
  obtain ⟨h1, h2⟩ := mergedAtoms_spec ord ho (checks ++ more)
  obtain ⟨x, hx, hxk⟩ := h2 c hc a ha
  obtain ⟨y, hy, hyk⟩ := h2 c' hc' b hb
  rw [AcceptsDb, mergeChecks, if_neg (by simpa using hne)]
  split
  · rfl
  · rename_i z hz
    rw [hz, List.mem_singleton] at hx hy
    subst hx; subst hy
    exact absurd (hxk.symm.trans hyk) hk
  · rfl

/-- **C43** (partial: there is only one check, possibly repeated). It decides which database systems are accepted. -/
theorem C43_database_partial (ord : List (Check Qy D) → List (Check Qy D)) (ho : Order ord) (checks more : List (Check Qy D))
    (hne : checks ≠ []) (hf : Faithful ((checks ++ more).flatMap Check.atoms)) (k : Nat)
    (h : ∀ c ∈ checks ++ more, c = .empty ∨ ∃ a, c = .atom a ∧ a.key = k) (d : D) :
    AcceptsDb (mergeChecks ord checks more) d ↔ ∀ c ∈ checks ++ more, AcceptsDb c d := by
  obtain ⟨h1, h2⟩ := mergedAtoms_spec ord ho (checks ++ more)
  have hkey : ∀ a ∈ mergedAtoms ord (checks ++ more), a.key = k := by
    intro a ha
    obtain ⟨c, hc, hac⟩ := h1 a ha
    rcases h c hc with rfl | ⟨a', rfl, hk⟩
    · simp [Check.atoms] at hac
    · simp only [Check.atoms, List.mem_singleton] at hac; rw [hac, hk]
  have hnd : ((mergedAtoms ord (checks ++ more)).map Atom.key).Nodup := pySet_distinct _ _
  unfold AcceptsDb
  rw [mergeChecks, if_neg (by simpa using hne)]
  split
  · rename_i he
    refine ⟨fun _ c hc => ?_, fun _ => rfl⟩
    rcases h c hc with rfl | ⟨a, rfl, _⟩
    · rfl
    · obtain ⟨b, hb, _⟩ := h2 _ hc a (by simp [Check.atoms])
      simp [he] at hb
  · rename_i b he
    have hb : b ∈ mergedAtoms ord (checks ++ more) := by simp [he]
    obtain ⟨cb, hcb, hbb⟩ := h1 b hb
    constructor
    · intro hbd c hc
      rcases h c hc with rfl | ⟨a, rfl, hk⟩
      · rfl
      · show (a.onDb d).passed = true
        rw [← (hf b (List.mem_flatMap.2 ⟨cb, hcb, hbb⟩) a (List.mem_flatMap.2 ⟨_, hc, by simp [Check.atoms]⟩)
          (by rw [hkey b hb, hk])).2]
        exact hbd
    · intro hall
      have := hall cb hcb
      rcases h cb hcb with rfl | ⟨a, rfl, _⟩
      · simp [Check.atoms] at hbb
      · simp only [Check.atoms, List.mem_singleton] at hbb; subst hbb; exact this
  · rename_i as hn1 hn2
    exfalso
    rcases hm : mergedAtoms ord (checks ++ more) with _ | ⟨x, _ | ⟨y, l⟩⟩
    · exact hn1 hm
    · exact hn2 x hm
    · rw [hm] at hnd hkey
      simp only [List.map_cons, List.nodup_cons, List.mem_cons] at hnd
      exact hnd.1 (.inl ((hkey x (by simp)).trans (hkey y (by simp)).symm))

example : Faithful (([.atom ⟨1, fun q : Nat => ⟨decide (q < 5), .one "large"⟩, fun _ : Nat => Res.ok⟩, .empty,
    .compound [⟨2, fun q => ⟨decide (2 < q), .many ["small"]⟩, fun _ => Res.ok⟩]] : List (Check Nat Nat)).flatMap Check.atoms) := by
  intro a ha b hb hk
  simp [Check.atoms] at ha hb
  rcases ha with rfl | rfl <;> rcases hb with rfl | rfl <;> simp at hk ⊢

/-! ### C95: results of checks -/

/-- **C95** (partial: failed results have reasons). Merging results passes iff all of them passed, and reports exactly the
reasons of the failed ones. -/
theorem C95_merge_partial (rs : List Res) (h : ∀ r ∈ rs, r.passed = false → r.reason.list ≠ []) :
    ((mergeResults rs).passed = true ↔ ∀ r ∈ rs, r.passed = true) ∧
    ((mergeResults rs).passed = false → ∀ s, s ∈ (mergeResults rs).reason.list ↔
      ∃ r ∈ rs, r.passed = false ∧ s ∈ r.reason.list) := by
  rw [mergeResults]
  by_cases he : ((rs.filter fun r => !r.passed).flatMap fun r => r.reason.list) = []
  · simp only [he, if_true, Res.ok, true_iff, Bool.true_eq_false, false_implies, and_true]
    intro r hr
    by_contra hp
    rw [Bool.not_eq_true] at hp
    refine h r hr hp ?_
    rw [List.flatMap_eq_nil_iff] at he
    exact he r (List.mem_filter.2 ⟨hr, by simp [hp]⟩)
  · rw [if_neg he]
    refine ⟨⟨fun h => by simp at h, fun hall => absurd ?_ he⟩, fun _ s => ?_⟩
    · rw [List.flatMap_eq_nil_iff]
      intro r hr
      rw [List.mem_filter] at hr
      have := hall r hr.1
      simp [this] at hr
    · show s ∈ ((rs.filter fun r => !r.passed).flatMap fun r => r.reason.list) ↔ _
      simp only [List.mem_flatMap, List.mem_filter, Bool.not_eq_true']
      constructor
      · rintro ⟨r, ⟨h1, h2⟩, h3⟩; exact ⟨r, h1, h2, h3⟩
      · rintro ⟨r, h1, h2, h3⟩; exact ⟨r, ⟨h1, h2⟩, h3⟩

/-- **C95 is violated** if a failed result has an empty list of reasons: the failure is lost. -/
theorem C95_merge_violated : (⟨false, .many []⟩ : Res).passed = false ∧ (mergeResults [⟨false, .many []⟩]).passed = true := by
  decide

/-- **C95** (partial: the context is no set query). `ensure_all_passed` raises iff the check failed. -/
theorem C95_ensure_partial (r : Res) (ctx : Context) (h : ctx ≠ .setQuery) :
    ensureAllPassed r ctx = none ↔ r.passed = true := by
  unfold ensureAllPassed
  cases hp : r.passed <;> cases ctx <;> simp at h ⊢

/-- **C95 is violated** for set queries: no failure ever raises. -/
theorem C95_ensure_violated (r : Res) : ensureAllPassed r .setQuery = none := by
  unfold ensureAllPassed
  cases hp : r.passed <;> simp

example : ∀ r ∈ [Res.ok, ⟨false, .one "a"⟩, ⟨false, .many ["b", "c"]⟩], r.passed = false → r.reason.list ≠ [] := by decide

/-! ### C44: cross products -/

theorem joinGraph_wf (qp : QueryPreds Q) (g : Nx.Graph (Option Tab)) (h : qp.joinGraph = some g) : g.WF := by
  rw [QueryPreds.joinGraph] at h
  obtain ⟨es, _, rfl⟩ := Option.map_eq_some_iff.1 h
  intro e he
  simp only [Finset.mem_union, Finset.mem_image]
  exact ⟨.inl (.inr ⟨e, he, rfl⟩), .inr ⟨e, he, rfl⟩⟩

/-- Some join predicate compares a column of `a` with a column of `b`. -/
def JoinedBy (qp : QueryPreds Q) (a b : Option Tab) : Prop := ∃ j ∈ qp.joins, Compares j a b

/-- **C44** (partial: every table of the query occurs in some predicate, all columns are bound, predicates are regular). The
check does not raise, and passes iff the tables of the query are connected by join predicates. -/
theorem C44_cross_product_partial [DecidableEq Q] (ops : QOps Q) (qp : QueryPreds Q) (hv : qp.Valid ops)
    (hr : ∀ j ∈ qp.joins, Regular j ∧ Typed j) (tabs : Finset Tab) (hne : tabs.Nonempty)
    (hcov : ∀ t, t ∈ tabs ↔ ∃ r, qp.root = some r ∧ t ∈ r.tables ops)
    (hb : ∀ j ∈ qp.joins, ∀ u, ¬ Compares j none u) :
    crossProductCheck qp ≠ none ∧
    (crossProductCheck qp = some true ↔
      ∀ a ∈ tabs, ∀ b ∈ tabs, Relation.ReflTransGen (JoinedBy qp) (some a) (some b)) := by
  obtain ⟨g, hg, hn, hnone, hadj⟩ := C86_join_graph ops qp hv hr
  have hwf := joinGraph_wf qp g hg
  have hnodes : ∀ x, x ∈ g.nodes ↔ ∃ t ∈ tabs, x = some t := by
    intro x
    cases x with
    | none =>
      rw [hnone]
      constructor
      · rintro ⟨j, hj, u, h⟩; exact absurd h (hb j hj u)
      · rintro ⟨t, _, h⟩; cases h
    | some t =>
      rw [hn, ← hcov]
      constructor
      · intro h; exact ⟨t, h, rfl⟩
      · rintro ⟨t', h, he⟩; cases he; exact h
  have hne' : g.nodes ≠ ∅ := by
    obtain ⟨t, ht⟩ := hne
    exact Finset.ne_empty_of_mem ((hnodes (some t)).2 ⟨t, ht, rfl⟩)
  have hA : g.Adj = JoinedBy qp := by funext a b; exact propext (hadj a b)
  rw [crossProductCheck, hg, Option.bind_some]
  constructor
  · rw [Nx.Graph.isConnected?, if_neg hne']; simp
  · rw [Nx.isConnected_iff hwf]
    simp only [hne', ne_eq, not_false_eq_true, true_and, Nx.Graph.Connected, hA]
    constructor
    · intro h a ha b hb'
      exact h _ ((hnodes _).2 ⟨a, ha, rfl⟩) _ ((hnodes _).2 ⟨b, hb', rfl⟩)
    · intro h a ha b hb'
      obtain ⟨a, ha', rfl⟩ := (hnodes a).1 ha
      obtain ⟨b, hb'', rfl⟩ := (hnodes b).1 hb'
      exact h a ha' b hb''

/-- The predicates of `SELECT * FROM t1, t2 WHERE t1.z = 1`. -/
def qpOne : QueryPreds Unit := ⟨some (fZ 1), [fZ 1], [], [1], []⟩

theorem qpOne_valid : qpOne.Valid noOps where
  filters := by
    have h : (fZ 1).collectFilters = [fZ 1] := by decide +kernel
    intro p; simp [qpOne, h]
  joins := by
    have h : (fZ 1).collectJoins = [] := by decide +kernel
    intro p; simp [qpOne, h]
  filtersNodup := by decide +kernel
  joinsNodup := by decide +kernel
  tabs := by
    have h : (fZ 1).tables noOps = {1} := by decide +kernel
    intro p; simp [qpOne, h]
  map := by decide +kernel

/-- **C44 is violated** if a table occurs in no predicate: the cross product of `t1` and `t2` passes the check. -/
theorem C44_cross_product_violated :
    qpOne.Valid noOps ∧ crossProductCheck qpOne = some true ∧ ¬ Relation.ReflTransGen (JoinedBy qpOne) (some 1) (some 2) := by
  refine ⟨qpOne_valid, by decide +kernel, ?_⟩
  intro h
  rcases Relation.ReflTransGen.cases_head h with h | ⟨c, ⟨j, hj, _⟩, _⟩
  · cases h
  · simp [qpOne] at hj

/-- **C44 is violated** for a query without predicates: the check raises. -/
theorem C44_no_predicates_violated : crossProductCheck (⟨none, [], [], [], []⟩ : QueryPreds Unit) = none := by
  decide +kernel

/-! ### C45: equi-joins -/

/-- The allowed join predicates: an equality over exactly two columns, both sides of which are plain columns unless nested
expressions are allowed (`nest`), or a conjunction of allowed predicates if conjunctions are allowed (`conj`). -/
inductive EquiJoin (ops : QOps Q) (conj nest : Bool) : Expr Q → Prop
  | columns {c d} : c ≠ d → EquiJoin ops conj nest (.binary .eq (.col c) (.col d))
  | nested {a b} : nest = true → (∃ c d, c ≠ d ∧ ∀ x, x ∈ a.columns ops ∨ x ∈ b.columns ops ↔ x = c ∨ x = d) →
      EquiJoin ops conj nest (.binary .eq a b)
  | and {cs} : conj = true → (∀ c ∈ cs, EquiJoin ops conj nest c) → EquiJoin ops conj nest (.compound .and cs)

theorem columns_binary (ops : QOps Q) (op : LogOp) (a b : Expr Q) :
    (Expr.binary op a b).columns ops = a.columns ops ∪ b.columns ops := by
  rw [columns_eq]
  simp [ownColumns, colParts, unionAll]

theorem card_two (ops : QOps Q) (op : LogOp) (a b : Expr Q) : ((Expr.binary op a b).columns ops).card = 2 ↔
    ∃ c d, c ≠ d ∧ ∀ x, x ∈ a.columns ops ∨ x ∈ b.columns ops ↔ x = c ∨ x = d := by
  rw [Finset.card_eq_two, columns_binary]
  refine exists_congr fun c => exists_congr fun d => and_congr_right fun _ => ?_
  rw [Finset.ext_iff]
  simp

mutual
theorem equiCheck_iff (ops : QOps Q) (conj nest : Bool) :
    ∀ e : Expr Q, equiCheck ops conj nest e = true ↔ EquiJoin ops conj nest e
  | .binary op a b => by
    rw [equiCheck]
    by_cases hc : ((Expr.binary op a b).columns ops).card = 2
    · rw [if_neg (by simp [hc])]
      by_cases ho : op = .eq
      · subst ho
        simp only [ne_eq, not_true_eq_false, if_false, Bool.or_eq_true, Bool.and_eq_true]
        constructor
        · rintro (hn | ⟨h1, h2⟩)
          · exact .nested hn ((card_two _ _ _ _).1 hc)
          · cases a <;> simp [Validation.isCol] at h1
            cases b <;> simp [Validation.isCol] at h2
            rename_i c d
            refine .columns ?_
            rintro rfl
            rw [columns_pair] at hc
            simp at hc
        · intro h
          cases h with
          | columns _ => exact .inr ⟨rfl, rfl⟩
          | nested hn _ => exact .inl hn
      · simp only [ne_eq, ho, not_false_eq_true, if_true, Bool.false_eq_true, false_iff]
        intro h; cases h <;> exact ho rfl
    · rw [if_pos hc]
      simp only [Bool.false_eq_true, false_iff]
      intro h
      cases h with
      | columns h =>
        rename_i c d
        rw [columns_pair] at hc
        exact hc (Finset.card_pair h)
      | nested _ h => exact hc ((card_two _ _ _ _).2 h)
  | .compound op cs => by
    rw [equiCheck]
    by_cases hc : conj = true
    · subst hc
      by_cases ho : op = .and
      · subst ho
        simp only [Bool.not_true, Bool.false_eq_true, if_false, ne_eq, not_true_eq_false, equiChecks_iff ops true nest cs]
        constructor
        · intro h; exact .and rfl h
        · intro h; cases h; assumption
      · simp only [Bool.not_true, Bool.false_eq_true, if_false, ne_eq, ho, not_false_eq_true, if_true, false_iff]
        intro h; cases h; exact ho rfl
    · rw [if_pos (by simpa using hc)]
      simp only [Bool.false_eq_true, false_iff]
      intro h; cases h; contradiction
  | .col _ | .static _ | .star _ | .math .. | .func .. | .cast .. | .subq .. | .window .. | .case .. | .array .. | .arrGet ..
  | .quant .. | .between .. | .inP .. | .unary .. => by
    simp only [equiCheck, Bool.false_eq_true, false_iff]
    intro h; cases h
theorem equiChecks_iff (ops : QOps Q) (conj nest : Bool) :
    ∀ cs : List (Expr Q), equiChecks ops conj nest cs = true ↔ ∀ c ∈ cs, EquiJoin ops conj nest c
  | [] => by simp [equiChecks]
  | c :: cs => by simp [equiChecks, equiCheck_iff ops conj nest c, equiChecks_iff ops conj nest cs]
end

/-- **C45.** The equi-join check accepts a query iff all its join predicates are allowed. -/
theorem C45_equi_join (ops : QOps Q) (conj nest : Bool) (qp : QueryPreds Q) :
    equiJoinCheck ops conj nest qp = true ↔ ∀ j ∈ qp.joins, EquiJoin ops conj nest j := by
  rw [equiJoinCheck, List.all_eq_true]
  exact forall₂_congr fun j _ => equiCheck_iff ops conj nest j

/-- **C45 is violated** in so far as conjunctions are concerned: `t1.x = t2.y AND t1.x = t2.w` is a conjunction of join
predicates between the same tables, and passes although conjunctions are not allowed, because the joins of a query are always
split at conjunctions. -/
theorem C45_conjunction_violated :
    let j2 : Expr Unit := .binary .eq (.col cx) (.col ⟨some 2, 40⟩)
    (Expr.compound .and [jXY, j2]).collectJoins = [jXY, j2] ∧
    ∀ qp : QueryPreds Unit, qp.joins = [jXY, j2] → equiJoinCheck noOps false false qp = true := by
  refine ⟨by decide +kernel, fun qp h => ?_⟩
  rw [equiJoinCheck, h]
  decide +kernel

example : equiJoinCheck noOps true false (⟨none, [], [.compound .and [jXY, jXY]], [], []⟩ : QueryPreds Unit) = true ∧
    equiJoinCheck noOps false false (⟨none, [], [.compound .and [jXY, jXY]], [], []⟩ : QueryPreds Unit) = false ∧
    equiJoinCheck noOps true true (⟨none, [], [jXY, jLt], [], []⟩ : QueryPreds Unit) = false := by decide +kernel

/-- The hypotheses of C44 are satisfiable. -/
example : qp1.Valid noOps ∧ (∀ j ∈ qp1.joins, Regular j ∧ Typed j) ∧
    (∀ t : Tab, t ∈ ({1, 2} : Finset Tab) ↔ ∃ r, qp1.root = some r ∧ t ∈ r.tables noOps) ∧
    (∀ j ∈ qp1.joins, ∀ u, ¬ Compares j none u) ∧ crossProductCheck qp1 = some true := by
  have h : root1.tables noOps = {1, 2} := by decide +kernel
  have hb : ∀ j ∈ qp1.joins, ∀ p ∈ j.joinPartners.getD ∅, p.1.tab ≠ none ∧ p.2.tab ≠ none := by decide +kernel
  exact ⟨qp1_valid, fun j hj => ⟨(everywhere_iff _ _).1 (by revert j; decide +kernel), (everywhere_iff _ _).1 (by revert j; decide +kernel)⟩, by intro t; simp [qp1, h],
    by
      rintro j hj u ⟨ps, hps, p, hp, he⟩
      have := hb j hj p (by rw [hps]; exact hp)
      rcases he with ⟨h1, _⟩ | ⟨_, h2⟩
      · exact this.1 h1
      · exact this.2 h2,
    by decide +kernel⟩

/-! ### C96: inner joins -/

/-- Only inner joins and cross joins. -/
inductive InnerOnly : TSrc → Prop
  | direct : InnerOnly .direct
  | values : InnerOnly .values
  | function : InnerOnly .function
  | subquery {k items} : (∀ s ∈ items, InnerOnly s) → InnerOnly (.subquery k items)
  | join {l r} : InnerOnly l → InnerOnly r → InnerOnly (.join l r .inner)

/-- The sources that the check visits: not those of subqueries with implicit FROM clauses. -/
inductive Visited : TSrc → TSrc → Prop
  | here {s} : Visited s s
  | sub {k items i s} : k = .explicit ∨ k = .mixed → i ∈ items → Visited s i → Visited s (.subquery k items)
  | left {l r t s} : Visited s l → Visited s (.join l r t)
  | right {l r t s} : Visited s r → Visited s (.join l r t)

theorem innerSource_false (s : TSrc) : ∀ l r t, Visited (.join l r t) s → innerSource s ≠ some true := by
  induction s using TSrc.rec (motive_2 := fun ss => ∀ l r t, ∀ i ∈ ss, Visited (.join l r t) i → innerSources ss ≠ some true) with
  | direct => intro _ _ _ h; cases h
  | values => intro _ _ _ h; cases h
  | function => intro _ _ _ h; cases h
  | subquery k items ih =>
    intro l r t h
    cases h with
    | sub hk hi hv =>
      have := ih l r t _ hi hv
      rcases hk with rfl | rfl <;> simpa [innerSource] using this
  | join l' r' t' =>
    intro l r t h
    rw [innerSource]
    cases innerSource l' <;> cases innerSource r' <;> simp [differsFromString]
  | nil l r t i hi => simp at hi
  | cons s ss ih1 ih2 l r t i hi hv =>
    rw [innerSources]
    rcases List.mem_cons.1 hi with rfl | hi
    · have := ih1 l r t hv
      cases h1 : innerSource i <;> cases h2 : innerSources ss <;> simp_all
    · have := ih2 l r t i hi hv
      cases h1 : innerSource s <;> cases h2 : innerSources ss <;> simp_all

/-- **C96 is violated**: the check accepts no query with an explicit join that it looks at, not even with inner joins only. -/
theorem C96_inner_join_violated (k : FromKind) (items : List TSrc) (hk : k = .explicit ∨ k = .mixed) (i : TSrc) (hi : i ∈ items)
    (l r : TSrc) (t : JoinType) (h : Visited (.join l r t) i) : innerJoinCheck k items ≠ some true :=
  innerSource_false _ l r t (.sub hk hi h)

/-- **C96 is violated** in the other direction, too: subqueries with implicit FROM clauses are accepted whatever outer joins
their own subqueries contain. -/
theorem C96_nested_violated : innerJoinCheck .mixed [.subquery .implicit [.subquery .explicit [.join .direct .direct .left]]] =
    some true ∧ ¬ InnerOnly (.subquery .mixed [.subquery .implicit [.subquery .explicit [.join .direct .direct .left]]]) := by
  refine ⟨by decide +kernel, fun h => ?_⟩
  cases h with | subquery h => ?_
  cases h _ (List.mem_singleton_self _) with | subquery h => ?_
  cases h _ (List.mem_singleton_self _) with | subquery h => ?_
  cases h _ (List.mem_singleton_self _)

/-- **C96** (partial: no joins are visited, no function is visited). Then the check passes. -/
theorem C96_no_join_partial (k : FromKind) (items : List TSrc)
    (h : ∀ s, Visited s (.subquery k items) → (∀ l r t, s ≠ .join l r t) ∧ s ≠ .function) : innerJoinCheck k items = some true := by
  suffices hs : ∀ s, (∀ s', Visited s' s → (∀ l r t, s' ≠ .join l r t) ∧ s' ≠ .function) → innerSource s = some true from hs _ h
  intro s
  induction s using TSrc.rec (motive_2 := fun ss => (∀ s ∈ ss, ∀ s', Visited s' s → (∀ l r t, s' ≠ .join l r t) ∧ s' ≠ .function) →
    innerSources ss = some true) with
  | direct => intro _; rfl
  | values => intro _; rfl
  | function => intro h; exact absurd rfl (h _ .here).2
  | subquery k items ih =>
    intro h
    cases k with
    | absent => rfl
    | implicit => rfl
    | explicit => rw [innerSource]; exact ih fun s hs s' hv => h s' (.sub (.inl rfl) hs hv)
    | mixed => rw [innerSource]; exact ih fun s hs s' hv => h s' (.sub (.inr rfl) hs hv)
  | join l r t => intro h; exact absurd rfl ((h _ .here).1 l r t)
  | nil _ => simp [innerSources]
  | cons s ss ih1 ih2 h =>
    rw [innerSources, ih1 (h s (by simp)), ih2 fun s hs => h s (by simp [hs])]; rfl

example : ∀ s, Visited s (.subquery .mixed [.direct, .subquery .implicit [.direct]]) → (∀ l r t, s ≠ .join l r t) ∧ s ≠ .function := by
  intro s h
  cases h with
  | here => simp
  | sub _ hi hv =>
    simp at hi
    rcases hi with rfl | rfl
    · cases hv; simp
    · cases hv with
      | here => simp
      | sub hk _ _ => simp at hk

end PB.ValidationProps
