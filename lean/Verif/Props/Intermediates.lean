import Verif.Model.Intermediates
import Verif.Props.Cardinality
import Verif.Props.Collections
import Verif.Props.Dicts
import Verif.Props.JoinTree
import Verif.Props.EquivClasses

/-! Properties C54, C106 and C107: cardinality estimators. -/

set_option linter.unusedSimpArgs false
set_option linter.unusedVariables false
set_option linter.unusedSectionVars false
set_option linter.unnecessarySimpa false

namespace PB.IntermediatesProps
open PB PB.Coll PB.Qal PB.Intermediates PB.CollProps PB.QueryPredsProps PB.ExprProps PB.PredProps PB.EquivProps

/-! ### C54: intermediates -/

theorem generate_spec (joins : Finset Tab → Option Bool) (allow : Bool) (tables : List Tab) (hn : tables.Nodup)
    (hj : allow = false → ∀ s, s ≠ ∅ → s ⊆ tables.toFinset → (joins s).isSome) :
    ∃ l, generate joins allow tables = some l ∧ l.Nodup ∧
      ∀ s, s ∈ l ↔ s ≠ ∅ ∧ s ⊆ tables.toFinset ∧ (allow = true ∨ joins s = some true) := by
  have hsub : ∀ c ∈ powerset tables, c.toFinset ⊆ tables.toFinset := by
    intro c hc
    rw [C05_powerset_mem] at hc
    intro x hx
    rw [List.mem_toFinset] at *
    exact hc.subset hx
  have hne : ∀ c : List Tab, c.isEmpty = false → c.toFinset ≠ ∅ := by
    intro c hc h
    rw [List.toFinset_eq_empty_iff] at h
    simp [h] at hc
  have hcand : ∀ c ∈ powerset tables, ∃ r, candidate joins allow c = some r ∧ ∀ s, s ∈ r ↔
      s = c.toFinset ∧ s ≠ ∅ ∧ (allow = true ∨ joins s = some true) := by
    intro c hc
    unfold candidate
    cases hce : c.isEmpty with
    | true =>
      refine ⟨[], by simp, fun s => ?_⟩
      rw [List.isEmpty_iff] at hce
      subst hce
      simp
      intro h1 h2; exact absurd h1 h2
    | false =>
      have := hne c hce
      cases allow with
      | true => refine ⟨_, rfl, fun s => ?_⟩; simp; rintro rfl; exact this
      | false =>
        obtain ⟨b, hb⟩ := Option.isSome_iff_exists.1 (hj rfl c.toFinset this (hsub c hc))
        refine ⟨if b then [c.toFinset] else [], by simp [hb], fun s => ?_⟩
        cases b with
        | true =>
          simp
          rintro rfl
          exact ⟨this, hb⟩
        | false =>
          simp
          rintro rfl _
          rw [hb]; simp
  have hndp : (powerset tables).Nodup := C05_powerset_nodup tables hn
  have hinj : ∀ c ∈ powerset tables, ∀ c' ∈ powerset tables, c.toFinset = c'.toFinset → c = c' := by
    intro c hc c' hc' he
    obtain ⟨u, -, hu⟩ := C05_powerset_subset_unique tables hn (fun x => x ∈ c)
    have h1 := hu c ⟨hc, fun x => ⟨fun h => ⟨((C05_powerset_mem _ _).1 hc).subset h, h⟩, fun h => h.2⟩⟩
    have h2 := hu c' ⟨hc', fun x => by
      have hx : x ∈ c' ↔ x ∈ c := by rw [← List.mem_toFinset, ← he, List.mem_toFinset]
      rw [hx]
      exact ⟨fun h => ⟨((C05_powerset_mem _ _).1 hc).subset h, h⟩, fun h => h.2⟩⟩
    rw [h1, h2]
  have key : ∀ cs : List (List Tab), cs.Nodup → (∀ c ∈ cs, c ∈ powerset tables) →
      ∃ rs, cs.mapM (candidate joins allow) = some rs ∧ rs.flatten.Nodup ∧
        ∀ s, s ∈ rs.flatten ↔ ∃ c ∈ cs, s = c.toFinset ∧ s ≠ ∅ ∧ (allow = true ∨ joins s = some true) := by
    intro cs
    induction cs with
    | nil => intro _ _; exact ⟨[], rfl, by simp, by simp⟩
    | cons c cs ih =>
      intro hnd hmem
      rw [List.nodup_cons] at hnd
      obtain ⟨rs, hrs, hnd', hmem'⟩ := ih hnd.2 fun c hc => hmem c (by simp [hc])
      obtain ⟨r, hr, hr'⟩ := hcand c (hmem c (by simp))
      refine ⟨r :: rs, by simp [List.mapM_cons, hr, hrs], ?_, fun s => ?_⟩
      · rw [List.flatten_cons, List.nodup_append]
        refine ⟨?_, hnd', ?_⟩
        · unfold candidate at hr
          revert hr
          split
          · rintro ⟨⟩; simp
          · split
            · rintro ⟨⟩; simp
            · intro hr
              obtain ⟨b, -, rfl⟩ := Option.map_eq_some_iff.1 hr
              cases b <;> simp
        · intro a ha b hb hab
          subst hab
          obtain ⟨c', hc', he, -⟩ := (hmem' a).1 hb
          have := hinj c (hmem c (by simp)) c' (hmem c' (by simp [hc'])) (((hr' a).1 ha).1.symm.trans he)
          exact hnd.1 (this ▸ hc')
      · rw [List.flatten_cons, List.mem_append, hr', hmem']
        constructor
        · rintro (h | ⟨c', hc', h⟩)
          · exact ⟨c, by simp, h⟩
          · exact ⟨c', by simp [hc'], h⟩
        · rintro ⟨c', hc', h⟩
          rcases List.mem_cons.1 hc' with rfl | hc'
          · exact .inl h
          · exact .inr ⟨c', hc', h⟩
  obtain ⟨rs, hrs, hnd, hmem⟩ := key (powerset tables) hndp fun _ h => h
  refine ⟨rs.flatten, by rw [generate, hrs]; rfl, hnd, fun s => ?_⟩
  rw [hmem]
  constructor
  · rintro ⟨c, hc, rfl, h1, h2⟩; exact ⟨h1, hsub c hc, h2⟩
  · rintro ⟨h1, h2, h3⟩
    obtain ⟨c, ⟨hc, hc'⟩, -⟩ := C05_powerset_subset_unique tables hn (fun x => x ∈ s)
    refine ⟨c, hc, ?_, h1, h3⟩
    ext x
    rw [List.mem_toFinset, hc']
    exact ⟨fun h => ⟨by simpa using h2 h, h⟩, fun h => h.2⟩

/-- **C54.** If cross products are allowed, the intermediates are exactly the non-empty subsets of the tables, each once. -/
theorem C54_cross_products (joins : Finset Tab → Option Bool) (tables : List Tab) (hn : tables.Nodup) :
    ∃ l, generate joins true tables = some l ∧ l.Nodup ∧ ∀ s, s ∈ l ↔ s ≠ ∅ ∧ s ⊆ tables.toFinset := by
  obtain ⟨l, h1, h2, h3⟩ := generate_spec joins true tables hn (by simp)
  exact ⟨l, h1, h2, fun s => by rw [h3]; simp⟩

/-- **C54** (partial: the query has predicates, and each of its tables occurs in one of them). Without cross products, the
intermediates are exactly the non-empty subsets of the tables that are connected by join predicates, each once. -/
theorem C54_connected_partial {Q : Type} [DecidableEq Q] (ops : QOps Q) (qp : QueryPreds Q) (hv : qp.Valid ops) (r : Expr Q)
    (hr : qp.root = some r) (tables : List Tab) (hn : tables.Nodup) (hcov : ∀ t ∈ tables, t ∈ r.tables ops) :
    ∃ l, generate (qp.joinsTables ops) false tables = some l ∧ l.Nodup ∧
      ∀ s, s ∈ l ↔ s ≠ ∅ ∧ s ⊆ tables.toFinset ∧ JoinConnected (Linked ops qp) s := by
  have hspec : ∀ s, s ≠ ∅ → s ⊆ tables.toFinset → ∃ b, qp.joinsTables ops s = some b ∧ (b = true ↔ JoinConnected (Linked ops qp) s) := by
    intro s hs hsub
    obtain ⟨-, h⟩ := C34_joins_tables ops qp hv s
    obtain ⟨-, h1, h2⟩ := h r hr
    by_cases hc : s.card = 1
    · obtain ⟨t, rfl⟩ := Finset.card_eq_one.1 hc
      refine ⟨_, h1 t rfl, ?_⟩
      have ht : t ∈ r.tables ops := hcov t (by simpa using hsub (Finset.mem_singleton_self t))
      simp only [ht, decide_true, true_iff]
      intro a ha b hb
      rw [Finset.mem_singleton] at ha hb
      rw [ha, hb]
    · have := Finset.card_pos.2 (Finset.nonempty_iff_ne_empty.2 hs)
      exact h2 (by omega)
  obtain ⟨l, h1, h2, h3⟩ := generate_spec (qp.joinsTables ops) false tables hn (by
    intro _ s hs hsub
    obtain ⟨b, hb, -⟩ := hspec s hs hsub
    rw [hb]; rfl)
  refine ⟨l, h1, h2, fun s => ?_⟩
  rw [h3]
  refine and_congr_right fun hs => and_congr_right fun hsub => ?_
  obtain ⟨b, hb, hiff⟩ := hspec s hs hsub
  rw [hb, ← hiff]
  simp

/-- **C54 is violated** if some table occurs in no predicate: it is no intermediate itself. -/
theorem C54_table_violated {Q : Type} [DecidableEq Q] (ops : QOps Q) (qp : QueryPreds Q) (hv : qp.Valid ops) (r : Expr Q)
    (hr : qp.root = some r) (tables : List Tab) (hn : tables.Nodup) (t : Tab) (ht : t ∉ r.tables ops) (l : List (Finset Tab))
    (h : generate (qp.joinsTables ops) false tables = some l) : {t} ∉ l := by
  obtain ⟨l', h1, -, h3⟩ := generate_spec (qp.joinsTables ops) false tables hn (by
    intro _ s hs hsub
    obtain ⟨-, h⟩ := C34_joins_tables ops qp hv s
    obtain ⟨-, h1, h2⟩ := h r hr
    by_cases hc : s.card = 1
    · obtain ⟨t, rfl⟩ := Finset.card_eq_one.1 hc
      rw [h1 t rfl]; rfl
    · have := Finset.card_pos.2 (Finset.nonempty_iff_ne_empty.2 hs)
      obtain ⟨b, hb, -⟩ := h2 (by omega)
      rw [hb]; rfl)
  rw [h] at h1
  cases h1
  rw [h3]
  obtain ⟨-, h⟩ := C34_joins_tables ops qp hv {t}
  obtain ⟨-, h1, -⟩ := h r hr
  rw [h1 t rfl]
  simp [ht]

/-- **C54 is violated** for queries without predicates: they have no intermediates at all, not even their tables. -/
theorem C54_no_predicates_violated {Q : Type} [DecidableEq Q] (ops : QOps Q) (qp : QueryPreds Q) (hr : qp.root = none)
    (tables : List Tab) (hn : tables.Nodup) : generate (qp.joinsTables ops) false tables = some [] := by
  have hj : ∀ s, qp.joinsTables ops s = some false := by
    intro s; simp [QueryPreds.joinsTables, hr]
  obtain ⟨l, h1, -, h3⟩ := generate_spec (qp.joinsTables ops) false tables hn (by intro _ s _ _; rw [hj]; rfl)
  rw [h1]
  cases l with
  | nil => rfl
  | cons s l => have := ((h3 s).1 (by simp)).2.2; rw [hj] at this; simp at this

theorem fold_estimates (est : Finset Tab → Card) (l : List (Finset Tab)) : ∀ d : Dict (Finset Tab) Card, ∀ s c,
    Dict.get? (l.foldl (addEstimate est) d) s = some c ↔
      (s ∈ l ∧ (est s).nan = false ∧ c = est s) ∨ ((s ∉ l ∨ (est s).nan = true) ∧ Dict.get? d s = some c) := by
  induction l with
  | nil => intro d s c; simp
  | cons x l ih =>
    intro d s c
    rw [List.foldl_cons, ih]
    unfold addEstimate
    by_cases hx : (est x).nan = true
    · rw [if_pos hx]
      by_cases hs : s = x
      · subst hs; simp [hx]
      · simp [hs]
    · rw [if_neg hx, Dict.get?_set]
      rw [Bool.not_eq_true] at hx
      by_cases hs : x = s
      · subst hs
        simp only [hx, if_true, Option.some.injEq, List.mem_cons, true_or, not_true_eq_false, Bool.false_eq_true, or_false, false_and,
          true_and, eq_comm (a := c)]
        constructor
        · rintro (⟨_, h⟩ | ⟨_, h⟩) <;> exact h
        · intro h
          by_cases hm : x ∈ l
          · exact .inl ⟨hm, h⟩
          · exact .inr ⟨hm, h⟩
      · have hs' : ¬ s = x := fun h => hs h.symm
        simp [hs, hs']

/-- **C54.** The estimated cardinalities are exactly the known estimates of the intermediates. -/
theorem C54_estimates (joins : Finset Tab → Option Bool) (allow : Bool) (tables : List Tab) (est : Finset Tab → Card)
    (l : List (Finset Tab)) (h : generate joins allow tables = some l) :
    ∃ d, estimateAll joins allow tables est = some d ∧
      ∀ s c, Dict.get? d s = some c ↔ s ∈ l ∧ (est s).nan = false ∧ c = est s := by
  refine ⟨_, by rw [estimateAll, h]; rfl, fun s c => ?_⟩
  rw [fold_estimates]
  simp [Dict.get?]

/-- **C54.** For a given join order, the parameters are exactly the known estimates of its scans and joins. -/
theorem C54_join_order {A : Type} (joins : Finset Tab → Option Bool) (allow : Bool) (tables : List Tab) (est : Finset Tab → Card)
    (t : JT.Tree A) : ∃ d, planParameters joins allow tables est (some t) = some d ∧
      ∀ s c, Dict.get? d s = some c ↔
        (∃ n, JTProps.Sub n t ∧ n.isEmpty = false ∧ n.tables = s) ∧ (est s).nan = false ∧ c = est s := by
  refine ⟨_, rfl, fun s c => ?_⟩
  rw [fold_estimates]
  simp only [List.mem_map, JTProps.C20_iternodes_mem, Dict.get?, List.find?_nil, Option.map_none, reduceCtorEq, and_false, or_false]
  simp [and_assoc]

example : generate (qp1.joinsTables noOps) false [1, 2] = some [{1}, {2}, {1, 2}] := by decide +kernel

example : (∃ r, qp1.root = some r ∧ ∀ t ∈ [1, 2], t ∈ r.tables noOps) ∧ qp1.Valid noOps ∧ [1, 2].Nodup ∧
    ∃ l, generate (qp1.joinsTables noOps) false [1, 2, 3] = some l :=
  ⟨⟨root1, rfl, by decide +kernel⟩, qp1_valid, by decide, [{1}, {2}, {1, 2}], by decide +kernel⟩

/-! ### C106: pre-computed cardinalities -/

/-- The row matches the query and the tables. -/
def Matches (label : String) (ts : Finset Tab) (r : Row) : Prop := r.label = label ∧ r.cell = .parsed ts

/-- The number of matching rows. -/
noncomputable def count (rows : List Row) (label : String) (ts : Finset Tab) : Nat := by
  classical exact rows.countP fun r => decide (Matches label ts r)

theorem samples_count (rows : List Row) (label : String) (ts : Finset Tab) : (samples rows label ts).length = count rows label ts := by
  classical
  rw [count, List.countP_eq_length_filter, samples]
  congr 1
  apply List.filter_congr
  intro r _
  by_cases h1 : r.label = label <;> by_cases h2 : r.cell = .parsed ts <;> simp [Matches, h1, h2]

theorem mem_samples (rows : List Row) (label : String) (ts : Finset Tab) (r : Row) :
    r ∈ samples rows label ts ↔ r ∈ rows ∧ Matches label ts r := by
  simp [samples, Matches]

/-- **C106.** If exactly one row of the lookup table matches, its cardinality is the estimate; if several rows match, `ValueError` is
raised. The table is not changed. -/
theorem C106_lookup (cfg : Cfg) (rows : List Row) (label : String) (ts : Finset Tab) :
    (count rows label ts = 1 → ∀ r ∈ rows, Matches label ts r → precomputed cfg rows label ts = (some r.card, rows)) ∧
    (2 ≤ count rows label ts → precomputed cfg rows label ts = (none, rows)) := by
  rw [← samples_count]
  unfold precomputed
  constructor
  · intro h r hr hm
    obtain ⟨x, hx⟩ := List.length_eq_one_iff.1 h
    have := (mem_samples rows label ts r).2 ⟨hr, hm⟩
    rw [hx, List.mem_singleton] at this
    subst this
    rw [hx]
  · intro h
    rcases hs : samples rows label ts with _ | ⟨x, _ | ⟨y, l⟩⟩
    · rw [hs] at h; simp at h
    · rw [hs] at h; simp at h
    · rfl

theorem samples_nil (rows : List Row) (label : String) (ts : Finset Tab) (h : count rows label ts = 0) : samples rows label ts = [] := by
  rw [← samples_count] at h
  exact List.length_eq_zero_iff.1 h

/-- **C106.** If no row matches, the estimate is the default cardinality or, without one, the estimate of the fallback database. -/
theorem C106_fallback (cfg : Cfg) (rows : List Row) (label : String) (ts : Finset Tab) (h : count rows label ts = 0) :
    (∀ c, cfg.default = some c → precomputed cfg rows label ts = (some c, rows)) ∧
    ∀ live c, cfg.default = none → cfg.live = some live → live label ts = some c →
      (precomputed cfg rows label ts).1 = some c := by
  have hs := samples_nil rows label ts h
  unfold precomputed fallback
  rw [hs]
  constructor
  · intro c hc; simp [hc]
  · intro live c hd hl hc; simp [hd, hl, hc]

/-- **C106 is violated**: a missing cardinality raises no error even if errors are requested; the estimate is unknown. -/
theorem C106_missing_violated (cfg : Cfg) (rows : List Row) (label : String) (ts : Finset Tab) (h : count rows label ts = 0)
    (hd : cfg.default = none) (hl : cfg.live = none) (he : cfg.errorOnMissing = true) :
    precomputed cfg rows label ts = (some Card.unknown, rows) := by
  have hs := samples_nil rows label ts h
  simp [precomputed, fallback, hs, hd, hl]

/-- **C106 is violated**: fallback estimates that have been saved are not found. The same estimate is requested from the database
again, and is added to the table again. -/
theorem C106_saved_violated (cfg : Cfg) (rows : List Row) (label : String) (ts : Finset Tab) (h : count rows label ts = 0)
    (hd : cfg.default = none) (live : String → Finset Tab → Option Card) (hl : cfg.live = some live) (hs : cfg.save = true) (c : Card)
    (hc : live label ts = some c) :
    ∀ n, count (Nat.repeat (fun rows => (precomputed cfg rows label ts).2) n rows) label ts = 0 ∧
      (Nat.repeat (fun rows => (precomputed cfg rows label ts).2) n rows).length = rows.length + n := by
  intro n
  induction n with
  | zero => exact ⟨h, rfl⟩
  | succ n ih =>
    rw [Nat.repeat]
    generalize Nat.repeat (fun rows => (precomputed cfg rows label ts).2) n rows = rows' at ih ⊢
    have hsn := samples_nil rows' label ts ih.1
    have he : (precomputed cfg rows' label ts).2 = rows' ++ [⟨label, .text ts, c⟩] := by
      simp [precomputed, fallback, hsn, hd, hl, hc, hs]
    rw [he]
    refine ⟨?_, by simp [ih.2]; omega⟩
    rw [← samples_count, samples, List.filter_append]
    rw [← samples] 
    simp [hsn]

/-- **C106 is violated**: once a fallback estimate was added to a table that has been read from a file, the file cannot be read
any more. -/
theorem C106_reload_violated (cfg : Cfg) (rows : List Row) (label : String) (ts : Finset Tab) (r : Row) (hr : r ∈ rows)
    (ts' : Finset Tab) (hp : r.cell = .parsed ts') : reload (precomputed cfg rows label ts).2 = none := by
  have hkeep : r ∈ (precomputed cfg rows label ts).2 := by
    unfold precomputed
    split
    · exact hr
    · exact hr
    · have : r ∈ (fallback cfg rows label ts).2 := by
        unfold fallback
        split
        · exact hr
        · split
          · exact hr
          · split
            · exact hr
            · dsimp only
              split
              · simp [hr]
              · exact hr
      dsimp only
      split <;> exact this
  generalize (precomputed cfg rows label ts).2 = l at hkeep
  rw [reload]
  induction l with
  | nil => simp at hkeep
  | cons x l ih =>
    rw [List.mapM_cons]
    rcases List.mem_cons.1 hkeep with rfl | h
    · simp [hp]
    · have := ih h
      rw [this]
      cases x.cell <;> simp

/-- **C106 is violated** for tables that are empty at first, too: the file contains the estimate twice, and after it has been read
again the estimate raises an error. -/
theorem C106_duplicate_violated (live : String → Finset Tab → Option Card) (c : Card) (label : String) (ts : Finset Tab)
    (hc : live label ts = some c) :
    let cfg : Cfg := ⟨none, true, some live, true⟩
    let rows := (precomputed cfg (precomputed cfg [] label ts).2 label ts).2
    ∃ rows', reload rows = some rows' ∧ (precomputed cfg rows' label ts).1 = none := by
  refine ⟨[⟨label, .parsed ts, c⟩, ⟨label, .parsed ts, c⟩], ?_, ?_⟩
  · simp [precomputed, fallback, samples, hc, reload]
  · simp [precomputed, samples]

example : count [⟨"q1", .parsed {1, 2}, Card.ofInt 7⟩, ⟨"q2", .parsed {1}, Card.ofInt 3⟩] "q1" {1, 2} = 1 ∧
    count [⟨"q1", .parsed {1, 2}, Card.ofInt 7⟩] "q1" {1} = 0 := by
  rw [← samples_count, ← samples_count]
  decide +kernel

/-! ### C107: precise and distorted cardinalities -/

/-- **C107** (partial: the data does not change). All precise estimates are the results of the count queries on the data. -/
theorem C107_precise_partial {F : Type} [DecidableEq F] (enabled : Bool) (exec : F → Card) (fs : List F) :
    ∀ cache, (∀ f c, Dict.get? cache f = some c → c = exec f) →
    preciseRun enabled cache (fs.map fun f => (exec, f)) = fs.map exec := by
  induction fs with
  | nil => intro cache _; rfl
  | cons f fs ih =>
    intro cache hc
    rw [List.map_cons, preciseRun, List.map_cons]
    unfold precise
    cases h : Dict.get? cache f with
    | some c => simp only; rw [hc f c h, ih cache hc]
    | none =>
      simp only
      rw [ih]
      intro g c hg
      rw [Dict.get?_set] at hg
      split at hg
      · rename_i he; cases hg; rw [he]
      · exact hc g c hg

/-- **C107 is violated**: the cache is used even if it is not enabled, so that estimates do not follow changes of the data. -/
theorem C107_cache_violated {F : Type} [DecidableEq F] (f : F) (before after : F → Card) :
    preciseRun false [] [(before, f), (after, f)] = [before f, before f] := by
  simp [preciseRun, precise, Dict.get?, Dict.set]

/-- **C107.** A distorted cardinality is the original one times the factor, rounded; unknown and infinite cardinalities become
unknown. -/
theorem C107_distortion (n : Int) (f : Rat) :
    (∃ m : Int, distort (Card.ofInt n) f = Card.ofInt m ∧ |(m : Rat) - n * f| ≤ 1 / 2) ∧
    distort Card.unknown f = Card.unknown ∧ distort Card.infinite f = Card.unknown := by
  refine ⟨⟨roundHalfEven (n * f), ?_, CardProps.round_close _⟩, rfl, rfl⟩
  simp [distort, CardProps.ofInt_eq, Card.ident, Card.get, Flt.mul, Card.ofFlt]

/-- **C107.** With a random factor between 1 and the given one, the distorted cardinality lies between the original one and the
original one times the factor, up to rounding. -/
theorem C107_random (n : Int) (hn : 0 ≤ n) (f u : Rat) (h1 : min f 1 ≤ u) (h2 : u ≤ max f 1) :
    ∃ m : Int, distort (Card.ofInt n) u = Card.ofInt m ∧ n * min f 1 - 1 / 2 ≤ (m : Rat) ∧ (m : Rat) ≤ n * max f 1 + 1 / 2 := by
  obtain ⟨⟨m, hm, hr⟩, -⟩ := C107_distortion n u
  refine ⟨m, hm, ?_, ?_⟩ <;> rw [abs_le] at hr
  · have : (n : Rat) * min f 1 ≤ n * u := mul_le_mul_of_nonneg_left h1 (by exact_mod_cast hn)
    linarith [hr.1]
  · have : (n : Rat) * u ≤ n * max f 1 := mul_le_mul_of_nonneg_left h2 (by exact_mod_cast hn)
    linarith [hr.2]

example : distort (Card.ofInt 10) (1 / 4) = Card.ofInt 2 ∧ distort (Card.ofInt 10) (3 / 2) = Card.ofInt 15 := by decide +kernel

example : ∀ f c, Dict.get? ([] : Dict Nat Card) f = some c → c = Card.ofInt f := by simp [Dict.get?]

end PB.IntermediatesProps
