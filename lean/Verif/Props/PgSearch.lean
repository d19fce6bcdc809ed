import Verif.Props.PgDynProg

/-! C100: the search of the dynamic programming enumerator in the style of Postgres. -/

set_option linter.unusedSimpArgs false
set_option linter.unusedVariables false
set_option linter.unusedSectionVars false
set_option linter.unnecessarySimpa false

namespace PB.PgSearchProps
open PB PB.Hints PB.PgDynProg PB.QueryPredsProps PB.DynProgProps PB.PgDynProgProps

/-! ### Specification -/

/-- The tables that a plan scans, from left to right. -/
def tabs : PgDynProg.Path → List Nat
  | .scan _ t _ => [t]
  | .memo _ p => tabs p
  | .mat p => tabs p
  | .join _ o i => tabs o ++ tabs i

/-- The kinds of joins between `A` and `B` that are supported: hash joins, nested-loop joins, and nested-loop joins whose inner
input is memoized or materialized. -/
def Variant (e : Env) (A B : Finset Nat) (op : JoinOp) (w : PgDynProg.Path → PgDynProg.Path) : Prop :=
  (op = .hash ∧ .hash ∈ e.joinOps ∧ w = id) ∨
  (op = .nlj ∧ .nlj ∈ e.joinOps ∧ (w = id ∨
    (e.memoize = true ∧ ∃ ks k, e.memoKeys A B = some ks ∧ k ∈ ks ∧ w = .memo k) ∨ (e.materialize = true ∧ w = .mat)))

/-- A plan in the search space. -/
inductive PgPlan (e : Env) (R : Nat → Nat → Prop) : PgDynProg.Path → Prop
  | scan (op t idx) : ScanOk e.scanOps e.cols t op idx → PgPlan e R (.scan op t idx)
  | join (p o i op w) : p = .join op o (w i) → Variant e (tabs o).toFinset (tabs i).toFinset op w →
      PgPlan e R o → PgPlan e R i → (∀ t, t ∈ tabs o → t ∉ tabs i) → (∃ a ∈ tabs o, ∃ b ∈ tabs i, R a b) → PgPlan e R p

/-- Cheaper inputs over the same tables never make a join more expensive. -/
def PgMonotone (cost : PgDynProg.Path → Rat) : Prop :=
  ∀ op w o o' i i', (w = id ∨ (∃ k, w = .memo k) ∨ w = .mat) → (∀ t, t ∈ tabs o ↔ t ∈ tabs o') → (∀ t, t ∈ tabs i ↔ t ∈ tabs i') →
    cost o ≤ cost o' → cost i ≤ cost i' → cost (.join op o (w i)) ≤ cost (.join op o' (w i'))

/-- No index scan is possible. -/
def NoIndexScans (e : Env) (tables : List Nat) : Prop :=
  ∀ t ∈ tables, ∀ op idx, ScanOk e.scanOps e.cols t op idx → op = .seqScan ∨ op = .bitmapScan

/-! ### Plans -/

theorem variant_tabs {e A B op w} (h : Variant e A B op w) (p : PgDynProg.Path) : tabs (w p) = tabs p := by
  rcases h with ⟨_, _, rfl⟩ | ⟨_, _, rfl | ⟨_, ks, k, _, _, rfl⟩ | ⟨_, rfl⟩⟩ <;> rfl

theorem variant_w {e A B op w} (h : Variant e A B op w) : w = id ∨ (∃ k, w = .memo k) ∨ w = .mat := by
  rcases h with ⟨_, _, rfl⟩ | ⟨_, _, rfl | ⟨_, ks, k, _, _, rfl⟩ | ⟨_, rfl⟩⟩
  · exact .inl rfl
  · exact .inl rfl
  · exact .inr (.inl ⟨k, rfl⟩)
  · exact .inr (.inr rfl)

theorem tabs_ne (p : PgDynProg.Path) : tabs p ≠ [] := by
  induction p with
  | scan => simp [tabs]
  | memo k p ih => exact ih
  | mat p ih => exact ih
  | join op o i ho hi => simp [tabs, ho]

theorem pgplan_conn {e R} (hs : ∀ a b, R a b → R b a) (p : PgDynProg.Path) (hp : PgPlan e R p) : JoinConnected R (tabs p).toFinset := by
  induction hp with
  | scan op t idx h => simpa [tabs] using conn_singleton t
  | join p o i op w hpe hv hpo hpi hd hc iho ihi =>
    obtain ⟨a, ha, b, hb, hab⟩ := hc
    subst hpe
    rw [tabs, List.toFinset_append, variant_tabs hv]
    exact conn_union hs iho ihi (by simpa using ha) (by simpa using hb) hab

theorem pgplan_nodup {e R} (p : PgDynProg.Path) (hp : PgPlan e R p) : (tabs p).Nodup := by
  induction hp with
  | scan op t idx h => simp [tabs]
  | join p o i op w hpe hv hpo hpi hd hc iho ihi =>
    subst hpe
    rw [tabs, variant_tabs hv, List.nodup_append]
    exact ⟨iho, ihi, fun a ha b hb hab => hd a ha (hab ▸ hb)⟩

/-! ### Base relations -/

theorem mem_pgBase (e : Env) (t : Nat) (p : PgDynProg.Path) :
    p ∈ baseCandidates e t ↔ ∃ op idx, p = .scan op t idx ∧ ScanOk e.scanOps e.cols t op idx := by
  unfold baseCandidates indexScans
  simp only [List.mem_append]
  constructor
  · rintro ((h | h) | h)
    · split at h
      · rename_i hs
        exact ⟨.seqScan, none, by simpa using h, hs, rfl⟩
      · simp at h
    · split at h
      · simp at h
      · simp only [List.mem_flatMap, List.mem_append] at h
        obtain ⟨⟨c, is⟩, hcol, i, hi, h | h⟩ := h
        · split at h
          · rename_i hs
            exact ⟨.idxScan, some (c, i), by simpa using h, hs, c, is, i, rfl, hcol, hi⟩
          · simp at h
        · split at h
          · rename_i hs
            simp only [Bool.and_eq_true, decide_eq_true_eq] at hs
            refine ⟨.idxOnlyScan, some (c, i), by simpa using h, hs.1, c, is, i, ?_, rfl, hi⟩
            match hl : e.cols t, hs.2, hcol with
            | [x], _, hcol => simpa [eq_comm] using hcol
          · simp at h
    · split at h
      · rename_i hs
        simp only [Bool.and_eq_true, decide_eq_true_eq, Bool.not_eq_true'] at hs
        exact ⟨.bitmapScan, none, by simpa using h, hs.1, rfl, by intro hc; simp [hc] at hs⟩
      · simp at h
  · rintro ⟨op, idx, rfl, hop, hk⟩
    cases op with
    | seqScan => simp only at hk; subst hk; left; left; simp [hop]
    | bitmapScan =>
      obtain ⟨rfl, hc⟩ := hk
      right
      have : (e.cols t).isEmpty = false := by simpa [List.isEmpty_iff] using hc
      simp [hop, this]
    | idxScan =>
      obtain ⟨c, is, i, rfl, hcol, hi⟩ := hk
      left; right
      rw [if_neg (by simp [hop])]
      simp only [List.mem_flatMap, List.mem_append]
      exact ⟨(c, is), hcol, i, hi, .inl (by simp [hop])⟩
    | idxOnlyScan =>
      obtain ⟨c, is, i, hcol, rfl, hi⟩ := hk
      left; right
      rw [if_neg (by simp [hop])]
      simp only [List.mem_flatMap, List.mem_append]
      exact ⟨(c, is), by simp [hcol], i, hi, .inr (by simp [hop, hcol])⟩

section search
variable {e : Env} {cost : PgDynProg.Path → Rat} (hcost : e.cost = fun p => some (cost p)) {R : Nat → Nat → Prop} {tables : List Nat}

/-- `p` is a plan for `s`, and a cheapest one if costs are monotone and there are no index scans. -/
def PBest (e : Env) (cost : PgDynProg.Path → Rat) (R : Nat → Nat → Prop) (tables : List Nat) (s : Finset Nat) (p : PgDynProg.Path) :
    Prop :=
  PgPlan e R p ∧ (tabs p).toFinset = s ∧
    (PgMonotone cost → NoIndexScans e tables → ∀ p', PgPlan e R p' → (tabs p').toFinset = s → cost p ≤ cost p')

theorem setCheapest_some {paths : List PgDynProg.Path} {c} (h : setCheapest e.cost paths = some c) : c ∈ paths :=
  (minBy_some _ _ _ h).1

include hcost in
/-- The cheapest of the kept paths is a candidate, and a cheapest one if no candidate is sorted. -/
theorem cheapest_kept (cs : List PgDynProg.Path) (c) (h : setCheapest e.cost (kept e.cost Path.sort cs) = some c) :
    c ∈ cs ∧ ((∀ x ∈ cs, x.sort = []) → ∀ x ∈ cs, cost c ≤ cost x) := by
  have hc := (minBy_some _ _ _ h).1
  have hm := ((C29_kept e.cost Path.sort cs).1 c hc).1
  refine ⟨hm, fun hs x hx => ?_⟩
  obtain ⟨k, y, hk, _, hy, hmin⟩ := C29_unsorted e.cost Path.sort cs hs ⟨c, hm, by simp [hcost]⟩
  rw [hk, List.mem_singleton] at hc
  subst hc
  have := hmin x hx (cost x) (by simp [hcost])
  simp only [hcost, Option.some.injEq] at hy
  rw [hy]; exact this

include hcost in
theorem cheapest_kept_isSome (cs : List PgDynProg.Path) :
    setCheapest e.cost (kept e.cost Path.sort cs) = none ↔ cs = [] := by
  unfold setCheapest
  rw [minBy_none, (C29_kept e.cost Path.sort cs).2]
  simp only [hcost, reduceCtorEq, imp_false]
  exact (List.eq_nil_iff_forall_not_mem).symm

/-- The relations of level `k`. -/
def LevOK (e : Env) (cost : PgDynProg.Path → Rat) (R : Nat → Nat → Prop) (tables : List Nat) (k : Nat) (L : List Rel) : Prop :=
  (∀ r ∈ L, r.tables ⊆ tables.toFinset ∧ r.tables.card = k ∧ ∃ c, r.cheapest = some c ∧ PBest e cost R tables r.tables c) ∧
  (∀ s ⊆ tables.toFinset, s.card = k → JoinConnected R s → ∃ r ∈ L, r.tables = s) ∧
  (L.map Rel.tables).Nodup

include hcost in
theorem baseRels_spec (ts : List Nat) (hsub : ∀ t ∈ ts, t ∈ tables) (hnd : ts.Nodup) :
    (∀ L, baseRels e ts = some L →
      (∀ r ∈ L, ∃ t ∈ ts, r.tables = {t} ∧ ∃ c, r.cheapest = some c ∧ PBest e cost R tables r.tables c) ∧
      L.map Rel.tables = ts.map fun t => {t}) ∧
    (baseRels e ts = none ↔ ∃ t ∈ ts, ∀ op idx, ¬ ScanOk e.scanOps e.cols t op idx) := by
  induction ts with
  | nil => simp [baseRels]
  | cons t ts ih =>
    obtain ⟨ih1, ih2⟩ := ih (fun t' h => hsub t' (by simp [h])) (List.nodup_cons.1 hnd).2
    unfold baseRels
    change (∀ L, ((setCheapest e.cost (kept e.cost Path.sort (baseCandidates e t))).bind _) = some L → _) ∧ _
    cases hm : setCheapest e.cost (kept e.cost Path.sort (baseCandidates e t)) with
    | none =>
      refine ⟨by simp, ?_⟩
      rw [cheapest_kept_isSome hcost] at hm
      have hno : ∀ op idx, ¬ ScanOk e.scanOps e.cols t op idx := by
        intro op idx hk
        have := (mem_pgBase e t (.scan op t idx)).2 ⟨op, idx, rfl, hk⟩
        rw [hm] at this; simp at this
      constructor
      · intro _; exact ⟨t, by simp, hno⟩
      · intro _
        have : (kept e.cost Path.sort (baseCandidates e t)) = [] := by rw [hm]; rfl
        show (setCheapest e.cost (kept e.cost Path.sort (baseCandidates e t))).bind _ = none
        rw [this]; rfl
    | some c =>
      obtain ⟨hmem, hmin⟩ := cheapest_kept hcost _ c hm
      obtain ⟨op, idx, rfl, hk⟩ := (mem_pgBase e t _).1 hmem
      have hbest : PBest e cost R tables {t} (.scan op t idx) := by
        refine ⟨.scan _ _ _ hk, by simp [tabs], fun _ hni p' hp' hl => ?_⟩
        cases hp' with
        | scan op' t' idx' h' =>
          have : t' = t := by simpa [tabs] using hl
          subst this
          refine hmin ?_ _ ((mem_pgBase _ _ _).2 ⟨op', idx', rfl, h'⟩)
          intro x hx
          obtain ⟨op'', idx'', rfl, hk''⟩ := (mem_pgBase _ _ _).1 hx
          rcases hni t' (hsub t' (by simp)) op'' idx'' hk'' with rfl | rfl <;> rfl
        | join p o i op' w hpe hv hpo hpi hd hc =>
          exfalso
          obtain ⟨a, ha, b, hb, _⟩ := hc
          subst hpe
          rw [tabs, variant_tabs hv] at hl
          have h1 : a ∈ ({t} : Finset Nat) := by rw [← hl]; simp [ha]
          have h2 : b ∈ ({t} : Finset Nat) := by rw [← hl]; simp [hb]
          rw [Finset.mem_singleton] at h1 h2
          subst h1 h2
          exact hd _ ha hb
      constructor
      · intro L hL
        rw [Option.bind_some] at hL
        cases hr : baseRels e ts with
        | none => rw [hr] at hL; simp at hL
        | some r =>
          rw [hr] at hL
          simp only [Option.map_some, Option.some.injEq] at hL
          subst hL
          obtain ⟨h1, h2⟩ := ih1 r hr
          refine ⟨?_, by simp [h2]⟩
          intro r' hr'
          rcases List.mem_cons.1 hr' with rfl | hr'
          · exact ⟨t, by simp, rfl, _, rfl, hbest⟩
          · obtain ⟨t', ht', h⟩ := h1 r' hr'
            exact ⟨t', by simp [ht'], h⟩
      · show (setCheapest e.cost (kept e.cost Path.sort (baseCandidates e t))).bind _ = none ↔ _
        rw [hm, Option.bind_some, Option.map_eq_none_iff, ih2]
        constructor
        · rintro ⟨t', ht', h⟩; exact ⟨t', by simp [ht'], h⟩
        · rintro ⟨t', ht', h⟩
          rcases List.mem_cons.1 ht' with rfl | ht'
          · exact absurd hk (h _ _)
          · exact ⟨t', ht', h⟩

/-! ### Join relations -/

theorem mem_joinCandidates {e : Env} {r1 r2 : Rel} {o i : PgDynProg.Path} (ho : r1.cheapest = some o) (hi : r2.cheapest = some i)
    {l : List PgDynProg.Path} (hl : joinCandidates e r1 r2 = some l) (x : PgDynProg.Path) :
    x ∈ l ↔ ∃ op w, Variant e r1.tables r2.tables op w ∧ x = .join op o (w i) := by
  unfold joinCandidates nljPaths hashPaths at hl
  simp only [ho, hi, Option.bind_some] at hl
  have hnlj : ∀ keys, (if e.memoize then e.memoKeys r1.tables r2.tables else some []) = some keys →
      (x ∈ [Path.join .nlj o i] ++ keys.map (fun k => Path.join .nlj o (.memo k i)) ++
        (if e.materialize then [Path.join .nlj o (.mat i)] else []) ↔
      ∃ w, (w = id ∨ (e.memoize = true ∧ ∃ ks k, e.memoKeys r1.tables r2.tables = some ks ∧ k ∈ ks ∧ w = .memo k) ∨
        (e.materialize = true ∧ w = .mat)) ∧ x = .join .nlj o (w i)) := by
    intro keys hkeys
    simp only [List.mem_append, List.mem_singleton, List.mem_map]
    constructor
    · rintro ((rfl | ⟨k, hk, rfl⟩) | h)
      · exact ⟨id, .inl rfl, rfl⟩
      · split at hkeys
        · rename_i hmz
          exact ⟨.memo k, .inr (.inl ⟨hmz, keys, k, hkeys, hk, rfl⟩), rfl⟩
        · simp only [Option.some.injEq] at hkeys; subst hkeys; simp at hk
      · split at h
        · rename_i hmt
          exact ⟨.mat, .inr (.inr ⟨hmt, rfl⟩), by simpa using h⟩
        · simp at h
    · rintro ⟨w, rfl | ⟨hmz, ks, k, hks, hk, rfl⟩ | ⟨hmt, rfl⟩, rfl⟩
      · exact .inl (.inl rfl)
      · rw [if_pos hmz, hks] at hkeys
        simp only [Option.some.injEq] at hkeys
        subst hkeys
        exact .inl (.inr ⟨k, hk, rfl⟩)
      · right; rw [if_pos hmt]; simp
  by_cases hn : JoinOp.nlj ∈ e.joinOps
  · simp only [hn, if_true] at hl
    cases hkeys : (if e.memoize then e.memoKeys r1.tables r2.tables else some []) with
    | none => rw [hkeys] at hl; simp at hl
    | some keys =>
      rw [hkeys] at hl
      simp only [Option.map_some, Option.bind_some] at hl
      split at hl
      · simp at hl
      have h := hnlj keys hkeys
      by_cases hh : JoinOp.hash ∈ e.joinOps
      · simp only [hh, if_true, Option.map_some, Option.some.injEq] at hl
        subst hl
        rw [List.mem_append, h]
        constructor
        · rintro (⟨w, hw, rfl⟩ | hx)
          · exact ⟨.nlj, w, .inr ⟨rfl, hn, hw⟩, rfl⟩
          · exact ⟨.hash, id, .inl ⟨rfl, hh, rfl⟩, by simpa using hx⟩
        · rintro ⟨op, w, ⟨rfl, _, rfl⟩ | ⟨rfl, _, hw⟩, rfl⟩
          · right; simp
          · exact .inl ⟨w, hw, rfl⟩
      · simp only [hh, if_false, Option.map_some, Option.some.injEq] at hl
        subst hl
        rw [List.append_nil, h]
        constructor
        · rintro ⟨w, hw, rfl⟩
          exact ⟨.nlj, w, .inr ⟨rfl, hn, hw⟩, rfl⟩
        · rintro ⟨op, w, ⟨rfl, h', rfl⟩ | ⟨rfl, _, hw⟩, rfl⟩
          · exact absurd h' hh
          · exact ⟨w, hw, rfl⟩
  · simp only [hn, if_false, Option.bind_some] at hl
    split at hl
    · simp at hl
    by_cases hh : JoinOp.hash ∈ e.joinOps
    · simp only [hh, if_true, Option.map_some, Option.some.injEq] at hl
      subst hl
      constructor
      · intro hx
        exact ⟨.hash, id, .inl ⟨rfl, hh, rfl⟩, by simpa using hx⟩
      · rintro ⟨op, w, ⟨rfl, _, rfl⟩ | ⟨rfl, h', hw⟩, rfl⟩
        · simp
        · exact absurd h' hn
    · simp only [hh, if_false, Option.map_some, Option.some.injEq] at hl
      subst hl
      constructor
      · intro hx; simp at hx
      · rintro ⟨op, w, ⟨rfl, h', rfl⟩ | ⟨rfl, h', hw⟩, rfl⟩
        · exact absurd h' hh
        · exact absurd h' hn

/-- The pairs that are joined. -/
def Eligible (e : Env) (p : Rel × Rel) : Prop := Disjoint p.1.tables p.2.tables ∧ e.between p.1.tables p.2.tables = true

/-- `x` is a candidate of the pair, in one of the directions. -/
def CandOf (e : Env) (p : Rel × Rel) (x : PgDynProg.Path) : Prop :=
  (∃ l, joinCandidates e p.1 p.2 = some l ∧ x ∈ l) ∨ (∃ l, joinCandidates e p.2 p.1 = some l ∧ x ∈ l)

/-- The level after the pairs `done`. -/
def LInv (e : Env) (done : List (Rel × Rel)) (level : List Rel) : Prop :=
  (∀ r ∈ level, (∃ p ∈ done, Eligible e p ∧ p.1.tables ∪ p.2.tables = r.tables) ∧
    ∃ cs, r.paths = kept e.cost Path.sort cs ∧
      ∀ x, x ∈ cs ↔ ∃ p ∈ done, Eligible e p ∧ p.1.tables ∪ p.2.tables = r.tables ∧ CandOf e p x) ∧
  (∀ p ∈ done, Eligible e p → ∃ r ∈ level, r.tables = p.1.tables ∪ p.2.tables) ∧
  (level.map Rel.tables).Nodup

theorem addToLevel_tables (s : Finset Nat) (ps : List PgDynProg.Path) (level : List Rel) :
    (s ∈ level.map Rel.tables → (addToLevel e s ps level).map Rel.tables = level.map Rel.tables) ∧
    (s ∉ level.map Rel.tables → (addToLevel e s ps level).map Rel.tables = level.map Rel.tables ++ [s]) := by
  induction level with
  | nil => simp [addToLevel]
  | cons r rs ih =>
    unfold addToLevel
    by_cases h : r.tables = s
    · simp [h]
    · simp only [h, if_false, List.map_cons, List.mem_cons, List.cons_append, List.cons.injEq, true_and]
      constructor
      · rintro (h' | h')
        · exact absurd h'.symm h
        · exact ih.1 h'
      · intro h'
        exact ih.2 (fun hm => h' (.inr hm))

theorem addToLevel_mem (s : Finset Nat) (ps : List PgDynProg.Path) (level : List Rel) (hnd : (level.map Rel.tables).Nodup)
    (r : Rel) (hr : r ∈ addToLevel e s ps level) :
    (r ∈ level ∧ r.tables ≠ s) ∨
    (r.tables = s ∧ ((∃ r' ∈ level, r'.tables = s ∧ r.paths = ps.foldl (addPath e.cost Path.sort) r'.paths) ∨
      ((∀ r' ∈ level, r'.tables ≠ s) ∧ r.paths = ps.foldl (addPath e.cost Path.sort) []))) := by
  induction level with
  | nil =>
    simp only [addToLevel, List.mem_singleton] at hr
    subst hr
    exact .inr ⟨rfl, .inr ⟨by simp, rfl⟩⟩
  | cons r0 rs ih =>
    rw [List.map_cons, List.nodup_cons] at hnd
    unfold addToLevel at hr
    by_cases h : r0.tables = s
    · simp only [h, if_true] at hr
      rcases List.mem_cons.1 hr with rfl | hr
      · exact .inr ⟨rfl, .inl ⟨r0, by simp, h, rfl⟩⟩
      · refine .inl ⟨by simp [hr], fun hs => hnd.1 ?_⟩
        rw [h, ← hs]
        exact List.mem_map_of_mem hr
    · simp only [h, if_false] at hr
      rcases List.mem_cons.1 hr with rfl | hr
      · exact .inl ⟨by simp, h⟩
      · rcases ih hnd.2 hr with ⟨h1, h2⟩ | ⟨h1, ⟨r', h2, h3⟩ | ⟨h2, h3⟩⟩
        · exact .inl ⟨by simp [h1], h2⟩
        · exact .inr ⟨h1, .inl ⟨r', by simp [h2], h3⟩⟩
        · refine .inr ⟨h1, .inr ⟨?_, h3⟩⟩
          intro r' hr'
          rcases List.mem_cons.1 hr' with rfl | hr'
          · exact h
          · exact h2 r' hr'

theorem joinPair_inv (done : List (Rel × Rel)) (level level' : List Rel) (p : Rel × Rel) (h : LInv e done level)
    (hj : joinPair e level p = some level') : LInv e (done ++ [p]) level' := by
  obtain ⟨h1, h2, h3⟩ := h
  have skip : ¬ Eligible e p → LInv e (done ++ [p]) level := by
    intro hne
    have hiff : ∀ (Q : Rel × Rel → Prop), (∃ q ∈ done ++ [p], Eligible e q ∧ Q q) ↔ ∃ q ∈ done, Eligible e q ∧ Q q := by
      intro Q
      constructor
      · rintro ⟨q, hq, he, hQ⟩
        rcases List.mem_append.1 hq with hq | hq
        · exact ⟨q, hq, he, hQ⟩
        · rw [List.mem_singleton] at hq; subst hq; exact absurd he hne
      · rintro ⟨q, hq, hQ⟩
        exact ⟨q, by simp [hq], hQ⟩
    refine ⟨fun r hr => ?_, fun q hq he => ?_, h3⟩
    · obtain ⟨ha, cs, hcs, hb⟩ := h1 r hr
      refine ⟨(hiff _).2 ha, cs, hcs, fun x => ?_⟩
      rw [hb x, hiff]
    · rcases List.mem_append.1 hq with hq | hq
      · exact h2 q hq he
      · rw [List.mem_singleton] at hq; subst hq; exact absurd he hne
  unfold joinPair at hj
  split at hj
  · rename_i hc
    simp only [Option.some.injEq] at hj
    subst hj
    refine skip (fun he => ?_)
    have := he.1
    rw [Finset.disjoint_iff_inter_eq_empty] at this
    rw [this] at hc; simp at hc
  split at hj
  · rename_i hb
    simp only [Option.some.injEq] at hj
    subst hj
    refine skip (fun he => ?_)
    rw [he.2] at hb; simp at hb
  rename_i hc hb
  have hel : Eligible e p := by
    refine ⟨?_, by simpa using hb⟩
    rw [Finset.disjoint_iff_inter_eq_empty, ← Finset.card_eq_zero]
    omega
  cases ha : joinCandidates e p.1 p.2 with
  | none => rw [ha] at hj; simp at hj
  | some a =>
    cases hb' : joinCandidates e p.2 p.1 with
    | none => rw [ha, hb'] at hj; simp at hj
    | some b =>
      rw [ha, hb'] at hj
      simp only [Option.bind_some, Option.map_some, Option.some.injEq] at hj
      subst hj
      have hcand : ∀ x, CandOf e p x ↔ x ∈ a ++ b := by
        intro x; simp [CandOf, ha, hb']
      have htab := addToLevel_tables (e := e) (p.1.tables ∪ p.2.tables) (a ++ b) level
      refine ⟨fun r hr => ?_, fun q hq he => ?_, ?_⟩
      · rcases addToLevel_mem _ _ level h3 r hr with ⟨hr1, hr2⟩ | ⟨hr1, ⟨r', hr', hr2, hr3⟩ | ⟨hr2, hr3⟩⟩
        · obtain ⟨⟨q, hq, hq'⟩, cs, hcs, hb⟩ := h1 r hr1
          refine ⟨⟨q, by simp [hq], hq'⟩, cs, hcs, fun x => ?_⟩
          rw [hb x]
          constructor
          · rintro ⟨q, hq, h⟩; exact ⟨q, by simp [hq], h⟩
          · rintro ⟨q, hq, he, hu, hx⟩
            rcases List.mem_append.1 hq with hq | hq
            · exact ⟨q, hq, he, hu, hx⟩
            · rw [List.mem_singleton] at hq; subst hq; exact absurd hu.symm hr2
        · obtain ⟨_, cs, hcs, hb⟩ := h1 r' hr'
          refine ⟨⟨p, by simp, hel, hr1.symm⟩, cs ++ (a ++ b), ?_, fun x => ?_⟩
          · rw [hr3, hcs, kept, kept, ← List.foldl_append]
          · rw [List.mem_append, hb x, hr1, hr2]
            constructor
            · rintro (⟨q, hq, h⟩ | h)
              · exact ⟨q, by simp [hq], h⟩
              · exact ⟨p, by simp, hel, rfl, (hcand x).2 h⟩
            · rintro ⟨q, hq, he, hu, hx⟩
              rcases List.mem_append.1 hq with hq | hq
              · exact .inl ⟨q, hq, he, hu, hx⟩
              · rw [List.mem_singleton] at hq; subst hq; exact .inr ((hcand x).1 hx)
        · refine ⟨⟨p, by simp, hel, hr1.symm⟩, a ++ b, hr3, fun x => ?_⟩
          rw [hr1]
          constructor
          · intro h; exact ⟨p, by simp, hel, rfl, (hcand x).2 h⟩
          · rintro ⟨q, hq, he, hu, hx⟩
            rcases List.mem_append.1 hq with hq | hq
            · obtain ⟨r', hr', hrt⟩ := h2 q hq he
              exact absurd (hrt.trans hu) (hr2 r' hr')
            · rw [List.mem_singleton] at hq; subst hq; exact (hcand x).1 hx
      · have : p.1.tables ∪ p.2.tables ∈ (addToLevel e (p.1.tables ∪ p.2.tables) (a ++ b) level).map Rel.tables ∧
            ∀ s ∈ level.map Rel.tables, s ∈ (addToLevel e (p.1.tables ∪ p.2.tables) (a ++ b) level).map Rel.tables := by
          by_cases hm : p.1.tables ∪ p.2.tables ∈ level.map Rel.tables
          · rw [htab.1 hm]; exact ⟨hm, fun s h => h⟩
          · rw [htab.2 hm]; exact ⟨by simp, fun s h => by simp [List.mem_map.1 h]⟩
        rcases List.mem_append.1 hq with hq | hq
        · obtain ⟨r, hr, hrt⟩ := h2 q hq he
          have := this.2 r.tables (List.mem_map_of_mem hr)
          rw [List.mem_map] at this
          obtain ⟨r', hr', h'⟩ := this
          exact ⟨r', hr', h'.trans hrt⟩
        · rw [List.mem_singleton] at hq; subst hq
          have := this.1
          rw [List.mem_map] at this
          exact this
      · by_cases hm : p.1.tables ∪ p.2.tables ∈ level.map Rel.tables
        · rw [htab.1 hm]; exact h3
        · rw [htab.2 hm, List.nodup_append]
          exact ⟨h3, by simp, fun a ha b hb hab => hm (by rw [List.mem_singleton] at hb; rw [← hb, ← hab]; exact ha)⟩

theorem foldPairs_inv (pairs done : List (Rel × Rel)) (level level' : List Rel) (h : LInv e done level)
    (hj : pairs.foldlM (joinPair e) level = some level') : LInv e (done ++ pairs) level' := by
  induction pairs generalizing done level with
  | nil =>
    simp only [List.foldlM_nil, Option.pure_def, Option.some.injEq] at hj
    subst hj
    simpa using h
  | cons p ps ih =>
    rw [List.foldlM_cons] at hj
    cases hp : joinPair e level p with
    | none => rw [hp] at hj; simp at hj
    | some l1 =>
      rw [hp] at hj
      simp only [Option.bind_eq_bind, Option.bind_some] at hj
      have := ih (done ++ [p]) l1 (joinPair_inv done level l1 p h hp) hj
      simpa using this

theorem foldPairs_total (pairs : List (Rel × Rel)) (level level' : List Rel)
    (hj : pairs.foldlM (joinPair e) level = some level') (q : Rel × Rel) (hq : q ∈ pairs) (hel : Eligible e q) :
    (∃ l, joinCandidates e q.1 q.2 = some l) ∧ ∃ l, joinCandidates e q.2 q.1 = some l := by
  induction pairs generalizing level with
  | nil => simp at hq
  | cons p ps ih =>
    rw [List.foldlM_cons] at hj
    cases hp : joinPair e level p with
    | none => rw [hp] at hj; simp at hj
    | some l1 =>
      rw [hp] at hj
      simp only [Option.bind_eq_bind, Option.bind_some] at hj
      rcases List.mem_cons.1 hq with rfl | hq
      · unfold joinPair at hp
        have h0 : (q.1.tables ∩ q.2.tables) = ∅ := Finset.disjoint_iff_inter_eq_empty.1 hel.1
        simp only [h0, Finset.card_empty, gt_iff_lt, lt_irrefl, if_false, hel.2, Bool.not_true, Bool.false_eq_true] at hp
        cases ha : joinCandidates e q.1 q.2 with
        | none => rw [ha] at hp; simp at hp
        | some a =>
          cases hb : joinCandidates e q.2 q.1 with
          | none => rw [ha, hb] at hp; simp at hp
          | some b => exact ⟨⟨a, rfl⟩, ⟨b, rfl⟩⟩
      · exact ih l1 hj hq

theorem setLevel_spec (rs L : List Rel) (h : setLevel e rs = some L) :
    L.map Rel.tables = rs.map Rel.tables ∧
    ∀ r ∈ L, ∃ r0 ∈ rs, r.tables = r0.tables ∧ ∃ c, setCheapest e.cost r0.paths = some c ∧ r.cheapest = some c := by
  induction rs generalizing L with
  | nil =>
    simp only [setLevel, Option.some.injEq] at h
    subst h; simp
  | cons r0 rs ih =>
    rw [setLevel] at h
    cases hc : setCheapest e.cost r0.paths with
    | none => rw [hc] at h; simp at h
    | some c =>
      cases hl : setLevel e rs with
      | none => rw [hc, hl] at h; simp at h
      | some l =>
        rw [hc, hl] at h
        simp only [Option.bind_some, Option.map_some, Option.some.injEq] at h
        subst h
        obtain ⟨h1, h2⟩ := ih l hl
        refine ⟨by simp [h1], fun r hr => ?_⟩
        rcases List.mem_cons.1 hr with rfl | hr
        · exact ⟨r0, by simp, rfl, c, hc, rfl⟩
        · obtain ⟨r', hr', h'⟩ := h2 r hr
          exact ⟨r', by simp [hr'], h'⟩

theorem setLevel_isSome (rs : List Rel) (h : ∀ r ∈ rs, setCheapest e.cost r.paths ≠ none) : setLevel e rs ≠ none := by
  induction rs with
  | nil => simp [setLevel]
  | cons r0 rs ih =>
    rw [setLevel]
    obtain ⟨c, hc⟩ := Option.ne_none_iff_exists'.1 (h r0 (by simp))
    obtain ⟨l, hl⟩ := Option.ne_none_iff_exists'.1 (ih (fun r hr => h r (by simp [hr])))
    rw [hc, hl]; simp

theorem mem_relPairs (l l' : List Rel) (p : Rel × Rel) : p ∈ relPairs l l' ↔ p.1 ∈ l ∧ p.2 ∈ l' := by
  unfold relPairs
  simp only [List.mem_flatMap, List.mem_map]
  constructor
  · rintro ⟨r, hr, r', hr', rfl⟩; exact ⟨hr, hr'⟩
  · rintro ⟨h1, h2⟩; exact ⟨p.1, h1, p.2, h2, rfl⟩

theorem levelPairs_sound (lv : Nat → List Rel) (k : Nat) (hk : 2 ≤ k) (p : Rel × Rel) (h : p ∈ levelPairs lv k) :
    ∃ i j, 1 ≤ i ∧ 1 ≤ j ∧ i + j = k ∧ p.1 ∈ lv i ∧ p.2 ∈ lv j := by
  unfold levelPairs at h
  rw [List.mem_append] at h
  rcases h with h | h
  · rw [mem_relPairs] at h
    exact ⟨k - 1, 1, by omega, by omega, by omega, h⟩
  · rw [List.mem_flatMap] at h
    obtain ⟨o, ho, h⟩ := h
    rw [List.mem_range'_1] at ho
    split at h
    · simp at h
    · rw [mem_relPairs] at h
      exact ⟨o, k - o, by omega, by omega, by omega, h⟩

theorem levelPairs_complete (lv : Nat → List Rel) (i j : Nat) (hi : 1 ≤ i) (hj : 1 ≤ j) (r1 r2 : Rel) (h1 : r1 ∈ lv i) (h2 : r2 ∈ lv j) :
    (r1, r2) ∈ levelPairs lv (i + j) ∨ (r2, r1) ∈ levelPairs lv (i + j) := by
  unfold levelPairs
  simp only [List.mem_append, List.mem_flatMap, mem_relPairs]
  rcases Nat.lt_or_ge 1 j with hj1 | hj1
  · rcases Nat.lt_or_ge 1 i with hi1 | hi1
    · rcases Nat.lt_or_ge j i with hlt | hge
      · right; right
        refine ⟨j, by rw [List.mem_range'_1]; omega, ?_⟩
        rw [if_neg (by omega), mem_relPairs]
        exact ⟨h2, by rw [show i + j - j = i by omega]; exact h1⟩
      · left; right
        refine ⟨i, by rw [List.mem_range'_1]; omega, ?_⟩
        rw [if_neg (by omega), mem_relPairs]
        exact ⟨h1, by rw [show i + j - i = j by omega]; exact h2⟩
    · have : i = 1 := by omega
      subst this
      right; left
      exact ⟨by rw [show 1 + j - 1 = j by omega]; exact h2, h1⟩
  · have : j = 1 := by omega
    subst this
    left; left
    exact ⟨by simpa using h1, h2⟩

/-- What `joins_between` has to decide. -/
def BetweenOK (e : Env) (R : Nat → Nat → Prop) (tables : List Nat) : Prop :=
  ∀ A B : Finset Nat, (∀ t ∈ A, t ∈ tables) → (∀ t ∈ B, t ∈ tables) → Disjoint A B →
    (e.between A B = true ↔ ∃ a ∈ A, ∃ b ∈ B, R a b)

include hcost in
theorem searchLevel_ok (hs : ∀ a b, R a b → R b a) (hb : BetweenOK e R tables) (lv : Nat → List Rel) (k : Nat) (hk : 2 ≤ k)
    (hlv : ∀ j, 1 ≤ j → j < k → LevOK e cost R tables j (lv j)) (L : List Rel) (h : searchLevel e lv k = some L) :
    LevOK e cost R tables k L := by
  unfold searchLevel at h
  cases hf : (levelPairs lv k).foldlM (joinPair e) [] with
  | none => rw [hf] at h; simp at h
  | some level =>
    rw [hf, Option.bind_some] at h
    obtain ⟨h1, h2, h3⟩ := foldPairs_inv (e := e) (levelPairs lv k) [] [] level ⟨by simp, by simp, by simp⟩ hf
    rw [List.nil_append] at h1 h2
    obtain ⟨hs1, hs2⟩ := setLevel_spec level L h
    -- facts about pairs
    have hpair : ∀ p ∈ levelPairs lv k, Eligible e p → ∃ o i, p.1.cheapest = some o ∧ p.2.cheapest = some i ∧
        PBest e cost R tables p.1.tables o ∧ PBest e cost R tables p.2.tables i ∧
        p.1.tables ∪ p.2.tables ⊆ tables.toFinset ∧ (p.1.tables ∪ p.2.tables).card = k ∧
        ∃ a ∈ p.1.tables, ∃ b ∈ p.2.tables, R a b := by
      intro p hp hel
      obtain ⟨i, j, hi, hj, hij, hp1, hp2⟩ := levelPairs_sound lv k hk p hp
      obtain ⟨ha1, ha2, o, ho, hbo⟩ := (hlv i hi (by omega)).1 p.1 hp1
      obtain ⟨hb1, hb2, c, hc, hbc⟩ := (hlv j hj (by omega)).1 p.2 hp2
      refine ⟨o, c, ho, hc, hbo, hbc, Finset.union_subset ha1 hb1, ?_, ?_⟩
      · rw [Finset.card_union_of_disjoint hel.1]; omega
      · exact (hb p.1.tables p.2.tables (fun t ht => by simpa using ha1 ht) (fun t ht => by simpa using hb1 ht) hel.1).1 hel.2
    -- the candidates of a pair
    have hcandP : ∀ p ∈ levelPairs lv k, Eligible e p → ∀ x, CandOf e p x →
        PgPlan e R x ∧ (tabs x).toFinset = p.1.tables ∪ p.2.tables ∧ x.sort = [] := by
      intro p hp hel x hx
      obtain ⟨o, i, ho, hi, hbo, hbi, _, _, a, ha, b, hb', hab⟩ := hpair p hp hel
      have hdis : ∀ t, t ∈ tabs o → t ∉ tabs i := by
        intro t h1 h2
        have h1' : t ∈ p.1.tables := by rw [← hbo.2.1]; simpa using h1
        have h2' : t ∈ p.2.tables := by rw [← hbi.2.1]; simpa using h2
        exact Finset.disjoint_left.1 hel.1 h1' h2'
      have hao : a ∈ tabs o := by rw [← hbo.2.1] at ha; simpa using ha
      have hbi' : b ∈ tabs i := by rw [← hbi.2.1] at hb'; simpa using hb'
      rcases hx with ⟨l, hl, hx⟩ | ⟨l, hl, hx⟩
      · obtain ⟨op, w, hv, rfl⟩ := (mem_joinCandidates ho hi hl x).1 hx
        refine ⟨.join _ o i op w rfl (by rw [hbo.2.1, hbi.2.1]; exact hv) hbo.1 hbi.1 hdis ⟨a, hao, b, hbi', hab⟩, ?_, rfl⟩
        rw [tabs, variant_tabs hv, List.toFinset_append, hbo.2.1, hbi.2.1]
      · obtain ⟨op, w, hv, rfl⟩ := (mem_joinCandidates hi ho hl x).1 hx
        refine ⟨.join _ i o op w rfl (by rw [hbo.2.1, hbi.2.1]; exact hv) hbi.1 hbo.1 (fun t h1 h2 => hdis t h2 h1)
          ⟨b, hbi', a, hao, hs _ _ hab⟩, ?_, rfl⟩
        rw [tabs, variant_tabs hv, List.toFinset_append, hbo.2.1, hbi.2.1, Finset.union_comm]
    refine ⟨fun r hr => ?_, fun s hsT hc hconn => ?_, by rw [hs1]; exact h3⟩
    · obtain ⟨r0, hr0, hrt, c, hc, hrc⟩ := hs2 r hr
      obtain ⟨⟨p, hp, hel, hu⟩, cs, hcs, hmem⟩ := h1 r0 hr0
      obtain ⟨_, _, _, _, _, _, hT, hcard, _⟩ := hpair p hp hel
      rw [hrt, ← hu]
      refine ⟨hT, hcard, c, hrc, ?_⟩
      rw [hcs] at hc
      obtain ⟨hcm, hmin⟩ := cheapest_kept hcost cs c hc
      have hall : ∀ x ∈ cs, PgPlan e R x ∧ (tabs x).toFinset = r0.tables ∧ x.sort = [] := by
        intro x hx
        obtain ⟨q, hq, hqe, hqu, hqc⟩ := (hmem x).1 hx
        obtain ⟨ha, hb', hc'⟩ := hcandP q hq hqe x hqc
        exact ⟨ha, hb'.trans hqu, hc'⟩
      refine ⟨(hall c hcm).1, (hall c hcm).2.1.trans hu.symm, fun hmono hni p' hp' hl' => ?_⟩
      have hmin' := hmin (fun x hx => (hall x hx).2.2)
      cases hp' with
      | scan op t idx hk' =>
        exfalso
        rw [← hl'] at hcard
        simp [tabs] at hcard
        omega
      | join p' o' i' op w hpe hv hpo hpi hd hcr =>
        subst hpe
        rw [tabs, variant_tabs hv, List.toFinset_append] at hl'
        have hdis : Disjoint (tabs o').toFinset (tabs i').toFinset := by
          rw [Finset.disjoint_left]
          intro t ht; simpa using hd t (by simpa using ht)
        have hcards : (tabs o').toFinset.card + (tabs i').toFinset.card = k := by
          rw [← Finset.card_union_of_disjoint hdis, hl', hcard]
        have hno : 1 ≤ (tabs o').toFinset.card := Finset.card_pos.2 (by rw [List.toFinset_nonempty_iff]; exact tabs_ne o')
        have hni' : 1 ≤ (tabs i').toFinset.card := Finset.card_pos.2 (by rw [List.toFinset_nonempty_iff]; exact tabs_ne i')
        have hsubo : (tabs o').toFinset ⊆ tables.toFinset := Finset.Subset.trans (by rw [← hl']; exact Finset.subset_union_left) hT
        have hsubi : (tabs i').toFinset ⊆ tables.toFinset := Finset.Subset.trans (by rw [← hl']; exact Finset.subset_union_right) hT
        obtain ⟨ro, hro, hrot⟩ := (hlv _ hno (by omega)).2.1 _ hsubo rfl (pgplan_conn hs o' hpo)
        obtain ⟨ri, hri, hrit⟩ := (hlv _ hni' (by omega)).2.1 _ hsubi rfl (pgplan_conn hs i' hpi)
        obtain ⟨_, _, o, ho, hbo⟩ := (hlv _ hno (by omega)).1 ro hro
        obtain ⟨_, _, i, hi, hbi⟩ := (hlv _ hni' (by omega)).1 ri hri
        obtain ⟨a, ha, b, hb', hab⟩ := hcr
        have hbt : e.between ro.tables ri.tables = true := by
          rw [hrot, hrit]
          exact (hb _ _ (fun t ht => by simpa using hsubo ht) (fun t ht => by simpa using hsubi ht) hdis).2
            ⟨a, by simpa using ha, b, by simpa using hb', hab⟩
        have hbt' : e.between ri.tables ro.tables = true := by
          rw [hrot, hrit]
          exact (hb _ _ (fun t ht => by simpa using hsubi ht) (fun t ht => by simpa using hsubo ht) hdis.symm).2
            ⟨b, by simpa using hb', a, by simpa using ha, hs _ _ hab⟩
        have hdis' : Disjoint ro.tables ri.tables := by rw [hrot, hrit]; exact hdis
        -- the pair was visited, in some direction
        have hvis : ∀ l, joinCandidates e ro ri = some l → ∀ x ∈ l, x ∈ cs := by
          intro l hl x hx
          rw [hmem]
          have hpc := levelPairs_complete lv _ _ hno hni' ro ri hro hri
          rw [hcards] at hpc
          rcases hpc with hpc | hpc
          · exact ⟨_, hpc, ⟨hdis', hbt⟩, by simp only [hrot, hrit]; rw [hl', hu], .inl ⟨l, hl, hx⟩⟩
          · exact ⟨_, hpc, ⟨hdis'.symm, hbt'⟩, by simp only [hrot, hrit]; rw [Finset.union_comm, hl', hu], .inr ⟨l, hl, hx⟩⟩
        -- its candidates could be computed, since the level was
        have hsome : ∃ l, joinCandidates e ro ri = some l := by
          have hpc := levelPairs_complete lv _ _ hno hni' ro ri hro hri
          rw [hcards] at hpc
          have hany : ∀ q ∈ levelPairs lv k, Eligible e q → (∃ l, joinCandidates e q.1 q.2 = some l) ∧ ∃ l, joinCandidates e q.2 q.1 = some l := by
            intro q hq hqe
            exact foldPairs_total (levelPairs lv k) [] level hf q hq hqe
          rcases hpc with hpc | hpc
          · exact (hany _ hpc ⟨hdis', hbt⟩).1
          · exact (hany _ hpc ⟨hdis'.symm, hbt'⟩).2
        obtain ⟨l, hl⟩ := hsome
        have hx : Path.join op o (w i) ∈ l := (mem_joinCandidates ho hi hl _).2 ⟨op, w, by rw [hrot, hrit]; exact hv, rfl⟩
        refine le_trans (hmin' _ (hvis l hl _ hx)) (hmono op w o o' i i' (variant_w hv) ?_ ?_
          (hbo.2.2 hmono hni o' hpo hrot.symm) (hbi.2.2 hmono hni i' hpi hrit.symm))
        · intro t; rw [← List.mem_toFinset, hbo.2.1, hrot, List.mem_toFinset]
        · intro t; rw [← List.mem_toFinset, hbi.2.1, hrit, List.mem_toFinset]
    · obtain ⟨A, hA, hAc, hAconn⟩ := conn_grow hs hconn (k - 1) (by omega) (by omega)
      have hne : A.Nonempty := by rw [← Finset.card_pos]; omega
      have hpr : A ≠ s := by rintro rfl; omega
      have hB : (s \ A).card = 1 := by rw [Finset.card_sdiff_of_subset hA]; omega
      obtain ⟨v, hv⟩ := Finset.card_eq_one.1 hB
      obtain ⟨r1, hr1, hr1t⟩ := (hlv (k - 1) (by omega) (by omega)).2.1 A (hA.trans hsT) hAc hAconn
      obtain ⟨r2, hr2, hr2t⟩ := (hlv 1 (by omega) (by omega)).2.1 (s \ A) (Finset.sdiff_subset.trans hsT) hB
        (by rw [hv]; exact conn_singleton v)
      have hdis : Disjoint r1.tables r2.tables := by rw [hr1t, hr2t]; exact Finset.disjoint_sdiff
      have hcr := crossing hconn hA hne hpr
      have hbt : e.between r1.tables r2.tables = true := by
        rw [hr1t, hr2t]
        exact (hb _ _ (fun t ht => by simpa using hsT (hA ht)) (fun t ht => by simpa using hsT (Finset.sdiff_subset ht))
          Finset.disjoint_sdiff).2 hcr
      have hp : (r1, r2) ∈ levelPairs lv k := by
        unfold levelPairs
        rw [List.mem_append, mem_relPairs]
        exact .inl ⟨hr1, hr2⟩
      obtain ⟨r0, hr0, hr0t⟩ := h2 _ hp ⟨hdis, hbt⟩
      have : s ∈ L.map Rel.tables := by
        rw [hs1, List.mem_map]
        exact ⟨r0, hr0, by rw [hr0t, hr1t, hr2t, Finset.union_sdiff_of_subset hA]⟩
      rw [List.mem_map] at this
      exact this

/-- No exception while candidates are created. -/
def NoRaise (e : Env) : Prop :=
  (∀ A B, e.memoKeys A B ≠ none) ∧ ∀ A B, e.mergeRaises A B = false

theorem joinCandidates_total (hnr : NoRaise e) {r1 r2 : Rel} {o i} (ho : r1.cheapest = some o) (hi : r2.cheapest = some i) :
    ∃ l, joinCandidates e r1 r2 = some l := by
  unfold joinCandidates nljPaths hashPaths
  obtain ⟨ks, hks⟩ := Option.ne_none_iff_exists'.1 (hnr.1 r1.tables r2.tables)
  simp only [ho, hi, Option.bind_some, hnr.2, Bool.and_false, Bool.false_eq_true, if_false, hks]
  by_cases h1 : JoinOp.nlj ∈ e.joinOps <;> by_cases h2 : JoinOp.hash ∈ e.joinOps <;> cases hm : e.memoize <;> simp [h1, h2, hm]

theorem foldPairs_isSome (hnr : NoRaise e) (pairs : List (Rel × Rel)) (level : List Rel)
    (h : ∀ p ∈ pairs, p.1.cheapest ≠ none ∧ p.2.cheapest ≠ none) : pairs.foldlM (joinPair e) level ≠ none := by
  induction pairs generalizing level with
  | nil => simp
  | cons p ps ih =>
    rw [List.foldlM_cons]
    have : ∃ l, joinPair e level p = some l := by
      obtain ⟨o, ho⟩ := Option.ne_none_iff_exists'.1 (h p (by simp)).1
      obtain ⟨i, hi⟩ := Option.ne_none_iff_exists'.1 (h p (by simp)).2
      obtain ⟨a, ha⟩ := joinCandidates_total hnr ho hi
      obtain ⟨b, hb⟩ := joinCandidates_total hnr hi ho
      unfold joinPair
      rw [ha, hb]
      split
      · exact ⟨_, rfl⟩
      · split
        · exact ⟨_, rfl⟩
        · exact ⟨_, rfl⟩
    obtain ⟨l, hl⟩ := this
    rw [hl]
    exact ih l (fun q hq => h q (by simp [hq]))

include hcost in
theorem searchLevel_total (hnr : NoRaise e) (hop : .nlj ∈ e.joinOps ∨ .hash ∈ e.joinOps) (lv : Nat → List Rel) (k : Nat) (hk : 2 ≤ k)
    (hlv : ∀ j, 1 ≤ j → j < k → LevOK e cost R tables j (lv j)) : searchLevel e lv k ≠ none := by
  have hch : ∀ p ∈ levelPairs lv k, (∃ o, p.1.cheapest = some o) ∧ ∃ i, p.2.cheapest = some i := by
    intro p hp
    obtain ⟨i, j, hi, hj, hij, hp1, hp2⟩ := levelPairs_sound lv k hk p hp
    obtain ⟨_, _, o, ho, _⟩ := (hlv i hi (by omega)).1 p.1 hp1
    obtain ⟨_, _, c, hc, _⟩ := (hlv j hj (by omega)).1 p.2 hp2
    exact ⟨⟨o, ho⟩, ⟨c, hc⟩⟩
  unfold searchLevel
  obtain ⟨level, hf⟩ := Option.ne_none_iff_exists'.1 (foldPairs_isSome hnr (levelPairs lv k) [] (fun p hp =>
    ⟨by obtain ⟨o, ho⟩ := (hch p hp).1; simp [ho], by obtain ⟨o, ho⟩ := (hch p hp).2; simp [ho]⟩))
  rw [hf, Option.bind_some]
  obtain ⟨h1, h2, h3⟩ := foldPairs_inv (e := e) (levelPairs lv k) [] [] level ⟨by simp, by simp, by simp⟩ hf
  rw [List.nil_append] at h1
  refine setLevel_isSome level (fun r hr => ?_)
  obtain ⟨⟨p, hp, hel, hu⟩, cs, hcs, hmem⟩ := h1 r hr
  rw [hcs, ne_eq, cheapest_kept_isSome hcost]
  obtain ⟨⟨o, ho⟩, ⟨i, hi⟩⟩ := hch p hp
  obtain ⟨l, hl⟩ := joinCandidates_total hnr ho hi
  have : ∃ x, x ∈ l := by
    rcases hop with h | h
    · exact ⟨_, (mem_joinCandidates ho hi hl _).2 ⟨.nlj, id, .inr ⟨rfl, h, .inl rfl⟩, rfl⟩⟩
    · exact ⟨_, (mem_joinCandidates ho hi hl _).2 ⟨.hash, id, .inl ⟨rfl, h, rfl⟩, rfl⟩⟩
  obtain ⟨x, hx⟩ := this
  intro hc
  have := (hmem x).2 ⟨p, hp, hel, hu, .inl ⟨l, hl, hx⟩⟩
  rw [hc] at this
  simp at this

include hcost in
theorem searchLevels_ok (hs : ∀ a b, R a b → R b a) (hb : BetweenOK e R tables) (m : Nat) :
    ∀ (k : Nat) (lv : Nat → List Rel), 1 ≤ k → (∀ j, 1 ≤ j → j ≤ k → LevOK e cost R tables j (lv j)) →
      (∀ lv', searchLevels e (List.range' (k + 1) m) lv = some lv' → ∀ j, 1 ≤ j → j ≤ k + m → LevOK e cost R tables j (lv' j)) ∧
      (NoRaise e → (.nlj ∈ e.joinOps ∨ .hash ∈ e.joinOps) → searchLevels e (List.range' (k + 1) m) lv ≠ none) := by
  induction m with
  | zero =>
    intro k lv _ h
    refine ⟨?_, by simp [searchLevels]⟩
    intro lv' h'
    simp only [List.range'_zero, searchLevels, Option.some.injEq] at h'
    subst h'
    exact h
  | succ m ih =>
    intro k lv hk h
    rw [List.range'_succ, searchLevels]
    have hlt : ∀ j, 1 ≤ j → j < k + 1 → LevOK e cost R tables j (lv j) := fun j h1 h2 => h j h1 (by omega)
    have hnext : ∀ rs, searchLevel e lv (k + 1) = some rs → ∀ j, 1 ≤ j → j ≤ k + 1 →
        LevOK e cost R tables j ((fun j => if j = k + 1 then rs else lv j) j) := by
      intro rs hrs j h1 h2
      by_cases hj : j = k + 1
      · subst hj
        simpa using searchLevel_ok hcost hs hb lv (k + 1) (by omega) hlt rs hrs
      · simp only [hj, if_false]
        exact h j h1 (by omega)
    constructor
    · intro lv' h'
      cases hr : searchLevel e lv (k + 1) with
      | none => rw [hr] at h'; simp at h'
      | some rs =>
        rw [hr, Option.bind_some] at h'
        have := (ih (k + 1) _ (by omega) (hnext rs hr)).1 lv' h'
        intro j h1 h2
        exact this j h1 (by omega)
    · intro hnr hop
      obtain ⟨rs, hr⟩ := Option.ne_none_iff_exists'.1 (searchLevel_total hcost hnr hop lv (k + 1) (by omega) hlt)
      rw [hr, Option.bind_some]
      exact (ih (k + 1) _ (by omega) (hnext rs hr)).2 hnr hop

include hcost in
theorem baseLevel (hnd : tables.Nodup) (L : List Rel) (h : baseRels e tables = some L) :
    LevOK e cost R tables 1 L := by
  obtain ⟨h1, h2⟩ := (baseRels_spec (R := R) (tables := tables) hcost tables (fun _ h => h) hnd).1 L h
  refine ⟨fun r hr => ?_, fun s hs hc _ => ?_, ?_⟩
  · obtain ⟨t, ht, hrt, hb⟩ := h1 r hr
    exact ⟨by rw [hrt]; simpa using ht, by rw [hrt]; simp, hb⟩
  · obtain ⟨t, rfl⟩ := Finset.card_eq_one.1 hc
    have : ({t} : Finset Nat) ∈ L.map Rel.tables := by
      rw [h2, List.mem_map]
      exact ⟨t, by simpa using hs, rfl⟩
    rw [List.mem_map] at this
    exact this
  · rw [h2]
    exact hnd.map (fun a b h => by simpa using h)

end search

/-! ### C100 -/

/-- **C100.** Whenever the Postgres-style enumerator returns a plan, the plan scans each table of the query exactly once, joins only
inputs that are linked by a join predicate and uses only supported operators. If costs are monotone and no index scans are
possible, no plan of its search space (hash joins and nested-loop joins with plain, memoized or materialized inner inputs, including
bushy plans) is cheaper. -/
theorem C100_sound (e : Env) (cost : PgDynProg.Path → Rat) (hcost : e.cost = fun p => some (cost p)) (R : Nat → Nat → Prop)
    (hsym : ∀ a b, R a b → R b a) (tables : List Nat) (hnd : tables.Nodup) (hne : tables ≠ []) (hb : BetweenOK e R tables)
    (p : PgDynProg.Path) (h : generatePlan e tables = some p) :
    PgPlan e R p ∧ (tabs p).Perm tables ∧
      (PgMonotone cost → NoIndexScans e tables → ∀ p', PgPlan e R p' → (tabs p').Perm tables → cost p ≤ cost p') := by
  have hlen : 1 ≤ tables.length := List.length_pos_iff.2 hne
  unfold generatePlan at h
  cases hbase : baseRels e tables with
  | none => rw [hbase] at h; simp at h
  | some base =>
    rw [hbase, Option.bind_some] at h
    have hl1 := baseLevel (R := R) hcost hnd base hbase
    obtain ⟨hok, _⟩ := searchLevels_ok (tables := tables) hcost hsym hb (tables.length - 1) 1 (fun j => if j = 1 then base else []) (le_refl _)
      (fun j h1 h2 => by have : j = 1 := by omega
                         subst this; simpa using hl1)
    cases hlv : searchLevels e (List.range' 2 (tables.length - 1)) (fun j => if j = 1 then base else []) with
    | none => rw [hlv] at h; simp at h
    | some lv =>
      rw [hlv, Option.bind_some] at h
      have hfin := hok lv hlv tables.length hlen (by omega)
      split at h
      · rename_i r hr
        rw [hr] at hfin
        obtain ⟨hrT, hrc, c, hc, hbest⟩ := hfin.1 r (by simp)
        rw [h] at hc
        injection hc with hc
        subst hc
        have hrt : r.tables = tables.toFinset :=
          Finset.eq_of_subset_of_card_le hrT (by rw [hrc, List.toFinset_card_of_nodup hnd])
        rw [hrt] at hbest
        refine ⟨hbest.1, List.perm_of_nodup_nodup_toFinset_eq (pgplan_nodup p hbest.1) hnd hbest.2.1, ?_⟩
        intro hm hni p' hp' hl
        exact hbest.2.2 hm hni p' hp' (by ext x; simp [hl.mem_iff])
      · simp at h

/-- **C100.** The Postgres-style enumerator returns a plan if the tables are connected by join predicates, every table can be
scanned, nested-loop or hash joins are supported, and all costs are finite; what is missing: the computation of cache keys and of
merge joins may raise an exception for some join predicates (`NoRaise`). It does not return a plan if the tables are not connected. -/
theorem C100_complete_partial (e : Env) (cost : PgDynProg.Path → Rat) (hcost : e.cost = fun p => some (cost p)) (R : Nat → Nat → Prop)
    (hsym : ∀ a b, R a b → R b a) (tables : List Nat) (hnd : tables.Nodup) (hne : tables ≠ []) (hb : BetweenOK e R tables) :
    (JoinConnected R tables.toFinset → (∀ t ∈ tables, ∃ op idx, ScanOk e.scanOps e.cols t op idx) →
      (.nlj ∈ e.joinOps ∨ .hash ∈ e.joinOps) → NoRaise e → ∃ p, generatePlan e tables = some p) ∧
    (¬ JoinConnected R tables.toFinset → generatePlan e tables = none) := by
  have hlen : 1 ≤ tables.length := List.length_pos_iff.2 hne
  constructor
  · intro hconn hscan hop hnr
    unfold generatePlan
    obtain ⟨base, hbase⟩ : ∃ base, baseRels e tables = some base := by
      rw [← Option.ne_none_iff_exists', ne_eq,
        (baseRels_spec (R := R) (tables := tables) hcost tables (fun _ h => h) hnd).2]
      rintro ⟨t, ht, hno⟩
      obtain ⟨op, idx, hk⟩ := hscan t ht
      exact hno op idx hk
    rw [hbase, Option.bind_some]
    have hl1 := baseLevel (R := R) hcost hnd base hbase
    obtain ⟨hok, htot⟩ := searchLevels_ok (tables := tables) hcost hsym hb (tables.length - 1) 1 (fun j => if j = 1 then base else []) (le_refl _)
      (fun j h1 h2 => by have : j = 1 := by omega
                         subst this; simpa using hl1)
    obtain ⟨lv, hlv⟩ := Option.ne_none_iff_exists'.1 (htot hnr hop)
    rw [hlv, Option.bind_some]
    obtain ⟨hf1, hf2, hf3⟩ := hok lv hlv tables.length hlen (by omega)
    have hcard : tables.toFinset.card = tables.length := List.toFinset_card_of_nodup hnd
    obtain ⟨r, hr, hrt⟩ := hf2 _ (Finset.Subset.refl _) hcard hconn
    have hall : ∀ r' ∈ lv tables.length, r'.tables = tables.toFinset := fun r' hr' =>
      Finset.eq_of_subset_of_card_le (hf1 r' hr').1 (by rw [(hf1 r' hr').2.1, hcard])
    match hL : lv tables.length with
    | [] => rw [hL] at hr; simp at hr
    | [r'] =>
      obtain ⟨_, _, c, hc, _⟩ := hf1 r' (by rw [hL]; simp)
      exact ⟨c, hc⟩
    | a :: b :: l =>
      exfalso
      rw [hL] at hf3 hall
      simp only [List.map_cons, List.nodup_cons, List.mem_cons] at hf3
      exact hf3.1 (.inl ((hall a (by simp)).trans (hall b (by simp)).symm))
  · intro hconn
    by_contra h
    obtain ⟨p, hp⟩ := Option.ne_none_iff_exists'.1 h
    obtain ⟨h1, h2, _⟩ := C100_sound e cost hcost R hsym tables hnd hne hb p hp
    apply hconn
    have := pgplan_conn hsym p h1
    rwa [show (tabs p).toFinset = tables.toFinset from by ext x; simp [h2.mem_iff]] at this

open PB.Qal in
/-- **C100.** The answers of `joins_between` have the required meaning if every join predicate compares only two tables. -/
theorem C100_between_partial {Q : Type} [DecidableEq Q] (ops : QOps Q) (qp : QueryPreds Q) (hv : qp.Valid ops)
    (hbin : ∀ j ∈ qp.joins, ∀ a b, Compares j (some a) (some b) → a ∈ j.tables ops ∧ b ∈ j.tables ops ∧ OnlyBetween j a b)
    (ord : Finset Nat → List Nat) (hord : IsOrder ord) (e : Env)
    (he : e.between = fun A B => (qp.joinsBetween (ord A) (ord B)).isSome) (tables : List Nat) :
    BetweenOK e (Linked ops qp) tables := by
  intro A B _ _ hd
  rw [he]
  constructor
  · intro h
    obtain ⟨r, hr⟩ := Option.isSome_iff_exists.1 h
    have hne : (qp.matchingJoins (ord A) (ord B)).dedup ≠ [] := createAnd_some.1 ⟨r, hr⟩
    obtain ⟨x, hx⟩ := List.exists_mem_of_ne_nil _ hne
    rw [List.mem_dedup, mem_matching] at hx
    obtain ⟨a, ha, b, hb, hx⟩ := hx
    rw [(hord A).2] at ha
    rw [(hord B).2] at hb
    have hab : a ≠ b := by rintro rfl; exact Finset.disjoint_left.1 hd ha hb
    obtain ⟨t, u, htu, g, hc, hmem⟩ := map_entry ops qp hv a b hab x hx
    obtain ⟨j, hj⟩ := List.exists_mem_of_ne_nil _ (createAnd_some.1 ⟨x, hc⟩)
    obtain ⟨h1, h2, h3⟩ := (hmem j).1 hj
    have := (mem_partnerTabs h3 (some u)).1 (by simp)
    refine ⟨a, ha, b, hb, j, h1, ?_⟩
    rcases htu with ⟨rfl, rfl⟩ | ⟨rfl, rfl⟩
    · exact ⟨.inl h2, this⟩
    · exact ⟨.inr h2, this.symm⟩
  · rintro ⟨a, ha, b, hb, j, hj, _, hc⟩
    obtain ⟨h1, h2, h3⟩ := hbin j hj a b hc
    obtain ⟨r, hr, _⟩ := C35_joins_between_complete ops qp hv (ord A) (ord B) a b (((hord A).2 a).2 ha) (((hord B).2 b).2 hb) j hj h1 h2 h3
    simp [hr]

/-- The joins of `qp1` satisfy the hypothesis: they compare table 1 with table 2 and nothing else. -/
example : PredProps.qp1.Valid ExprProps.noOps ∧ PredProps.qp1.joins ≠ [] ∧
    ∀ j ∈ PredProps.qp1.joins, ∀ a b, Compares j (some a) (some b) →
      a ∈ j.tables ExprProps.noOps ∧ b ∈ j.tables ExprProps.noOps ∧ OnlyBetween j a b := by
  refine ⟨PredProps.qp1_valid, by decide +kernel, ?_⟩
  have hb : ∀ j ∈ PredProps.qp1.joins, ∀ p ∈ j.joinPartners.getD ∅, p.1.tab = some 1 ∧ p.2.tab = some 2 := by decide +kernel
  have ht : ∀ j ∈ PredProps.qp1.joins, j.tables ExprProps.noOps = {1, 2} := by decide +kernel
  have hc : ∀ j ∈ PredProps.qp1.joins, ∀ a b, Compares j a b → (a = some 1 ∧ b = some 2) ∨ (a = some 2 ∧ b = some 1) := by
    rintro j hj a b ⟨ps, hps, p, hp, he⟩
    obtain ⟨h1, h2⟩ := hb j hj p (by rw [hps]; exact hp)
    rw [h1, h2] at he
    rcases he with ⟨h, h'⟩ | ⟨h, h'⟩
    · exact .inl ⟨h.symm, h'.symm⟩
    · exact .inr ⟨h'.symm, h.symm⟩
  intro j hj a b h
  refine ⟨?_, ?_, h, ?_, ?_⟩
  · rw [ht j hj]; rcases hc j hj _ _ h with ⟨h1, h2⟩ | ⟨h1, h2⟩ <;> cases h1 <;> decide
  · rw [ht j hj]; rcases hc j hj _ _ h with ⟨h1, h2⟩ | ⟨h1, h2⟩ <;> cases h2 <;> decide
  · intro u hu
    rcases hc j hj _ _ h with ⟨h1, h2⟩ | ⟨h1, h2⟩ <;> cases h1 <;> cases h2 <;> rcases hc j hj _ _ hu with ⟨h3, h4⟩ | ⟨h3, h4⟩ <;> simp_all
  · intro u hu
    rcases hc j hj _ _ h with ⟨h1, h2⟩ | ⟨h1, h2⟩ <;> cases h1 <;> cases h2 <;> rcases hc j hj _ _ hu with ⟨h3, h4⟩ | ⟨h3, h4⟩ <;> simp_all

/-! ### Examples -/

/-- Scans cost the number of the table, hash joins 1, nested-loop joins 2, materialization saves 3/2. -/
def pgCost : PgDynProg.Path → Rat
  | .scan .idxScan t _ => t + 1
  | .scan _ t _ => t
  | .memo _ p => pgCost p
  | .mat p => pgCost p - 3 / 2
  | .join .hash o i => pgCost o + pgCost i + 1
  | .join _ o i => pgCost o + pgCost i + 2

/-- A chain `1 — 2 — 3`. -/
def pgEnv : Env where
  cost := fun p => some (pgCost p)
  scanOps := [.seqScan]
  joinOps := [.nlj, .hash]
  memoize := true
  materialize := true
  cols := fun t => [(t, [t])]
  between := fun A B => decide ((1 ∈ A ∧ 2 ∈ B) ∨ (2 ∈ A ∧ 1 ∈ B) ∨ (2 ∈ A ∧ 3 ∈ B) ∨ (3 ∈ A ∧ 2 ∈ B))
  memoKeys := fun _ _ => some [7]
  mergeRaises := fun _ _ => false

theorem pgEnv_between : BetweenOK pgEnv exR [1, 2, 3] := by
  intro A B _ _ _
  simp only [pgEnv, decide_eq_true_eq, exR]
  constructor
  · rintro (⟨h1, h2⟩ | ⟨h1, h2⟩ | ⟨h1, h2⟩ | ⟨h1, h2⟩)
    · exact ⟨1, h1, 2, h2, by simp⟩
    · exact ⟨2, h1, 1, h2, by simp⟩
    · exact ⟨2, h1, 3, h2, by simp⟩
    · exact ⟨3, h1, 2, h2, by simp⟩
  · rintro ⟨a, ha, b, hb, ⟨rfl, rfl⟩ | ⟨rfl, rfl⟩ | ⟨rfl, rfl⟩ | ⟨rfl, rfl⟩⟩ <;> simp [ha, hb]

/-- The hypotheses of both theorems hold for the chain. -/
example : ∃ p, generatePlan pgEnv [1, 2, 3] = some p ∧ (tabs p).Perm [1, 2, 3] ∧
    ∀ p', PgPlan pgEnv exR p' → (tabs p').Perm [1, 2, 3] → pgCost p ≤ pgCost p' := by
  obtain ⟨p, hp⟩ := (C100_complete_partial pgEnv pgCost rfl exR exR_symm [1, 2, 3] (by decide) (by decide) pgEnv_between).1
    (by
      have h12 := conn_union exR_symm (conn_singleton 1) (conn_singleton (R := exR) 2) (a := 1) (b := 2) (by simp) (by simp)
        (by simp [exR])
      exact conn_union exR_symm h12 (conn_singleton (R := exR) 3) (a := 2) (b := 3) (by simp) (by simp) (by simp [exR]))
    (fun t _ => ⟨.seqScan, none, by simp [pgEnv], rfl⟩) (.inl (by simp [pgEnv])) ⟨by simp [pgEnv], by simp [pgEnv]⟩
  obtain ⟨_, h2, h3⟩ := C100_sound pgEnv pgCost rfl exR exR_symm [1, 2, 3] (by decide) (by decide) pgEnv_between p hp
  refine ⟨p, hp, h2, h3 ?_ ?_⟩
  · intro op w o o' i i' hw _ _ h1 h2
    rcases hw with rfl | ⟨k, rfl⟩ | rfl <;> cases op <;> simp only [pgCost, id] <;> linarith
  · intro t _ op idx h
    have := h.1
    simp only [pgEnv, List.mem_singleton] at this
    exact .inl this

/-- Evaluation: inner inputs are materialized. -/
example : generatePlan pgEnv [1, 2] = some (.join .nlj (.scan .seqScan 1 none) (.mat (.scan .seqScan 2 none))) := by
  decide +kernel

end PB.PgSearchProps
