import Verif.Model.Pipelines
import Verif.Props.Validation

/-! Properties C46 and C47: histories of configuring, building and using optimization pipelines. -/

set_option linter.unusedSimpArgs false
set_option linter.unusedVariables false
set_option linter.unusedSectionVars false
set_option linter.unnecessarySimpa false

namespace PB.PipelinesProps
open PB PB.Validation PB.Pipelines PB.ValidationProps

variable {Qy D Pl : Type}

/-! ### Specification -/

/-- The stage supports the query. -/
def SupportsQuery (s : Stage Qy D Pl) (q : Qy) : Prop := ∀ c, s.check = some c → AcceptsQuery c q

/-- The stage supports the database. -/
def SupportsDb (s : Stage Qy D Pl) (d : D) : Prop := ∀ c, s.check = some c → AcceptsDb c d

/-- The most recent value that was configured in a history. -/
def latest {C A : Type} (f : C → Option A) (calls : List C) : Option A := calls.reverse.findSome? f

theorem latest_snoc {C A : Type} (f : C → Option A) (calls : List C) (c : C) :
    latest f (calls ++ [c]) = (f c).or (latest f calls) := by
  simp [latest, List.findSome?_cons]
  cases f c <;> rfl

/-- The history contains a call of `build` that raised no exception, and no later call is a change. -/
def BuiltSince {S C E : Type} (call : S → C → S × Option E) (build : C) (change : C → Prop) (s : S) (calls : List C) : Prop :=
  ∃ pre post, calls = pre ++ build :: post ∧ (call (pre.foldl (fun s c => (call s c).1) s) build).2 = none ∧ ∀ c ∈ post, ¬ change c

theorem builtSince_snoc_change {S C E : Type} (call : S → C → S × Option E) (build : C) (change : C → Prop) (s : S) (calls : List C)
    (c : C) (h : change c) (hb : c ≠ build) : ¬ BuiltSince call build change s (calls ++ [c]) := by
  rintro ⟨pre, post, he, h1, h2⟩
  rcases List.eq_nil_or_concat post with rfl | ⟨l, x, rfl⟩
  · have := (List.append_inj' he rfl).2; simp at this; exact hb this
  · rw [List.concat_eq_append, ← List.cons_append, ← List.append_assoc] at he
    have := (List.append_inj' he rfl).2; simp at this
    exact h2 x (by simp) (this ▸ h)

theorem builtSince_snoc_keep {S C E : Type} (call : S → C → S × Option E) (build : C) (change : C → Prop) (s : S) (calls : List C)
    (c : C) (h : ¬ change c) : BuiltSince call build change s (calls ++ [c]) ↔
      BuiltSince call build change s calls ∨ (c = build ∧ (call (calls.foldl (fun s c => (call s c).1) s) build).2 = none) := by
  constructor
  · rintro ⟨pre, post, he, h1, h2⟩
    rcases List.eq_nil_or_concat post with rfl | ⟨l, x, rfl⟩
    · have := List.append_inj' he rfl
      simp only [List.cons.injEq, and_true] at this
      rw [this.1]
      exact .inr ⟨this.2, h1⟩
    · rw [List.concat_eq_append, ← List.cons_append, ← List.append_assoc] at he
      have := (List.append_inj' he rfl).1
      exact .inl ⟨pre, l, this, h1, fun c hc => h2 c (by simp [hc])⟩
  · rintro (⟨pre, post, he, h1, h2⟩ | ⟨rfl, h1⟩)
    · refine ⟨pre, post ++ [c], by simp [he], h1, ?_⟩
      intro x hx
      rcases List.mem_append.1 hx with hx | hx
      · exact h2 x hx
      · rw [List.mem_singleton] at hx; exact hx ▸ h
    · exact ⟨calls, [], rfl, h1, by simp⟩

theorem ensureNothing_none (r : Res) : ensureNothing r = none ↔ r.passed = true := by
  rw [ensureNothing, Option.map_eq_none_iff, C95_ensure_partial _ _ (by simp)]

theorem ensureDb_none (r : Res) : ensureDb r = none ↔ r.passed = true := by
  rw [ensureDb, Option.map_eq_none_iff, C95_ensure_partial _ _ (by simp)]

theorem ensureQuery_none (isSet : Qy → Bool) (r : Res) (q : Qy) (h : isSet q = false) :
    ensureQuery isSet r q = none ↔ r.passed = true := by
  rw [ensureQuery, Option.map_eq_none_iff, h, C95_ensure_partial _ _ (by simp)]

theorem ensureQuery_set (isSet : Qy → Bool) (r : Res) (q : Qy) (h : isSet q = true) : ensureQuery isSet r q = none := by
  rw [ensureQuery, Option.map_eq_none_iff, h]
  exact C95_ensure_violated r

/-! ### C46: integrated pipelines -/

/-- The algorithm that a call selects. -/
def ICall.alg? : ICall Qy D Pl → Option (Stage Qy D Pl)
  | .use s => some s
  | _ => none

/-- The database that a call selects. -/
def ICall.db? : ICall Qy D Pl → Option D
  | .setDb d => some d
  | _ => none

/-- The calls that change the target database. -/
def ICall.newDb : ICall Qy D Pl → Prop
  | .setDb _ => True
  | _ => False

/-- The calls that change the pipeline. -/
def ICall.change : ICall Qy D Pl → Prop
  | .build => False
  | _ => True

theorem irun_snoc (p : IPipe Qy D Pl) (calls : List (ICall Qy D Pl)) (c : ICall Qy D Pl) :
    p.run (calls ++ [c]) = ((p.run calls).call c).1 := by
  simp [IPipe.run]

theorem ibuild_spec (p : IPipe Qy D Pl) :
    (p.build.2 = none ↔ ∃ s, p.alg = some s ∧ SupportsDb s p.db) ∧ p.build.1.db = p.db ∧ p.build.1.alg = p.alg ∧
    (p.build.1.built = true ↔ p.built = true ∨ p.build.2 = none) := by
  unfold IPipe.build SupportsDb
  cases hs : p.alg with
  | none => simp [hs]
  | some s =>
    cases hc : s.check with
    | none => simp [hs, hc]
    | some c =>
      simp only [hc]
      cases he : ensureNothing (c.onDb p.db) with
      | none =>
        rw [ensureNothing_none] at he
        simp [hs, hc, AcceptsDb, he]
      | some e =>
        have : ¬ (c.onDb p.db).passed = true := by rw [← ensureNothing_none, he]; simp
        simp [hs, hc, AcceptsDb, this]

theorem irun_alg (d : D) (calls : List (ICall Qy D Pl)) : ((IPipe.new d).run calls).alg = latest ICall.alg? calls := by
  induction calls using List.reverseRecOn with
  | nil => rfl
  | append_singleton calls c ih =>
    rw [irun_snoc, latest_snoc]
    cases c with
    | setDb d => simpa [IPipe.call, ICall.alg?] using ih
    | use s => simp [IPipe.call, ICall.alg?]
    | build => rw [IPipe.call, (ibuild_spec _).2.2.1, ih]; rfl

theorem irun_db (d : D) (calls : List (ICall Qy D Pl)) : ((IPipe.new d).run calls).db = (latest ICall.db? calls).getD d := by
  induction calls using List.reverseRecOn with
  | nil => rfl
  | append_singleton calls c ih =>
    rw [irun_snoc, latest_snoc]
    cases c with
    | setDb d => simp [IPipe.call, ICall.db?]
    | use s => simpa [IPipe.call, ICall.db?] using ih
    | build => rw [IPipe.call, (ibuild_spec _).2.1, ih]; rfl

theorem irun_built (d : D) (calls : List (ICall Qy D Pl)) :
    ((IPipe.new d).run calls).built = true ↔ BuiltSince IPipe.call .build ICall.newDb (IPipe.new d) calls := by
  induction calls using List.reverseRecOn with
  | nil => simp [IPipe.run, IPipe.new, BuiltSince]
  | append_singleton calls c ih =>
    rw [irun_snoc]
    cases c with
    | setDb d' =>
      have := builtSince_snoc_change IPipe.call .build ICall.newDb (IPipe.new d) calls (.setDb d') trivial (by simp)
      simp [IPipe.call, this]
    | use s =>
      rw [builtSince_snoc_keep _ _ _ _ _ _ (by simp [ICall.newDb]), ← ih]
      simp [IPipe.call]
    | build =>
      rw [builtSince_snoc_keep _ _ _ _ _ _ (by simp [ICall.newDb]), ← ih]
      rw [IPipe.call, (ibuild_spec _).2.2.2]
      simp [IPipe.run, IPipe.call]

/-- **C46** (integrated pipelines). Whatever the history of configuration calls: a plan is created iff `build` succeeded since the
last change of the database and the current algorithm supports the query, and it is the plan of the algorithm that was selected
last. -/
theorem C46_integrated (d : D) (calls : List (ICall Qy D Pl)) (q : Qy) (pl : Pl) :
    ((IPipe.new d).run calls).optimize q = .ok pl ↔
      BuiltSince IPipe.call .build ICall.newDb (IPipe.new d) calls ∧
      ∃ s, latest ICall.alg? calls = some s ∧ SupportsQuery s q ∧ pl = s.plan q := by
  rw [← irun_built, ← irun_alg]
  generalize (IPipe.new d).run calls = p
  unfold IPipe.optimize SupportsQuery
  cases hb : p.built with
  | false => simp
  | true =>
    cases hs : p.alg with
    | none => simp
    | some s =>
      cases hc : s.check with
      | none => simp [hc, eq_comm]
      | some c =>
        simp only [hc, Option.bind_some]
        cases he : ensureNothing (c.onQuery q) with
        | none =>
          rw [ensureNothing_none] at he
          simp only [Bool.not_true, Bool.false_eq_true, if_false, true_and, Option.some.injEq, Except.ok.injEq]
          constructor
          · rintro rfl; exact ⟨s, rfl, by intro c' hc'; rw [hc] at hc'; cases hc'; exact he, rfl⟩
          · rintro ⟨s', rfl, -, rfl⟩; rfl
        | some e =>
          have : ¬ (c.onQuery q).passed = true := by rw [← ensureNothing_none, he]; simp
          simp [AcceptsQuery, this, hc]

/-- **C46** (integrated pipelines; partial: no algorithm is selected after the last successful `build`). The algorithm supports the
current target database. -/
theorem C46_integrated_database_partial (d : D) (calls : List (ICall Qy D Pl))
    (h : BuiltSince IPipe.call .build ICall.change (IPipe.new d) calls) :
    ∃ s, latest ICall.alg? calls = some s ∧ SupportsDb s ((latest ICall.db? calls).getD d) := by
  obtain ⟨pre, post, rfl, h1, h2⟩ := h
  rw [← irun_alg, ← irun_db]
  have h3 : (((IPipe.new d).run pre).build).2 = none := h1
  obtain ⟨s, hs, hd⟩ := (ibuild_spec _).1.1 h3
  suffices hk : ∀ post, (∀ c ∈ post, ¬ ICall.change c) → ((IPipe.new d).run (pre ++ .build :: post)).alg = some s ∧
      ((IPipe.new d).run (pre ++ .build :: post)).db = ((IPipe.new d).run pre).db by
    obtain ⟨ha, hb⟩ := hk post h2
    exact ⟨s, ha, by rw [hb]; exact hd⟩
  intro post
  induction post using List.reverseRecOn with
  | nil =>
    intro _
    rw [irun_snoc, IPipe.call, (ibuild_spec _).2.1, (ibuild_spec _).2.2.1]
    exact ⟨hs, rfl⟩
  | append_singleton post c ih =>
    intro hp
    rw [show pre ++ ICall.build :: (post ++ [c]) = (pre ++ ICall.build :: post) ++ [c] by simp, irun_snoc]
    have hc : c = .build := by
      have := hp c (by simp)
      cases c <;> simp [ICall.change] at this
      rfl
    subst hc
    rw [IPipe.call, (ibuild_spec _).2.1, (ibuild_spec _).2.2.1]
    exact ih fun c hc => hp c (by simp [hc])

/-- **C46 is violated** by integrated pipelines: an algorithm that is selected after `build` is used although it supports no
database, and although `build` was repeated and failed. -/
theorem C46_integrated_violated (d : D) (ok bad : Stage Qy D Pl) (hok : ok.check = none) (a : Atom Qy D)
    (hbad : bad.check = some (.atom a)) (ha : ∀ q, (a.onQuery q).passed = true) (hd : (a.onDb d).passed = false) (q : Qy) :
    ((IPipe.new d).run [.use ok, .build, .use bad, .build]).optimize q = .ok (bad.plan q) ∧ ¬ SupportsDb bad d ∧
    (((IPipe.new d).run [.use ok, .build, .use bad]).call .build).2 = some .state := by
  refine ⟨?_, ?_, ?_⟩
  · rw [C46_integrated]
    refine ⟨⟨[.use ok], [.use bad, .build], rfl, ?_, by simp [ICall.newDb]⟩, bad, rfl, ?_, rfl⟩
    · simp [IPipe.call, IPipe.build, hok]
    · intro c hc; rw [hbad] at hc; cases hc; exact ha q
  · intro h
    have := h _ hbad
    simp [AcceptsDb, Check.onDb, hd] at this
  · simp [IPipe.run, IPipe.call, IPipe.build, hok, hbad, Check.onDb, ensureNothing, ensureAllPassed, hd, IPipe.new, Exc.ofErr]

/-- A stage with the given number that supports the queries and databases below some bounds. -/
def exStage (k nq nd : Nat) : Stage Nat Nat (List Nat) where
  id := k
  check := some (.atom ⟨k, fun q => ⟨decide (q < nq), .one "query"⟩, fun d => ⟨decide (d < nd), .one "database"⟩⟩)
  plan := fun _ => [k]
  improve := fun _ p => p ++ [k]

/-- A stage without pre check. -/
def exFree (k : Nat) : Stage Nat Nat (List Nat) := ⟨k, none, fun _ => [k], fun _ p => p ++ [k]⟩

example : BuiltSince IPipe.call .build ICall.change (IPipe.new 7)
    [.use (exStage 1 10 5), .build, .setDb 3, .build, .build] := ⟨[.use (exStage 1 10 5), .build, .setDb 3], [.build], rfl, by decide +kernel, by simp [ICall.change]⟩

example : ∃ pl, ((IPipe.new 7).run [.use (exStage 1 10 5), .build, .setDb 3, .build]).optimize 4 = .ok pl := ⟨_, rfl⟩

example : (exFree 0).check = none ∧ (exStage 1 10 5).check = some (.atom ⟨1, fun q => ⟨decide (q < 10), .one "query"⟩, fun d => ⟨decide (d < 5), .one "database"⟩⟩) :=
  ⟨rfl, rfl⟩

/-! ### C46: text book pipelines -/

/-- The cardinality estimator that a call selects. -/
def TCall.card? : TCall Qy D Pl → Option (Option (Stage Qy D Pl))
  | .setCard s => some s
  | _ => none

/-- The cost model that a call selects. -/
def TCall.cost? : TCall Qy D Pl → Option (Option (Stage Qy D Pl))
  | .setCost s => some s
  | _ => none

/-- The plan enumerator that a call selects. -/
def TCall.enum? : TCall Qy D Pl → Option (Option (Stage Qy D Pl))
  | .setEnum s => some s
  | _ => none

/-- The calls that change the pipeline. -/
def TCall.change : TCall Qy D Pl → Prop
  | .build => False
  | _ => True

variable (ord : List (Check Qy D) → List (Check Qy D))

theorem trun_snoc (p : TPipe Qy D Pl) (calls : List (TCall Qy D Pl)) (c : TCall Qy D Pl) :
    p.run ord (calls ++ [c]) = ((p.run ord calls).call ord c).1 := by
  simp [TPipe.run]

theorem tbuild_spec (p : TPipe Qy D Pl) :
    (p.build ord).1.db = p.db ∧ (p.build ord).1.card = p.card ∧ (p.build ord).1.cost = p.cost ∧ (p.build ord).1.enum = p.enum ∧
    ((p.build ord).1.built = true ↔ p.built = true ∨ (p.build ord).2 = none) := by
  unfold TPipe.build
  split
  · dsimp only
    split <;> simp_all
  · simp

theorem trun_fields (d : D) (a b c : Stage Qy D Pl) (calls : List (TCall Qy D Pl)) :
    ((TPipe.new d a b c).run ord calls).db = d ∧
    ((TPipe.new d a b c).run ord calls).card = (latest TCall.card? calls).getD (some a) ∧
    ((TPipe.new d a b c).run ord calls).cost = (latest TCall.cost? calls).getD (some b) ∧
    ((TPipe.new d a b c).run ord calls).enum = (latest TCall.enum? calls).getD (some c) := by
  induction calls using List.reverseRecOn with
  | nil => exact ⟨rfl, rfl, rfl, rfl⟩
  | append_singleton calls x ih =>
    rw [trun_snoc, latest_snoc, latest_snoc, latest_snoc]
    cases x with
    | setCard s => obtain ⟨h1, h2, h3, h4⟩ := ih; simp [TPipe.call, TCall.card?, TCall.cost?, TCall.enum?, h1, h2, h3, h4]
    | setCost s => obtain ⟨h1, h2, h3, h4⟩ := ih; simp [TPipe.call, TCall.card?, TCall.cost?, TCall.enum?, h1, h2, h3, h4]
    | setEnum s => obtain ⟨h1, h2, h3, h4⟩ := ih; simp [TPipe.call, TCall.card?, TCall.cost?, TCall.enum?, h1, h2, h3, h4]
    | build =>
      obtain ⟨h1, h2, h3, h4, _⟩ := tbuild_spec ord ((TPipe.new d a b c).run ord calls)
      rw [TPipe.call, h1, h2, h3, h4]
      exact ih

theorem trun_built (d : D) (a b c : Stage Qy D Pl) (calls : List (TCall Qy D Pl)) :
    ((TPipe.new d a b c).run ord calls).built = true ↔
      BuiltSince (TPipe.call ord) .build TCall.change (TPipe.new d a b c) calls := by
  induction calls using List.reverseRecOn with
  | nil => simp [TPipe.run, TPipe.new, BuiltSince]
  | append_singleton calls x ih =>
    rw [trun_snoc]
    cases x with
    | setCard s =>
      have := builtSince_snoc_change (TPipe.call ord) .build TCall.change (TPipe.new d a b c) calls (.setCard s) trivial (by simp)
      simp [TPipe.call, this]
    | setCost s =>
      have := builtSince_snoc_change (TPipe.call ord) .build TCall.change (TPipe.new d a b c) calls (.setCost s) trivial (by simp)
      simp [TPipe.call, this]
    | setEnum s =>
      have := builtSince_snoc_change (TPipe.call ord) .build TCall.change (TPipe.new d a b c) calls (.setEnum s) trivial (by simp)
      simp [TPipe.call, this]
    | build =>
      rw [builtSince_snoc_keep _ _ _ _ _ _ (by simp [TCall.change]), ← ih]
      rw [TPipe.call, (tbuild_spec ord _).2.2.2.2]
      simp [TPipe.run, TPipe.call]

/-- A built pipeline has all stages, their merged check, and the check passes for the database. -/
def TBuilt (p : TPipe Qy D Pl) : Prop :=
  ∃ a b c, p.card = some a ∧ p.cost = some b ∧ p.enum = some c ∧
    p.check = mergeChecks ord ([a.check, b.check, c.check].filterMap id) [] ∧ AcceptsDb p.check p.db

theorem tbuild_built (p : TPipe Qy D Pl) (h : p.built = true → TBuilt ord p) : (p.build ord).1.built = true → TBuilt ord (p.build ord).1 := by
  unfold TPipe.build
  split
  · rename_i a b c ha hb hc
    dsimp only
    cases he : ensureDb ((mergeChecks ord ([a.check, b.check, c.check].filterMap id) []).onDb p.db) with
    | none =>
      intro _
      exact ⟨a, b, c, ha, hb, hc, rfl, (ensureDb_none _).1 he⟩
    | some e =>
      intro hbu
      obtain ⟨a', b', c', ha', hb', hc', hch, hd⟩ := h hbu
      rw [ha] at ha'; rw [hb] at hb'; rw [hc] at hc'
      cases ha'; cases hb'; cases hc'
      exact ⟨a, b, c, ha, hb, hc, rfl, hch ▸ hd⟩
  · exact h

theorem trun_inv (d : D) (a b c : Stage Qy D Pl) (calls : List (TCall Qy D Pl)) :
    ((TPipe.new d a b c).run ord calls).built = true → TBuilt ord ((TPipe.new d a b c).run ord calls) := by
  induction calls using List.reverseRecOn with
  | nil => simp [TPipe.run, TPipe.new]
  | append_singleton calls x ih =>
    rw [trun_snoc]
    cases x with
    | setCard s => simp [TPipe.call]
    | setCost s => simp [TPipe.call]
    | setEnum s => simp [TPipe.call]
    | build => exact tbuild_built ord _ ih

/-- The checks of the given stages. -/
def checksOf (ss : List (Stage Qy D Pl)) : List (Check Qy D) := ss.filterMap (·.check)

theorem merge_accepts (ho : Order ord) (ss : List (Stage Qy D Pl)) (hf : Faithful ((checksOf ss).flatMap Check.atoms)) (q : Qy) :
    AcceptsQuery (mergeChecks ord (checksOf ss) []) q ↔ ∀ s ∈ ss, SupportsQuery s q := by
  have key : (∀ c ∈ checksOf ss, AcceptsQuery c q) ↔ ∀ s ∈ ss, SupportsQuery s q := by
    simp only [checksOf, List.mem_filterMap, SupportsQuery]
    exact ⟨fun h s hs c hc => h c ⟨s, hs, hc⟩, fun h c ⟨s, hs, hc⟩ => h s hs c hc⟩
  rw [← key]
  by_cases hne : checksOf ss = []
  · rw [hne]; simp [mergeChecks, AcceptsQuery, Check.onQuery, Res.ok]
  · simpa using C43_query_partial ord ho (checksOf ss) [] hne (by simpa using hf) q

/-- **C46** (text book pipelines; partial: no set queries, and checks that compare equal behave equally). Whatever the history of
configuration calls: a query is optimized iff `build` succeeded since the last change and all current stages support the query; the
stages that were configured last are used. -/
theorem C46_textbook_partial (ho : Order ord) (isSet : Qy → Bool) (d : D) (a₀ b₀ c₀ : Stage Qy D Pl) (calls : List (TCall Qy D Pl)) (q : Qy)
    (hq : isSet q = false) (a b c : Option (Stage Qy D Pl))
    (hf : Faithful ((checksOf ([a, b, c].filterMap id)).flatMap Check.atoms)) :
    ((TPipe.new d a₀ b₀ c₀).run ord calls).optimize isSet q = .ok (a, b, c) ↔
      BuiltSince (TPipe.call ord) .build TCall.change (TPipe.new d a₀ b₀ c₀) calls ∧
      a = (latest TCall.card? calls).getD (some a₀) ∧ b = (latest TCall.cost? calls).getD (some b₀) ∧
      c = (latest TCall.enum? calls).getD (some c₀) ∧
      ∀ s, some s = a ∨ some s = b ∨ some s = c → SupportsQuery s q := by
  obtain ⟨-, f2, f3, f4⟩ := trun_fields ord d a₀ b₀ c₀ calls
  have hinv := trun_inv ord d a₀ b₀ c₀ calls
  rw [← trun_built, ← f2, ← f3, ← f4]
  generalize (TPipe.new d a₀ b₀ c₀).run ord calls = p at *
  unfold TPipe.optimize
  cases hb : p.built with
  | false => simp
  | true =>
    obtain ⟨x, y, z, hx, hy, hz, hch, -⟩ := hinv hb
    simp only [Bool.not_true, Bool.false_eq_true, if_false, true_and]
    constructor
    · intro h
      cases he : ensureQuery isSet (p.check.onQuery q) q with
      | some e => rw [he] at h; cases h
      | none =>
        rw [he] at h
        simp only [Except.ok.injEq, Prod.mk.injEq] at h
        obtain ⟨rfl, rfl, rfl⟩ := h
        refine ⟨rfl, rfl, rfl, ?_⟩
        rw [ensureQuery_none _ _ _ hq] at he
        rw [hx, hy, hz] at hf ⊢
        have := (merge_accepts ord ho [x, y, z] hf q).1 (by rw [hch] at he; exact he)
        intro s hs
        exact this s (by simpa using hs)
    · rintro ⟨rfl, rfl, rfl, hall⟩
      rw [hx, hy, hz] at hf hall
      have := (merge_accepts ord ho [x, y, z] hf q).2 (fun s hs => hall s (by simpa using hs))
      have he : ensureQuery isSet (p.check.onQuery q) q = none := by
        rw [ensureQuery_none _ _ _ hq, hch]; exact this
      simp only [he]

/-- **C46** (text book pipelines; partial: the stages have at most one check, possibly repeated). A built pipeline supports its target
database. -/
theorem C46_textbook_database_partial (ho : Order ord) (d : D) (a₀ b₀ c₀ : Stage Qy D Pl) (calls : List (TCall Qy D Pl))
    (h : BuiltSince (TPipe.call ord) .build TCall.change (TPipe.new d a₀ b₀ c₀) calls) :
    ∃ a b c, (latest TCall.card? calls).getD (some a₀) = some a ∧ (latest TCall.cost? calls).getD (some b₀) = some b ∧
      (latest TCall.enum? calls).getD (some c₀) = some c ∧
      ∀ k, Faithful ((checksOf [a, b, c]).flatMap Check.atoms) →
        (∀ s ∈ [a, b, c], ∀ x, s.check = some x → x = .empty ∨ ∃ y, x = .atom y ∧ y.key = k) → ∀ s ∈ [a, b, c], SupportsDb s d := by
  obtain ⟨f1, f2, f3, f4⟩ := trun_fields ord d a₀ b₀ c₀ calls
  rw [← trun_built] at h
  obtain ⟨a, b, c, ha, hb, hc, hch, hd⟩ := trun_inv ord d a₀ b₀ c₀ calls h
  refine ⟨a, b, c, by rw [← f2, ha], by rw [← f3, hb], by rw [← f4, hc], fun k hf hk s hs x hx => ?_⟩
  have hmem : x ∈ checksOf [a, b, c] := List.mem_filterMap.2 ⟨s, hs, hx⟩
  rw [f1, hch] at hd
  refine (C43_database_partial ord ho (checksOf [a, b, c]) [] (List.ne_nil_of_mem hmem) (by simpa using hf) k ?_ d).1 hd x (by simpa using hmem)
  intro y hy
  rw [List.append_nil] at hy
  obtain ⟨s', hs', hy'⟩ := List.mem_filterMap.1 hy
  exact hk s' hs' y hy'

/-- **C46 is violated** by text book pipelines in two ways: with two different checks every database is supported; and set queries
are optimized whether they are supported or not. -/
theorem C46_textbook_violated (ho : Order ord) (isSet : Qy → Bool) (d : D) (a b c : Stage Qy D Pl) (x y : Atom Qy D)
    (ha : a.check = some (.atom x)) (hb : b.check = some (.atom y)) (hk : x.key ≠ y.key) :
    (((TPipe.new d a b c).call ord .build).2 = none) ∧
    ∀ q, isSet q = true → ((TPipe.new d a b c).run ord [.build]).optimize isSet q = .ok (some a, some b, some c) := by
  have hb' : (((TPipe.new d a b c).call ord .build).2 = none) := by
    have hacc := C43_database_violated ord ho ([a.check, b.check, c.check].filterMap id) [] (.atom x) (.atom y)
      (by simp [ha]) (by simp [ha, hb]) x y (by simp [Check.atoms]) (by simp [Check.atoms]) hk d
    rw [AcceptsDb, ← ensureDb_none] at hacc
    simp only [TPipe.call, TPipe.build, TPipe.new, hacc]
  refine ⟨hb', fun q hq => ?_⟩
  have hbu := (trun_built ord d a b c [.build]).2 ⟨[], [], rfl, hb', by simp⟩
  obtain ⟨-, f2, f3, f4⟩ := trun_fields ord d a b c [.build]
  simp only [TPipe.optimize, hbu, ensureQuery_set isSet _ q hq, f2, f3, f4]
  rfl

example : Order (id : List (Check Nat Nat) → List (Check Nat Nat)) := fun _ => List.Perm.refl _

example : Faithful ((checksOf ([some (exStage 1 10 5), some (exStage 2 20 5), some (exFree 3)].filterMap id)).flatMap Check.atoms) := by
  intro a ha b hb hk
  simp [checksOf, exStage, exFree, Check.atoms] at ha hb
  rcases ha with rfl | rfl <;> rcases hb with rfl | rfl <;> simp at hk ⊢

example : BuiltSince (TPipe.call id) .build TCall.change (TPipe.new 3 (exStage 1 10 5) (exFree 2) (exFree 3))
    [.setCost none, .build, .setCost (some (exStage 2 20 5)), .build] :=
  ⟨[.setCost none, .build, .setCost (some (exStage 2 20 5))], [], rfl, by decide +kernel, by simp⟩

/-! ### C46: multi-stage pipelines -/

/-- The support check that a call configures. -/
def MCall.check? : MCall Qy D Pl → Option (Check Qy D)
  | .setCheck c => some c
  | .load c _ _ _ => c
  | _ => none

/-- The join order optimizer that a call configures. -/
def MCall.join? : MCall Qy D Pl → Option (Stage Qy D Pl)
  | .setJoin s => some s
  | .load _ s _ _ => s
  | _ => none

/-- The operator selection that a call configures. -/
def MCall.ops? : MCall Qy D Pl → Option (Stage Qy D Pl)
  | .setOps s => some s
  | .load _ _ s _ => s
  | _ => none

/-- The plan parameterization that a call configures. -/
def MCall.params? : MCall Qy D Pl → Option (Stage Qy D Pl)
  | .setParams s => some s
  | .load _ _ _ s => s
  | _ => none

/-- The database that a call configures. -/
def MCall.db? : MCall Qy D Pl → Option D
  | .setDb d => some d
  | _ => none

/-- The calls that change the pipeline. -/
def MCall.change : MCall Qy D Pl → Prop
  | .build => False
  | _ => True

/-- A check that a call configures, directly or as part of a stage. -/
def MCall.Brings (x : MCall Qy D Pl) (c : Check Qy D) : Prop :=
  MCall.check? x = some c ∨ ∃ s, (MCall.join? x = some s ∨ MCall.ops? x = some s ∨ MCall.params? x = some s) ∧ s.check = some c

/-- All checks that were configured during a history compare equal only if they behave equally. -/
def FaithfulHistory (calls : List (MCall Qy D Pl)) : Prop :=
  ∀ x ∈ calls, ∀ c, MCall.Brings x c → ∀ a ∈ c.atoms, ∀ y ∈ calls, ∀ c', MCall.Brings y c' → ∀ b ∈ c'.atoms, a.key = b.key →
    a.onQuery = b.onQuery ∧ a.onDb = b.onDb

theorem mrun_snoc (p : MPipe Qy D Pl) (calls : List (MCall Qy D Pl)) (c : MCall Qy D Pl) :
    p.run ord (calls ++ [c]) = ((p.run ord calls).call ord c).1 := by
  simp [MPipe.run]

theorem mbuild_spec (p : MPipe Qy D Pl) :
    (p.build ord).1.db = p.db ∧ (p.build ord).1.join = p.join ∧ (p.build ord).1.ops = p.ops ∧ (p.build ord).1.params = p.params ∧
    (p.build ord).1.check = some (mergeChecks ord p.checks []) ∧
    ((p.build ord).1.built = true ↔ p.built = true ∨ (p.build ord).2 = none) ∧
    ((p.build ord).2 = none ↔ AcceptsDb (mergeChecks ord p.checks []) p.db) := by
  unfold MPipe.build AcceptsDb
  dsimp only
  cases h : ((mergeChecks ord p.checks []).onDb p.db).passed <;> simp

theorem mrun_fields (d : D) (calls : List (MCall Qy D Pl)) :
    ((MPipe.new d).run ord calls).db = (latest MCall.db? calls).getD d ∧
    ((MPipe.new d).run ord calls).join = latest MCall.join? calls ∧
    ((MPipe.new d).run ord calls).ops = latest MCall.ops? calls ∧
    ((MPipe.new d).run ord calls).params = latest MCall.params? calls := by
  induction calls using List.reverseRecOn with
  | nil => exact ⟨rfl, rfl, rfl, rfl⟩
  | append_singleton calls x ih =>
    rw [mrun_snoc, latest_snoc, latest_snoc, latest_snoc, latest_snoc]
    obtain ⟨h1, h2, h3, h4⟩ := ih
    cases x with
    | build =>
      obtain ⟨g1, g2, g3, g4, _⟩ := mbuild_spec ord ((MPipe.new d).run ord calls)
      rw [MPipe.call, g1, g2, g3, g4]
      exact ⟨h1, h2, h3, h4⟩
    | _ => simp [MPipe.call, MCall.db?, MCall.join?, MCall.ops?, MCall.params?, h1, h2, h3, h4]

theorem mrun_built (d : D) (calls : List (MCall Qy D Pl)) :
    ((MPipe.new d).run ord calls).built = true ↔ BuiltSince (MPipe.call ord) .build MCall.change (MPipe.new d) calls := by
  induction calls using List.reverseRecOn with
  | nil => simp [MPipe.run, MPipe.new, BuiltSince]
  | append_singleton calls x ih =>
    rw [mrun_snoc]
    have hch := builtSince_snoc_change (MPipe.call ord) .build MCall.change (MPipe.new d) calls x
    cases x with
    | build =>
      rw [builtSince_snoc_keep _ _ _ _ _ _ (by simp [MCall.change]), ← ih]
      rw [MPipe.call, (mbuild_spec ord _).2.2.2.2.2.1]
      simp [MPipe.run, MPipe.call]
    | _ =>
      have := hch trivial (by simp)
      simp [MPipe.call, this]

/-- Every part of `c` has an equal part in `c'`. -/
def Covers (c' c : Check Qy D) : Prop := ∀ a ∈ c.atoms, ∃ b ∈ c'.atoms, b.key = a.key

theorem merge_covers (ho : Order ord) (cs : List (Check Qy D)) (c : Check Qy D) (h : c ∈ cs) : Covers (mergeChecks ord cs []) c := by
  intro a ha
  rw [mergeChecks_atoms ord cs [] (List.ne_nil_of_mem h)]
  exact (mergedAtoms_spec ord ho (cs ++ [])).2 c (by simpa using h) a ha

theorem merge_from (ho : Order ord) (cs : List (Check Qy D)) : ∀ a ∈ (mergeChecks ord cs []).atoms, ∃ c ∈ cs, a ∈ c.atoms := by
  intro a ha
  by_cases hne : cs = []
  · subst hne; simp [mergeChecks, Check.atoms] at ha
  · rw [mergeChecks_atoms ord cs [] hne] at ha
    simpa using (mergedAtoms_spec ord ho (cs ++ [])).1 a ha

/-- The stages of a pipeline. -/
def MPipe.has (p : MPipe Qy D Pl) (s : Stage Qy D Pl) : Prop := p.join = some s ∨ p.ops = some s ∨ p.params = some s

theorem mem_checks (p : MPipe Qy D Pl) (c : Check Qy D) : c ∈ p.checks ↔ p.check = some c ∨ ∃ s, MPipe.has p s ∧ s.check = some c := by
  simp only [MPipe.checks, List.mem_filterMap, id_eq, exists_eq_right, List.mem_cons, List.not_mem_nil, or_false, MPipe.has]
  simp only [eq_comm (a := some c), Option.bind_eq_some_iff]
  constructor
  · rintro (h | ⟨s, h⟩ | ⟨s, h⟩ | ⟨s, h⟩)
    · exact .inl h
    · exact .inr ⟨s, .inl h.1, h.2⟩
    · exact .inr ⟨s, .inr (.inl h.1), h.2⟩
    · exact .inr ⟨s, .inr (.inr h.1), h.2⟩
  · rintro (h | ⟨s, h | h | h, h'⟩)
    · exact .inl h
    · exact .inr (.inl ⟨s, h, h'⟩)
    · exact .inr (.inr (.inl ⟨s, h, h'⟩))
    · exact .inr (.inr (.inr ⟨s, h, h'⟩))

theorem latest_mem {C A : Type} (f : C → Option A) (calls : List C) (a : A) (h : latest f calls = some a) : ∃ x ∈ calls, f x = some a := by
  obtain ⟨x, hx, h⟩ := List.exists_of_findSome?_eq_some h
  exact ⟨x, by simpa using hx, h⟩

/-- The invariant of multi-stage pipelines: the pre check exists and stems from the history; it covers the configured support check
and, once the pipeline is built, all checks of the stages. -/
structure MInv (calls : List (MCall Qy D Pl)) (p : MPipe Qy D Pl) : Prop where
  ex : ∃ c, p.check = some c ∧ (∀ a ∈ c.atoms, ∃ x ∈ calls, ∃ c', MCall.Brings x c' ∧ a ∈ c'.atoms) ∧
    (∀ c', latest MCall.check? calls = some c' → Covers c c') ∧
    (p.built = true → ∀ s, MPipe.has p s → ∀ c', s.check = some c' → Covers c c')

theorem covers_trans {a b c : Check Qy D} (h1 : Covers a b) (h2 : Covers b c) : Covers a c := by
  intro x hx
  obtain ⟨y, hy, he⟩ := h2 x hx
  obtain ⟨z, hz, he'⟩ := h1 y hy
  exact ⟨z, hz, he'.trans he⟩


theorem has_brings (d : D) (calls : List (MCall Qy D Pl)) (s : Stage Qy D Pl) (hs : MPipe.has ((MPipe.new d).run ord calls) s)
    (c : Check Qy D) (hc : s.check = some c) : ∃ x ∈ calls, MCall.Brings x c := by
  obtain ⟨-, f2, f3, f4⟩ := mrun_fields ord d calls
  rw [MPipe.has, f2, f3, f4] at hs
  rcases hs with h | h | h
  · obtain ⟨x, hx, h⟩ := latest_mem _ _ _ h; exact ⟨x, hx, .inr ⟨s, .inl h, hc⟩⟩
  · obtain ⟨x, hx, h⟩ := latest_mem _ _ _ h; exact ⟨x, hx, .inr ⟨s, .inr (.inl h), hc⟩⟩
  · obtain ⟨x, hx, h⟩ := latest_mem _ _ _ h; exact ⟨x, hx, .inr ⟨s, .inr (.inr h), hc⟩⟩

theorem mrun_inv (ho : Order ord) (d : D) (calls : List (MCall Qy D Pl)) : MInv calls ((MPipe.new d).run ord calls) := by
  induction calls using List.reverseRecOn with
  | nil => exact ⟨.empty, rfl, by simp [Check.atoms], by simp [latest], by simp [MPipe.run, MPipe.new]⟩
  | append_singleton calls x ih =>
    obtain ⟨c, hc, hfrom, hcov, hbuilt⟩ := ih
    have hb := has_brings ord d calls
    rw [mrun_snoc]
    generalize (MPipe.new d).run ord calls = p at *
    have hfrom' : ∀ a ∈ c.atoms, ∃ y ∈ calls ++ [x], ∃ c', MCall.Brings y c' ∧ a ∈ c'.atoms := by
      intro a ha
      obtain ⟨y, hy, h⟩ := hfrom a ha
      exact ⟨y, by simp [hy], h⟩
    refine ⟨?_⟩
    rw [latest_snoc]
    cases x with
    | build =>
      obtain ⟨g1, g2, g3, g4, g5, g6, -⟩ := mbuild_spec ord p
      refine ⟨_, g5, ?_, ?_, ?_⟩
      · intro a ha
        obtain ⟨c', hc', ha'⟩ := merge_from ord ho _ a ha
        rcases (mem_checks p c').1 hc' with h | ⟨s, hs, h⟩
        · rw [hc] at h; cases h; exact hfrom' a ha'
        · obtain ⟨y, hy, h'⟩ := hb s hs c' h
          exact ⟨y, by simp [hy], c', h', ha'⟩
      · intro c' hc'
        exact covers_trans (merge_covers ord ho _ c ((mem_checks p c).2 (.inl hc))) (hcov c' (by simpa [MCall.check?] using hc'))
      · intro _ s hs c' hc'
        have hs' : MPipe.has p s := by
          simpa only [MPipe.has, MPipe.call, g2, g3, g4] using hs
        exact merge_covers ord ho _ c' ((mem_checks p c').2 (.inr ⟨s, hs', hc'⟩))
    | setCheck c₁ =>
      refine ⟨c₁, rfl, fun a ha => ⟨.setCheck c₁, by simp, c₁, .inl rfl, ha⟩, ?_, by simp [MPipe.call]⟩
      intro c' hc'
      simp only [MCall.check?, Option.some_or, Option.some.injEq] at hc'
      subst hc'
      exact fun a ha => ⟨a, ha, rfl⟩
    | load c₁ j o q =>
      cases c₁ with
      | none => exact ⟨c, hc, hfrom', by simpa [MCall.check?] using hcov, by simp [MPipe.call]⟩
      | some c₁ =>
        refine ⟨c₁, by simp [MPipe.call], fun a ha => ⟨.load (some c₁) j o q, by simp, c₁, .inl rfl, ha⟩, ?_, by simp [MPipe.call]⟩
        intro c' hc'
        simp only [MCall.check?, Option.some_or, Option.some.injEq] at hc'
        subst hc'
        exact fun a ha => ⟨a, ha, rfl⟩
    | setDb _ => exact ⟨c, hc, hfrom', by simpa [MCall.check?] using hcov, by simp [MPipe.call]⟩
    | setJoin _ => exact ⟨c, hc, hfrom', by simpa [MCall.check?] using hcov, by simp [MPipe.call]⟩
    | setOps _ => exact ⟨c, hc, hfrom', by simpa [MCall.check?] using hcov, by simp [MPipe.call]⟩
    | setParams _ => exact ⟨c, hc, hfrom', by simpa [MCall.check?] using hcov, by simp [MPipe.call]⟩

theorem covers_accepts {calls : List (MCall Qy D Pl)} (hf : FaithfulHistory calls) {c c' : Check Qy D}
    (h : ∀ a ∈ c.atoms, ∃ x ∈ calls, ∃ c', MCall.Brings x c' ∧ a ∈ c'.atoms) (y : MCall Qy D Pl) (hy : y ∈ calls)
    (hc' : MCall.Brings y c') (hcov : Covers c c') (q : Qy) (hq : AcceptsQuery c q) : AcceptsQuery c' q := by
  unfold AcceptsQuery at *
  rw [onQuery_passed] at hq ⊢
  intro a ha
  obtain ⟨b, hb, hk⟩ := hcov a ha
  obtain ⟨x, hx, c'', hx', hb'⟩ := h b hb
  rw [← (hf x hx c'' hx' b hb' y hy c' hc' a ha hk).1]
  exact hq b hb

/-- **C46** (multi-stage pipelines; partial: checks that compare equal behave equally). Whatever the history of configuration calls: if
a query is optimized, `build` succeeded since the last change, the stages that were configured last are used, and all of them as well
as the support check that was configured last support the query. -/
theorem C46_multistage_partial (ho : Order ord) (d : D) (calls : List (MCall Qy D Pl)) (hf : FaithfulHistory calls) (q : Qy)
    (j o a : Option (Stage Qy D Pl)) (h : ((MPipe.new d).run ord calls).optimize q = .ok (j, o, a)) :
    BuiltSince (MPipe.call ord) .build MCall.change (MPipe.new d) calls ∧
    j = latest MCall.join? calls ∧ o = latest MCall.ops? calls ∧ a = latest MCall.params? calls ∧
    (∀ s, j = some s ∨ o = some s ∨ a = some s → SupportsQuery s q) ∧
    ∀ c, latest MCall.check? calls = some c → AcceptsQuery c q := by
  obtain ⟨-, f2, f3, f4⟩ := mrun_fields ord d calls
  obtain ⟨c, hc, hfrom, hcov, hbuilt⟩ := mrun_inv ord ho d calls
  have hb := has_brings ord d calls
  rw [← mrun_built]
  rw [← f2, ← f3, ← f4]
  generalize (MPipe.new d).run ord calls = p at *
  unfold MPipe.optimize at h
  cases hbu : p.built with
  | false => simp [hbu] at h
  | true =>
    simp only [hbu, hc, Bool.not_true, Bool.false_eq_true, if_false] at h
    cases hq : (c.onQuery q).passed with
    | false => simp [hq] at h
    | true =>
      simp only [hq, Bool.not_true, Bool.false_eq_true, if_false, Except.ok.injEq, Prod.mk.injEq] at h
      obtain ⟨rfl, rfl, rfl⟩ := h
      refine ⟨rfl, rfl, rfl, rfl, ?_, ?_⟩
      · intro s hs c' hc'
        obtain ⟨y, hy, hbr⟩ := hb s hs c' hc'
        exact covers_accepts hf hfrom y hy hbr (hbuilt hbu s hs c' hc') q hq
      · intro c' hc'
        obtain ⟨y, hy, hbr⟩ := latest_mem _ _ _ hc'
        exact covers_accepts hf hfrom y hy (.inl hbr) (hcov c' hc') q hq

/-- **C46** (multi-stage pipelines; partial: all checks that were ever configured support the query). Then the query is optimized as
soon as the pipeline was built. -/
theorem C46_multistage_succeeds_partial (ho : Order ord) (d : D) (calls : List (MCall Qy D Pl)) (q : Qy)
    (hall : ∀ x ∈ calls, ∀ c, MCall.Brings x c → AcceptsQuery c q)
    (hb : BuiltSince (MPipe.call ord) .build MCall.change (MPipe.new d) calls) :
    ((MPipe.new d).run ord calls).optimize q =
      .ok (latest MCall.join? calls, latest MCall.ops? calls, latest MCall.params? calls) := by
  obtain ⟨-, f2, f3, f4⟩ := mrun_fields ord d calls
  obtain ⟨c, hc, hfrom, hcov, hbuilt⟩ := mrun_inv ord ho d calls
  rw [← mrun_built] at hb
  have hq : (c.onQuery q).passed = true := by
    rw [onQuery_passed]
    intro a ha
    obtain ⟨x, hx, c', hbr, ha'⟩ := hfrom a ha
    exact (onQuery_passed c' q).1 (hall x hx c' hbr) a ha'
  simp [MPipe.optimize, hb, hc, hq, f2, f3, f4]

/-- **C46 is violated** by multi-stage pipelines: `build` merges the checks of the stages into the support check of the pipeline, where
they remain when the stages are replaced. Queries that all current stages support are rejected. -/
theorem C46_multistage_stale_violated :
    ∃ (calls : List (MCall Nat Nat (List Nat))) (q : Nat),
      BuiltSince (MPipe.call id) .build MCall.change (MPipe.new 0) calls ∧
      (∀ s, latest MCall.join? calls = some s ∨ latest MCall.ops? calls = some s ∨ latest MCall.params? calls = some s → s.check = none) ∧
      latest MCall.check? calls = none ∧
      ((MPipe.new 0).run id calls).optimize q = .error .unsupportedQuery := by
  refine ⟨[.setJoin (exStage 1 10 5), .build, .setJoin (exFree 2), .build], 11,
    ⟨[.setJoin (exStage 1 10 5), .build, .setJoin (exFree 2)], [], rfl, by decide +kernel, by simp⟩, ?_, rfl, rfl⟩
  intro s hs
  simp [latest, List.findSome?_cons, MCall.join?, MCall.ops?, MCall.params?] at hs
  subst hs; rfl

/-- **C46 is violated** by multi-stage pipelines: with two different checks every database is supported. -/
theorem C46_multistage_database_violated (ho : Order ord) (d : D) (j o : Stage Qy D Pl) (x y : Atom Qy D)
    (hj : j.check = some (.atom x)) (hy : o.check = some (.atom y)) (hk : x.key ≠ y.key) :
    (((MPipe.new d).run ord [.setJoin j, .setOps o]).call ord .build).2 = none := by
  rw [MPipe.call, (mbuild_spec ord _).2.2.2.2.2.2]
  refine C43_database_violated ord ho _ [] (.atom x) (.atom y) ?_ ?_ x y (by simp [Check.atoms]) (by simp [Check.atoms]) hk _
  · rw [List.append_nil, mem_checks]; exact .inr ⟨j, .inl rfl, hj⟩
  · rw [List.append_nil, mem_checks]; exact .inr ⟨o, .inr (.inl rfl), hy⟩

theorem merge_single (ho : Order ord) (cs : List (Check Qy D)) (k : Nat)
    (h : ∀ c ∈ cs, c = .empty ∨ ∃ a, c = .atom a ∧ a.key = k) : mergeChecks ord cs [] = .empty ∨ ∃ c ∈ cs, mergeChecks ord cs [] = c := by
  have hfrom := merge_from ord ho cs
  rw [mergeChecks] at hfrom ⊢
  split
  · exact .inl rfl
  · rename_i hne
    rw [if_neg hne] at hfrom
    have hnd : ((mergedAtoms ord (cs ++ [])).map Atom.key).Nodup := pySet_distinct _ _
    rcases hm : mergedAtoms ord (cs ++ []) with _ | ⟨x, _ | ⟨y, l⟩⟩
    · exact .inl rfl
    · rw [hm] at hfrom
      obtain ⟨c, hc, hx⟩ := hfrom x (by simp [Check.atoms])
      rcases h c hc with rfl | ⟨a, rfl, _⟩
      · simp [Check.atoms] at hx
      · simp only [Check.atoms, List.mem_singleton] at hx; subst hx
        exact .inr ⟨_, hc, rfl⟩
    · exfalso
      rw [hm] at hfrom hnd
      have key : ∀ z ∈ x :: y :: l, z.key = k := by
        intro z hz
        obtain ⟨c, hc, hx⟩ := hfrom z hz
        rcases h c hc with rfl | ⟨a, rfl, ha⟩
        · simp [Check.atoms] at hx
        · simp only [Check.atoms, List.mem_singleton] at hx; subst hx; exact ha
      simp [key x (by simp), key y (by simp)] at hnd

/-- **C46** (multi-stage pipelines; partial: only one check is ever configured, possibly several times). A built pipeline supports its
target database. -/
theorem C46_multistage_database_partial (ho : Order ord) (d : D) (calls : List (MCall Qy D Pl)) (hf : FaithfulHistory calls) (k : Nat)
    (hk : ∀ x ∈ calls, ∀ c, MCall.Brings x c → c = .empty ∨ ∃ a, c = .atom a ∧ a.key = k)
    (hb : BuiltSince (MPipe.call ord) .build MCall.change (MPipe.new d) calls) :
    ∀ s, latest MCall.join? calls = some s ∨ latest MCall.ops? calls = some s ∨ latest MCall.params? calls = some s →
      SupportsDb s ((latest MCall.db? calls).getD d) := by
  obtain ⟨f1, f2, f3, f4⟩ := mrun_fields ord d calls
  rw [← mrun_built] at hb
  rw [← f1, ← f2, ← f3, ← f4]
  suffices hs : (∀ c, ((MPipe.new d).run ord calls).check = some c → c = .empty ∨ ∃ x ∈ calls, MCall.Brings x c) ∧
      (((MPipe.new d).run ord calls).built = true → ∀ c ∈ ((MPipe.new d).run ord calls).checks, AcceptsDb c ((MPipe.new d).run ord calls).db) by
    intro s hs' c hc
    exact hs.2 hb c ((mem_checks _ c).2 (.inr ⟨s, hs', hc⟩))
  clear hb f1 f2 f3 f4
  induction calls using List.reverseRecOn with
  | nil => exact ⟨by simp [MPipe.run, MPipe.new, eq_comm], by simp [MPipe.run, MPipe.new]⟩
  | append_singleton calls x ih =>
    have hk' : ∀ x ∈ calls, ∀ c, MCall.Brings x c → c = .empty ∨ ∃ a, c = .atom a ∧ a.key = k := fun y hy => hk y (by simp [hy])
    have hf' : FaithfulHistory calls := fun y hy c hc a ha z hz => hf y (by simp [hy]) c hc a ha z (by simp [hz])
    obtain ⟨ih1, ih2⟩ := ih hf' hk'
    have hbr := has_brings ord d calls
    rw [mrun_snoc]
    generalize (MPipe.new d).run ord calls = p at *
    have lift : ∀ c, (c = .empty ∨ ∃ y ∈ calls, MCall.Brings y c) → c = .empty ∨ ∃ y ∈ calls ++ [x], MCall.Brings y c := by
      rintro c (h | ⟨y, hy, h⟩)
      · exact .inl h
      · exact .inr ⟨y, by simp [hy], h⟩
    cases x with
    | build =>
      obtain ⟨g1, g2, g3, g4, g5, g6, g7⟩ := mbuild_spec ord p
      have hcs : ∀ c ∈ p.checks, c = .empty ∨ ∃ y ∈ calls, MCall.Brings y c := by
        intro c hc
        rcases (mem_checks p c).1 hc with h | ⟨s, hs, h⟩
        · exact ih1 c h
        · exact .inr (hbr s hs c h)
      have hshape : ∀ c ∈ p.checks, c = .empty ∨ ∃ a, c = .atom a ∧ a.key = k := by
        intro c hc
        rcases hcs c hc with h | ⟨y, hy, h⟩
        · exact .inl h
        · exact hk' y hy c h
      have hfa : Faithful (p.checks.flatMap Check.atoms) := by
        intro a ha b hb he
        obtain ⟨c, hc, ha⟩ := List.mem_flatMap.1 ha
        obtain ⟨c', hc', hb⟩ := List.mem_flatMap.1 hb
        rcases hcs c hc with rfl | ⟨y, hy, h⟩
        · simp [Check.atoms] at ha
        rcases hcs c' hc' with rfl | ⟨y', hy', h'⟩
        · simp [Check.atoms] at hb
        exact hf' y hy c h a ha y' hy' c' h' b hb he
      have hmerge : AcceptsDb (mergeChecks ord p.checks []) p.db ↔ ∀ c ∈ p.checks, AcceptsDb c p.db := by
        by_cases hne : p.checks = []
        · rw [hne]; simp [mergeChecks, AcceptsDb, Check.onDb, Res.ok]
        · simpa using C43_database_partial ord ho p.checks [] hne (by simpa using hfa) k (by simpa using hshape) p.db
      constructor
      · intro c hc
        rw [MPipe.call, g5, Option.some.injEq] at hc
        subst hc
        rcases merge_single ord ho p.checks k hshape with h | ⟨c, hc, h⟩
        · exact .inl h
        · rw [h]; exact lift c (hcs c hc)
      · intro hb
        rw [MPipe.call] at hb ⊢
        have hall : ∀ c ∈ p.checks, AcceptsDb c p.db := by
          rcases g6.1 hb with h | h
          · exact ih2 h
          · exact hmerge.1 (g7.1 h)
        intro c hc
        rw [g1]
        rcases (mem_checks _ c).1 hc with h | ⟨s, hs, h⟩
        · rw [g5, Option.some.injEq] at h
          subst h
          exact hmerge.2 hall
        · refine hall c ((mem_checks p c).2 (.inr ⟨s, ?_, h⟩))
          simpa only [MPipe.has, g2, g3, g4] using hs
    | setCheck c₁ =>
      refine ⟨fun c hc => ?_, by simp [MPipe.call]⟩
      simp only [MPipe.call, Option.some.injEq] at hc
      subst hc
      exact .inr ⟨.setCheck c₁, by simp, .inl rfl⟩
    | load c₁ j o q =>
      refine ⟨fun c hc => ?_, by simp [MPipe.call]⟩
      cases c₁ with
      | none => exact lift c (ih1 c (by simpa [MPipe.call] using hc))
      | some c₁ =>
        simp only [MPipe.call, Option.some_or, Option.some.injEq] at hc
        subst hc
        exact .inr ⟨.load (some c₁) j o q, by simp, .inl rfl⟩
    | setDb _ => exact ⟨fun c hc => lift c (ih1 c hc), by simp [MPipe.call]⟩
    | setJoin _ => exact ⟨fun c hc => lift c (ih1 c hc), by simp [MPipe.call]⟩
    | setOps _ => exact ⟨fun c hc => lift c (ih1 c hc), by simp [MPipe.call]⟩
    | setParams _ => exact ⟨fun c hc => lift c (ih1 c hc), by simp [MPipe.call]⟩

/-- A history of a multi-stage pipeline. -/
def exHistory : List (MCall Nat Nat (List Nat)) :=
  [.setJoin (exStage 1 10 5), .build, .setOps (exStage 1 10 5), .load none none none (some (exFree 3)), .build]

theorem exHistory_brings (x : MCall Nat Nat (List Nat)) (hx : x ∈ exHistory) (c : Check Nat Nat) (h : MCall.Brings x c) :
    (exStage 1 10 5).check = some c := by
  simp only [exHistory, List.mem_cons, List.not_mem_nil, or_false] at hx
  rcases hx with rfl | rfl | rfl | rfl | rfl <;> simp [MCall.Brings, MCall.check?, MCall.join?, MCall.ops?, MCall.params?, exFree] at h
  · exact h
  · exact h

example : FaithfulHistory exHistory := by
  intro x hx c hc a ha y hy c' hc' b hb _
  have h1 := exHistory_brings x hx c hc
  have h2 := exHistory_brings y hy c' hc'
  rw [h1] at h2; cases h2
  simp only [exStage, Option.some.injEq] at h1
  subst h1
  simp only [Check.atoms, List.mem_singleton] at ha hb
  rw [ha, hb]; exact ⟨rfl, rfl⟩

example : (∀ x ∈ exHistory, ∀ c, MCall.Brings x c → c = .empty ∨ ∃ a, c = .atom a ∧ a.key = 1) ∧
    BuiltSince (MPipe.call id) .build MCall.change (MPipe.new 3) exHistory := by
  constructor
  · intro x hx c h
    have := exHistory_brings x hx c h
    simp only [exStage, Option.some.injEq] at this
    exact .inr ⟨_, this.symm, rfl⟩
  · exact ⟨exHistory.take 4, [], rfl, by decide +kernel, by simp⟩

example : ∃ r, ((MPipe.new 3).run id exHistory).optimize 4 = .ok r := ⟨_, rfl⟩

/-! ### C47: incremental pipelines -/

theorem stageDb_none (d : D) (s : Stage Qy D Pl) : stageDb d s = none ↔ SupportsDb s d := by
  unfold stageDb SupportsDb AcceptsDb
  cases h : s.check with
  | none => simp
  | some c => simp [ensureDb_none]

theorem nrun_snoc (p : NPipe Qy D Pl) (calls : List (NCall Qy D Pl)) (c : NCall Qy D Pl) :
    p.run (calls ++ [c]) = ((p.run calls).call c).1 := by
  simp [NPipe.run]

theorem integrity_none (p : NPipe Qy D Pl) (db : Option D) (gen extra : Option (Stage Qy D Pl)) :
    p.integrity db gen extra = none ↔ (∀ s, gen.or p.gen = some s → SupportsDb s (db.getD p.db)) ∧
      (∀ s, extra = some s → SupportsDb s (db.getD p.db)) ∧ ∀ s ∈ p.steps, SupportsDb s (db.getD p.db) := by
  simp only [NPipe.integrity, List.findSome?_eq_none_iff, List.mem_append, Option.mem_toList, Option.mem_def, ← stageDb_none]
  constructor
  · intro h
    exact ⟨fun s hs => h s (.inl (.inl hs)), fun s hs => h s (.inl (.inr hs)), fun s hs => h s (.inr hs)⟩
  · rintro ⟨h1, h2, h3⟩ s ((h | h) | h)
    · exact h1 s h
    · exact h2 s h
    · exact h3 s h

/-- **C47.** At every point of every configuration history all stages of an incremental pipeline support its target database. -/
theorem C47_integrity (d : D) (calls : List (NCall Qy D Pl)) :
    (∀ s, ((NPipe.new d).run calls).gen = some s → SupportsDb s ((NPipe.new d).run calls).db) ∧
    ∀ s ∈ ((NPipe.new d).run calls).steps, SupportsDb s ((NPipe.new d).run calls).db := by
  induction calls using List.reverseRecOn with
  | nil => simp [NPipe.run, NPipe.new]
  | append_singleton calls x ih =>
    rw [nrun_snoc]
    generalize (NPipe.new d).run calls = p at *
    cases x with
    | setDb d' =>
      cases h : p.integrity (some d') none none with
      | some e => simpa only [NPipe.call, h] using ih
      | none =>
        obtain ⟨h1, -, h3⟩ := (integrity_none _ _ _ _).1 h
        simp only [NPipe.call, h]
        exact ⟨fun s hs => h1 s (by simpa using hs), h3⟩
    | setGen g =>
      cases h : p.integrity none g none with
      | some e => simpa only [NPipe.call, h] using ih
      | none =>
        obtain ⟨h1, -, h3⟩ := (integrity_none _ _ _ _).1 h
        simp only [NPipe.call, h]
        exact ⟨fun s hs => h1 s (by simp [hs]), h3⟩
    | add s =>
      cases h : p.integrity none none (some s) with
      | some e => simpa only [NPipe.call, h] using ih
      | none =>
        obtain ⟨h1, h2, h3⟩ := (integrity_none _ _ _ _).1 h
        simp only [NPipe.call, h]
        refine ⟨fun s hs => h1 s (by simpa using hs), fun s' hs' => ?_⟩
        rcases List.mem_append.1 hs' with h | h
        · exact h3 s' h
        · rw [List.mem_singleton] at h; exact h2 s' (by rw [h])

theorem ensureDb_some (r : Res) (e : Exc) (h : ensureDb r = some e) : e = .unsupportedSystem := by
  unfold ensureDb ensureAllPassed at h
  cases hp : r.passed <;> simp [hp, Exc.ofErr] at h
  exact h.symm

theorem integrity_some (p : NPipe Qy D Pl) (db : Option D) (gen extra : Option (Stage Qy D Pl)) (e : Exc)
    (h : p.integrity db gen extra = some e) : e = .unsupportedSystem := by
  obtain ⟨s, -, h⟩ := List.exists_of_findSome?_eq_some h
  unfold stageDb at h
  obtain ⟨c, -, h⟩ := Option.bind_eq_some_iff.1 h
  exact ensureDb_some _ _ h

/-- **C47.** A call that fails raises `UnsupportedSystemError` and does not change the pipeline. -/
theorem C47_failed_call (p : NPipe Qy D Pl) (c : NCall Qy D Pl) (e : Exc) (h : (p.call c).2 = some e) :
    e = .unsupportedSystem ∧ (p.call c).1 = p := by
  cases c with
  | setDb d =>
    cases hi : p.integrity (some d) none none with
    | none => simp [NPipe.call, hi] at h
    | some e' => simp only [NPipe.call, hi, Option.some.injEq] at h ⊢; exact ⟨h ▸ integrity_some _ _ _ _ _ hi, trivial⟩
  | setGen g =>
    cases hi : p.integrity none g none with
    | none => simp [NPipe.call, hi] at h
    | some e' => simp only [NPipe.call, hi, Option.some.injEq] at h ⊢; exact ⟨h ▸ integrity_some _ _ _ _ _ hi, trivial⟩
  | add s =>
    cases hi : p.integrity none none (some s) with
    | none => simp [NPipe.call, hi] at h
    | some e' => simp only [NPipe.call, hi, Option.some.injEq] at h ⊢; exact ⟨h ▸ integrity_some _ _ _ _ _ hi, trivial⟩

/-- The reachable pipelines. -/
def Reachable (p : NPipe Qy D Pl) : Prop := ∃ d calls, p = (NPipe.new d).run calls

/-- **C47.** The database can be changed iff all stages support the new one. -/
theorem C47_set_database (p : NPipe Qy D Pl) (d : D) :
    ((p.call (.setDb d)).2 = none ↔ (∀ s, p.gen = some s → SupportsDb s d) ∧ ∀ s ∈ p.steps, SupportsDb s d) ∧
    ((p.call (.setDb d)).2 = none → (p.call (.setDb d)).1 = { p with db := d }) := by
  have := integrity_none p (some d) none none
  cases hi : p.integrity (some d) none none with
  | none =>
    obtain ⟨h1, -, h3⟩ := this.1 hi
    simp only [NPipe.call, hi, true_iff, implies_true, and_true]
    exact ⟨fun s hs => h1 s (by simpa using hs), h3⟩
  | some e =>
    simp only [NPipe.call, hi, reduceCtorEq, false_iff, false_implies, and_true]
    rintro ⟨h1, h3⟩
    rw [this.2 ⟨fun s hs => h1 s (by simpa using hs), by simp, h3⟩] at hi
    cases hi

/-- **C47.** An initial plan generator can be set iff it supports the database; it can always be removed. -/
theorem C47_set_generator (p : NPipe Qy D Pl) (hp : Reachable p) (g : Option (Stage Qy D Pl)) :
    ((p.call (.setGen g)).2 = none ↔ ∀ s, g = some s → SupportsDb s p.db) ∧
    ((p.call (.setGen g)).2 = none → (p.call (.setGen g)).1 = { p with gen := g }) := by
  obtain ⟨d₀, calls, rfl⟩ := hp
  obtain ⟨r1, r2⟩ := C47_integrity d₀ calls
  generalize (NPipe.new d₀).run calls = p at *
  have := integrity_none p none g none
  cases hi : p.integrity none g none with
  | none =>
    obtain ⟨h1, -, h3⟩ := this.1 hi
    simp only [NPipe.call, hi, true_iff, implies_true, and_true]
    exact fun s hs => h1 s (by simp [hs])
  | some e =>
    simp only [NPipe.call, hi, reduceCtorEq, false_iff, false_implies, and_true]
    intro h1
    rw [this.2 ⟨fun s hs => ?_, by simp, r2⟩] at hi
    · cases hi
    · cases g with
      | none => exact r1 s (by simpa using hs)
      | some s' => exact h1 s (by simpa using hs)

/-- **C47.** A step can be added iff it supports the database; it becomes the last one. -/
theorem C47_add_step (p : NPipe Qy D Pl) (hp : Reachable p) (s : Stage Qy D Pl) :
    ((p.call (.add s)).2 = none ↔ SupportsDb s p.db) ∧
    ((p.call (.add s)).2 = none → (p.call (.add s)).1 = { p with steps := p.steps ++ [s] }) := by
  obtain ⟨d₀, calls, rfl⟩ := hp
  obtain ⟨r1, r2⟩ := C47_integrity d₀ calls
  generalize (NPipe.new d₀).run calls = p at *
  have := integrity_none p none none (some s)
  cases hi : p.integrity none none (some s) with
  | none =>
    obtain ⟨-, h2, -⟩ := this.1 hi
    simp only [NPipe.call, hi, true_iff, implies_true, and_true]
    exact h2 s rfl
  | some e =>
    simp only [NPipe.call, hi, reduceCtorEq, false_iff, false_implies, and_true]
    intro h1
    rw [this.2 ⟨fun s hs => r1 s (by simpa using hs), fun s' hs' => by cases hs'; exact h1, r2⟩] at hi
    cases hi

/-- Applying steps one after the other. -/
inductive Applied (q : Qy) : Pl → List (Stage Qy D Pl) → Pl → Prop
  | done (pl) : Applied q pl [] pl
  | step (pl pl' s ss) : Applied q (s.improve q pl) ss pl' → Applied q pl (s :: ss) pl'

theorem applied_foldl (q : Qy) (ss : List (Stage Qy D Pl)) : ∀ pl pl', Applied q pl ss pl' ↔ pl' = ss.foldl (fun pl s => s.improve q pl) pl := by
  induction ss with
  | nil => intro pl pl'; constructor
           · intro h; cases h; rfl
           · rintro rfl; exact .done _
  | cons s ss ih =>
    intro pl pl'
    rw [List.foldl_cons, ← ih]
    constructor
    · intro h; cases h; assumption
    · exact .step _ _ _ _

/-- **C47.** The plan of an optimized query stems from the initial plan generator, or the native optimizer if there is none, and the
configured steps, in order. -/
theorem C47_plan (isSet : Qy → Bool) (native : D → Qy → Pl) (p : NPipe Qy D Pl) (q : Qy) (pl : Pl)
    (h : p.optimize isSet native q = .ok pl) :
    ∃ init, (∀ s, p.gen = some s → init = s.plan q) ∧ (p.gen = none → init = native p.db q) ∧ Applied q init p.steps pl := by
  unfold NPipe.optimize at h
  cases hf : (p.gen.toList ++ p.steps).findSome? (stageQuery isSet q) with
  | some e => simp [hf] at h
  | none =>
    simp only [hf, Except.ok.injEq] at h
    refine ⟨_, ?_, ?_, (applied_foldl q p.steps _ pl).2 h.symm⟩
    · intro s hs; simp [hs]
    · intro hs; simp [hs]

/-- **C47** (partial: no set queries). A query is optimized iff all stages support it. -/
theorem C47_query_partial (isSet : Qy → Bool) (native : D → Qy → Pl) (p : NPipe Qy D Pl) (q : Qy) (hq : isSet q = false) :
    (∃ pl, p.optimize isSet native q = .ok pl) ↔ (∀ s, p.gen = some s → SupportsQuery s q) ∧ ∀ s ∈ p.steps, SupportsQuery s q := by
  have hs : ∀ s : Stage Qy D Pl, stageQuery isSet q s = none ↔ SupportsQuery s q := by
    intro s
    unfold stageQuery SupportsQuery AcceptsQuery
    cases h : s.check with
    | none => simp
    | some c => simp [ensureQuery_none isSet _ q hq]
  have : (p.gen.toList ++ p.steps).findSome? (stageQuery isSet q) = none ↔
      (∀ s, p.gen = some s → SupportsQuery s q) ∧ ∀ s ∈ p.steps, SupportsQuery s q := by
    simp only [List.findSome?_eq_none_iff, List.mem_append, Option.mem_toList, Option.mem_def, ← hs]
    exact ⟨fun h => ⟨fun s h' => h s (.inl h'), fun s h' => h s (.inr h')⟩, fun ⟨h1, h2⟩ s h => h.elim (h1 s) (h2 s)⟩
  rw [← this]
  unfold NPipe.optimize
  cases (p.gen.toList ++ p.steps).findSome? (stageQuery isSet q) <;> simp

/-- **C47 is violated** for set queries: they are optimized by all pipelines, whatever the stages support. -/
theorem C47_set_query_violated (isSet : Qy → Bool) (native : D → Qy → Pl) (p : NPipe Qy D Pl) (q : Qy) (hq : isSet q = true) :
    ∃ pl, p.optimize isSet native q = .ok pl := by
  have : (p.gen.toList ++ p.steps).findSome? (stageQuery isSet q) = none := by
    rw [List.findSome?_eq_none_iff]
    intro s _
    unfold stageQuery
    cases h : s.check with
    | none => simp
    | some c => simp [ensureQuery_set isSet _ q hq]
  unfold NPipe.optimize
  simp [this]

/-- Three steps are accepted, one is not, and they are applied in order. -/
example : ((NPipe.new 3).run [.add (exStage 1 10 5), .add (exFree 2), .add (exStage 3 10 2), .setGen (some (exFree 4)), .setDb 7]).optimize
    (fun _ => false) (fun _ _ => []) 6 = .ok [4, 1, 2] := rfl

example : Reachable ((NPipe.new 3).run [.add (exStage 1 10 5), .add (exFree 2)]) := ⟨_, _, rfl⟩

end PB.PipelinesProps
