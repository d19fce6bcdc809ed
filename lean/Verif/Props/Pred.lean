import Verif.Model.Pred
import Verif.Props.Expr

set_option linter.unusedSimpArgs false
set_option linter.unusedVariables false
set_option linter.unusedSectionVars false
set_option linter.unnecessarySimpa false

/-! Properties C31, C32, C33, C84: classification of predicates into filters and joins, join partners, and the meaning
of compound predicates. -/

namespace PB.PredProps
open PB PB.Qal PB.Qal.Expr PB.ExprProps

variable {Q : Type}

/-! ### Specification: SQL's three-valued logic

The truth value of base predicates on a row is given by an arbitrary `I`; `none` is SQL's NULL. -/

/-- Conjunction: false if one part is false, otherwise unknown if one part is unknown. -/
def and3 (l : List (Option Bool)) : Option Bool :=
  if some false ∈ l then some false else if none ∈ l then none else some true

/-- Disjunction: true if one part is true, otherwise unknown if one part is unknown. -/
def or3 (l : List (Option Bool)) : Option Bool :=
  if some true ∈ l then some true else if none ∈ l then none else some false

/-- The truth value of a predicate. -/
def truth (I : Expr Q → Option Bool) : Expr Q → Option Bool
  | .compound .and cs => and3 (cs.map fun c => truth I c)
  | .compound .or cs => or3 (cs.map fun c => truth I c)
  | .compound .not cs => (and3 (cs.map fun c => truth I c)).map not
  | e => I e
termination_by e => sizeOf e

/-- A row is accepted if the predicate is true (neither false nor unknown). -/
def Accepts (I : Expr Q → Option Bool) (e : Expr Q) : Prop := truth I e = some true

/-- The parts of a (nested) conjunction. -/
def conjuncts : Expr Q → List (Expr Q)
  | .compound .and cs => cs.flatMap fun c => conjuncts c
  | e => [e]
termination_by e => sizeOf e

/-- NOT has exactly one part, AND and OR have at least two (enforced by the constructor of `CompoundPredicate`). -/
def builtNode : Expr Q → Bool
  | .compound .not cs => cs.length == 1
  | .compound _ cs => decide (2 ≤ cs.length)
  | _ => true

/-- All AND, OR and NOT nodes are constructible. -/
def Built (e : Expr Q) : Prop := ∀ s, Sub s e → builtNode s = true

theorem Built.sub {s e : Expr Q} (h : Built e) (hs : Sub s e) : Built s := fun t ht => h t (ht.trans hs)

/-! ### Basic facts -/

theorem accepts_and (I : Expr Q → Option Bool) (cs : List (Expr Q)) :
    Accepts I (.compound .and cs) ↔ ∀ c ∈ cs, Accepts I c := by
  simp only [Accepts, truth, and3]
  constructor
  · intro h
    split at h
    · cases h
    · split at h
      · cases h
      · rename_i h1 h2
        intro c hc
        cases ht : truth I c with
        | none => exact absurd (List.mem_map.2 ⟨c, hc, ht⟩) h2
        | some b =>
          cases b with
          | true => rfl
          | false => exact absurd (List.mem_map.2 ⟨c, hc, ht⟩) h1
  · intro h
    rw [if_neg, if_neg]
    · simp only [List.mem_map, not_exists, not_and]; intro c hc; rw [h c hc]; simp
    · simp only [List.mem_map, not_exists, not_and]; intro c hc; rw [h c hc]; simp

theorem accepts_or (I : Expr Q → Option Bool) (cs : List (Expr Q)) :
    Accepts I (.compound .or cs) ↔ ∃ c ∈ cs, Accepts I c := by
  simp only [Accepts, truth, or3]
  constructor
  · intro h
    split at h
    · rename_i h1; obtain ⟨c, hc, ht⟩ := List.mem_map.1 h1; exact ⟨c, hc, ht⟩
    · split at h <;> cases h
  · rintro ⟨c, hc, ht⟩
    rw [if_pos (List.mem_map.2 ⟨c, hc, ht⟩)]

theorem truth_base (I : Expr Q → Option Bool) {e : Expr Q} (h : e.isCompound = false) : truth I e = I e := by
  cases e <;> simp [truth, isCompound] at h ⊢

theorem conjuncts_other {e : Expr Q} (h : ∀ cs, e ≠ .compound .and cs) : conjuncts e = [e] := by
  cases e with
  | compound op cs => cases op <;> simp [conjuncts] at h ⊢
  | _ => simp [conjuncts]

/-- A conjunction accepts a row iff all its conjuncts do. -/
theorem accepts_conjuncts (I : Expr Q → Option Bool) (e : Expr Q) :
    Accepts I e ↔ ∀ p ∈ conjuncts e, Accepts I p := by
  induction e using Expr.ind with
  | h e ih =>
    by_cases he : ∃ cs, e = .compound .and cs
    · obtain ⟨cs, rfl⟩ := he
      simp only [accepts_and, conjuncts, List.mem_flatMap]
      constructor
      · rintro h p ⟨c, hc, hp⟩; exact (ih c hc).1 (h c hc) p hp
      · intro h c hc; exact (ih c hc).2 fun p hp => h p ⟨c, hc, hp⟩
    · rw [conjuncts_other (by simpa using he)]; simp

theorem isJoin_compound (op : CompOp) (cs : List (Expr Q)) : (compound op cs).isJoin = cs.any isJoin := by
  rw [isJoin]
  rw [Bool.eq_iff_iff]
  simp

theorem isFilter_eq (e : Expr Q) : e.isFilter = !e.isJoin := rfl

/-! ### C31: filters and joins -/

theorem collect_other [DecidableEq Q] {e : Expr Q} (h : e.isCompound = false) :
    e.collectFilters = (if e.isFilter then [e] else []) ∧ e.collectJoins = (if e.isJoin then [e] else []) := by
  cases e <;> simp [collectFilters, collectJoins, isCompound] at h ⊢

/-- The filters and joins a single conjunct contributes. -/
theorem mem_collect [DecidableEq Q] (e p : Expr Q) :
    (p ∈ e.collectFilters ↔ ∃ c ∈ conjuncts e, p ∈ c.collectFilters) ∧
    (p ∈ e.collectJoins ↔ ∃ c ∈ conjuncts e, p ∈ c.collectJoins) := by
  induction e using Expr.ind with
  | h e ih =>
    by_cases he : ∃ cs, e = .compound .and cs
    · obtain ⟨cs, rfl⟩ := he
      simp only [collectFilters, collectJoins, conjuncts, List.mem_dedup, List.mem_flatMap]
      constructor
      · constructor
        · rintro ⟨c, hc, hp⟩
          obtain ⟨d, hd, h⟩ := (ih c hc).1.1 hp; exact ⟨d, ⟨c, hc, hd⟩, h⟩
        · rintro ⟨d, ⟨c, hc, hd⟩, h⟩; exact ⟨c, hc, (ih c hc).1.2 ⟨d, hd, h⟩⟩
      · constructor
        · rintro ⟨c, hc, hp⟩
          obtain ⟨d, hd, h⟩ := (ih c hc).2.1 hp; exact ⟨d, ⟨c, hc, hd⟩, h⟩
        · rintro ⟨d, ⟨c, hc, hd⟩, h⟩; exact ⟨c, hc, (ih c hc).2.2 ⟨d, hd, h⟩⟩
    · rw [conjuncts_other (by simpa using he)]; simp

/-- A conjunct is not an AND. -/
theorem conjuncts_not_and (e : Expr Q) : ∀ p ∈ conjuncts e, ∀ cs, p ≠ .compound .and cs := by
  induction e using Expr.ind with
  | h e ih =>
    intro p hp
    by_cases he : ∃ cs, e = .compound .and cs
    · obtain ⟨cs, rfl⟩ := he
      simp only [conjuncts, List.mem_flatMap] at hp
      obtain ⟨c, hc, hp⟩ := hp
      exact ih c hc p hp
    · have he' : ∀ cs, e ≠ .compound .and cs := by simpa using he
      rw [conjuncts_other he'] at hp
      simp at hp; subst hp; exact he'

theorem sub_conjuncts (e : Expr Q) : ∀ p ∈ conjuncts e, Sub p e := by
  induction e using Expr.ind with
  | h e ih =>
    intro p hp
    by_cases he : ∃ cs, e = .compound .and cs
    · obtain ⟨cs, rfl⟩ := he
      simp only [conjuncts, List.mem_flatMap] at hp
      obtain ⟨c, hc, hp⟩ := hp
      exact (ih c hc p hp).trans (.of_mem hc)
    · have he' : ∀ cs, e ≠ .compound .and cs := by simpa using he
      rw [conjuncts_other he'] at hp
      simp at hp; subst hp; exact .refl _

/-- An OR whose alternatives are neither all joins nor all filters. -/
def mixedOr : Expr Q → Bool
  | .compound .or cs => cs.any isJoin && cs.any isFilter
  | _ => false

theorem collect_base [DecidableEq Q] (I : Expr Q → Option Bool) (e : Expr Q) (he : e.isCompound = false) :
    ((∀ p, p ∈ e.collectFilters ∨ p ∈ e.collectJoins → Accepts I p) → Accepts I e) ∧
    (mixedOr e = false → Accepts I e → ∀ p, p ∈ e.collectFilters ∨ p ∈ e.collectJoins → Accepts I p) := by
  rw [(collect_other he).1, (collect_other he).2, isFilter]
  constructor
  · intro h
    by_cases hj : e.isJoin = true
    · exact h _ (.inr (by simp [hj]))
    · exact h _ (.inl (by simp [hj]))
  · intro _ ha p hp
    rcases hp with hp | hp <;> split at hp <;> simp at hp <;> subst hp <;> exact ha

/-- The conjunction of the parts a conjunct contributes to filters and joins, compared with the conjunct. -/
theorem collect_conjunct [DecidableEq Q] (I : Expr Q → Option Bool) (e : Expr Q) (hb : builtNode e = true)
    (hna : ∀ cs, e ≠ .compound .and cs) :
    ((∀ p, p ∈ e.collectFilters ∨ p ∈ e.collectJoins → Accepts I p) → Accepts I e) ∧
    (mixedOr e = false → Accepts I e → ∀ p, p ∈ e.collectFilters ∨ p ∈ e.collectJoins → Accepts I p) := by
  cases e with
  | compound op cs =>
    cases op with
    | and => exact absurd rfl (hna cs)
    | not =>
      simp only [collectFilters, collectJoins]
      by_cases hj : cs.any isJoin = true <;> simp [hj]
    | or =>
      have hlen : 2 ≤ cs.length := by simpa [builtNode] using hb
      have part : ∀ (f : Expr Q → Bool), ∀ p ∈ (if (cs.filter f).length < 2 then cs.filter f else [.compound .or (cs.filter f)]),
          (Accepts I p → ∃ c ∈ cs, Accepts I c) ∧ ((∀ c ∈ cs, f c = true) → (∃ c ∈ cs, Accepts I c) → Accepts I p) := by
        intro f p hp
        split at hp
        · rename_i hl
          constructor
          · intro h; exact ⟨p, (List.mem_filter.1 hp).1, h⟩
          · intro hall
            rw [List.filter_eq_self.2 hall] at hl; omega
        · simp at hp; subst hp
          rw [accepts_or]
          constructor
          · rintro ⟨c, hc, h⟩; exact ⟨c, (List.mem_filter.1 hc).1, h⟩
          · rintro hall ⟨c, hc, h⟩; exact ⟨c, List.mem_filter.2 ⟨hc, hall c hc⟩, h⟩
      simp only [collectFilters, collectJoins]
      constructor
      · intro h
        rw [accepts_or]
        obtain ⟨c, hc⟩ : ∃ c, c ∈ cs := by
          cases cs with
          | nil => simp at hlen
          | cons c _ => exact ⟨c, by simp⟩
        by_cases hcj : c.isJoin = true
        · have hne : ∃ p, p ∈ (if (cs.filter isJoin).length < 2 then cs.filter isJoin else [.compound .or (cs.filter isJoin)]) := by
            split
            · exact ⟨c, List.mem_filter.2 ⟨hc, hcj⟩⟩
            · exact ⟨_, List.mem_singleton.2 rfl⟩
          obtain ⟨p, hp⟩ := hne
          exact (part isJoin p hp).1 (h p (.inr hp))
        · have hne : ∃ p, p ∈ (if (cs.filter isFilter).length < 2 then cs.filter isFilter else [.compound .or (cs.filter isFilter)]) := by
            split
            · exact ⟨c, List.mem_filter.2 ⟨hc, by simp [isFilter, hcj]⟩⟩
            · exact ⟨_, List.mem_singleton.2 rfl⟩
          obtain ⟨p, hp⟩ := hne
          exact (part isFilter p hp).1 (h p (.inl hp))
      · intro hm ha p hp
        rw [accepts_or] at ha
        have hm' : cs.any isJoin = false ∨ cs.any isFilter = false := by
          simp only [mixedOr, Bool.and_eq_false_iff] at hm; exact hm
        have empty : ∀ f : Expr Q → Bool, cs.any f = false → cs.filter f = [] := by
          intro f hf
          rw [List.filter_eq_nil_iff]
          intro c hc; simp at hf; simp [hf c hc]
        rcases hm' with hj | hf
        · rw [empty _ hj] at hp
          rcases hp with hp | hp
          · refine (part isFilter p hp).2 (fun c hc => ?_) ha
            simp at hj; simp [isFilter, hj c hc]
          · simp at hp
        · rw [empty _ hf] at hp
          rcases hp with hp | hp
          · simp at hp
          · refine (part isJoin p hp).2 (fun c hc => ?_) ha
            simp [isFilter] at hf; exact hf c hc
  | _ => exact collect_base I _ rfl

/-- **C31.** A row accepted by all filters and all joins of a query's predicates is accepted by the WHERE predicate. -/
theorem C31_filters_joins_sound [DecidableEq Q] (ops : QOps Q) (qp : QueryPreds Q) (hv : qp.Valid ops) (r : Expr Q)
    (hr : qp.root = some r) (hb : Built r) (I : Expr Q → Option Bool)
    (h : ∀ p, p ∈ qp.filters ∨ p ∈ qp.joins → Accepts I p) : Accepts I r := by
  rw [accepts_conjuncts]
  intro c hc
  refine (collect_conjunct I c (hb c (sub_conjuncts r c hc)) (conjuncts_not_and r c hc)).1 fun p hp => h p ?_
  rcases hp with hp | hp
  · exact .inl ((hv.filters p).2 ⟨r, hr, (mem_collect r p).1.2 ⟨c, hc, hp⟩⟩)
  · exact .inr ((hv.joins p).2 ⟨r, hr, (mem_collect r p).2.2 ⟨c, hc, hp⟩⟩)

/-- **C31 (partial).** If no disjunction at the top level of the WHERE predicate mixes joins and filters, the filters
and joins together accept exactly the rows that the WHERE predicate accepts. Missing: mixed disjunctions, see
`C31_filters_joins_violated`. -/
theorem C31_filters_joins_partial [DecidableEq Q] (ops : QOps Q) (qp : QueryPreds Q) (hv : qp.Valid ops) (r : Expr Q)
    (hr : qp.root = some r) (hb : Built r) (hm : ∀ c ∈ conjuncts r, mixedOr c = false) (I : Expr Q → Option Bool) :
    (∀ p, p ∈ qp.filters ∨ p ∈ qp.joins → Accepts I p) ↔ Accepts I r := by
  refine ⟨C31_filters_joins_sound ops qp hv r hr hb I, fun h p hp => ?_⟩
  rw [accepts_conjuncts] at h
  have : ∃ c ∈ conjuncts r, p ∈ c.collectFilters ∨ p ∈ c.collectJoins := by
    rcases hp with hp | hp
    · obtain ⟨r', hr', hp⟩ := (hv.filters p).1 hp
      rw [hr] at hr'; cases hr'
      obtain ⟨c, hc, hp⟩ := (mem_collect r p).1.1 hp
      exact ⟨c, hc, .inl hp⟩
    · obtain ⟨r', hr', hp⟩ := (hv.joins p).1 hp
      rw [hr] at hr'; cases hr'
      obtain ⟨c, hc, hp⟩ := (mem_collect r p).2.1 hp
      exact ⟨c, hc, .inr hp⟩
  obtain ⟨c, hc, hp⟩ := this
  exact (collect_conjunct I c (hb c (sub_conjuncts r c hc)) (conjuncts_not_and r c hc)).2 (hm c hc) (h c hc) p hp

/-- `t1.x = t2.y`, `t1.z = n`, `t1.x < t2.y` and a sample query predicate. -/
def jXY : Expr Unit := .binary .eq (.col cx) (.col cy)
def fZ (n : Int) : Expr Unit := .binary .eq (.col ⟨some 1, 30⟩) (.static (.num n))
def jLt : Expr Unit := .binary .lt (.col cx) (.col cy)
def root1 : Expr Unit := .compound .and [jXY, .compound .and [fZ 1, .compound .not [fZ 2]], .compound .or [jXY, jLt]]
def qp1 : QueryPreds Unit :=
  ⟨some root1, [fZ 1, .compound .not [fZ 2]], [jXY, .compound .or [jXY, jLt]], [1, 2],
    [({some 1, some 2}, .compound .and [jXY, .compound .or [jXY, jLt]])]⟩

/-- The hypotheses are satisfiable: a valid object for a nested conjunction. -/
theorem qp1_valid : qp1.Valid noOps where
  filters := by
    have h : root1.collectFilters = [fZ 1, .compound .not [fZ 2]] := by decide +kernel
    intro p; simp [qp1, h]
  joins := by
    have h : root1.collectJoins = [jXY, .compound .or [jXY, jLt]] := by decide +kernel
    intro p; simp [qp1, h]
  filtersNodup := by decide +kernel
  joinsNodup := by decide +kernel
  tabs := by
    have h : root1.tables noOps = {1, 2} := by decide +kernel
    intro p; simp [qp1, h]
  map := by decide +kernel

example : qp1.Valid noOps ∧ Built root1 ∧ (∀ c ∈ conjuncts root1, mixedOr c = false) :=
  ⟨qp1_valid, (everywhere_iff _ _).1 (by decide +kernel), by decide +kernel⟩

/-- **C31 is violated.** For `WHERE t1.x = t2.y OR t1.z = 1` (joins and filters mixed in a disjunction) the joins are
`{t1.x = t2.y}` and the filters are `{t1.z = 1}`. A row that satisfies only one of them is accepted by the WHERE
predicate, but not by the filters and joins. -/
theorem C31_filters_joins_violated :
    ∃ qp : QueryPreds Unit, qp.Valid noOps ∧ qp.root = some (.compound .or [jXY, fZ 1]) ∧
      Built (.compound .or [jXY, fZ 1] : Expr Unit) ∧
      ∃ I, Accepts I (.compound .or [jXY, fZ 1]) ∧ ¬ ∀ p, p ∈ qp.filters ∨ p ∈ qp.joins → Accepts I p := by
  refine ⟨⟨some (.compound .or [jXY, fZ 1]), [fZ 1], [jXY], [1, 2], [({some 1, some 2}, jXY)]⟩, ?_, rfl, ?_,
    fun e => some (decide (e = jXY)), ?_, ?_⟩
  · have h1 : (Expr.compound .or [jXY, fZ 1]).collectFilters = [fZ 1] := by decide +kernel
    have h2 : (Expr.compound .or [jXY, fZ 1]).collectJoins = [jXY] := by decide +kernel
    have h3 : (Expr.compound .or [jXY, fZ 1]).tables noOps = {1, 2} := by decide +kernel
    exact ⟨by intro p; simp [h1], by intro p; simp [h2], by simp, by simp, by intro t; simp [h3], by decide +kernel⟩
  · exact (everywhere_iff _ _).1 (by decide +kernel)
  · rw [accepts_or]; exact ⟨jXY, by simp, by rw [Accepts, truth_base _ rfl]; simp⟩
  · intro h
    have := h (fZ 1) (.inl (by simp))
    rw [Accepts, truth_base _ rfl] at this
    revert this; decide +kernel

/-! ### C84: building compound predicates -/

/-- **C84.** `create_and` accepts the rows that all parts accept; it only fails without parts. -/
theorem C84_create_and (ps : List (Expr Q)) :
    (createAnd ps = none ↔ ps = []) ∧
    ∀ p, createAnd ps = some p → ∀ I, Accepts I p ↔ ∀ q ∈ ps, Accepts I q := by
  match ps with
  | [] => simp [createAnd]
  | [p] => simp [createAnd]
  | a :: b :: ps =>
    refine ⟨by simp [createAnd], fun p hp I => ?_⟩
    simp only [createAnd, Option.some.injEq] at hp
    rw [← hp, accepts_and]

/-- **C84.** `create_or` accepts the rows that some part accepts; it only fails without parts. -/
theorem C84_create_or (ps : List (Expr Q)) :
    (createOr ps = none ↔ ps = []) ∧
    ∀ p, createOr ps = some p → ∀ I, Accepts I p ↔ ∃ q ∈ ps, Accepts I q := by
  match ps with
  | [] => simp [createOr]
  | [p] => simp [createOr]
  | a :: b :: ps =>
    refine ⟨by simp [createOr], fun p hp I => ?_⟩
    simp only [createOr, Option.some.injEq] at hp
    rw [← hp, accepts_or]

/-- **C84.** `create` fails exactly for empty conjunctions and disjunctions and for negations of anything but one
predicate; otherwise it has the truth value of the operation, and its AND/OR/NOT node is well-formed. -/
theorem C84_create (op : CompOp) (ps : List (Expr Q)) :
    (create op ps = none ↔ (op = .not ∧ ps.length ≠ 1) ∨ (op ≠ .not ∧ ps = [])) ∧
    ∀ p, create op ps = some p →
      ((∀ q ∈ ps, builtNode q = true) → builtNode p = true) ∧
      ∀ I, truth I p = match op with
        | .and => and3 (ps.map (truth I))
        | .or => or3 (ps.map (truth I))
        | .not => (and3 (ps.map (truth I))).map not := by
  have one : ∀ (x : Option Bool), and3 [x] = x ∧ or3 [x] = x := by
    intro x; cases x with
    | none => simp [and3, or3]
    | some b => cases b <;> simp [and3, or3]
  match op, ps with
  | .not, [] => simp [create]
  | .not, [p] =>
    simp [create, truth, builtNode]
  | .not, _ :: _ :: _ => simp [create]
  | .and, [] => simp [create]
  | .or, [] => simp [create]
  | .and, [p] => simp [create, (one _).1]
  | .or, [p] => simp [create, (one _).2]
  | .and, _ :: _ :: _ => simp [create, truth, builtNode]
  | .or, _ :: _ :: _ => simp [create, truth, builtNode]

/-- **C84.** `QueryPredicates.and_` accepts the rows that both predicates accept; an empty predicate accepts all. -/
theorem C84_and (a b : Option (Expr Q)) (I : Expr Q → Option Bool) :
    (∀ r, QueryPreds.andRoots a b = some r → Accepts I r) ↔
      (∀ p, a = some p → Accepts I p) ∧ (∀ p, b = some p → Accepts I p) := by
  cases a <;> cases b <;> simp [QueryPreds.andRoots, createAnd, accepts_and]

/-- **C84.** The truth value of a predicate is determined by that of its `base_predicates()`. -/
theorem C84_base_predicates (e : Expr Q) (I J : Expr Q → Option Bool) (h : ∀ p ∈ e.basePredicates, I p = J p) :
    truth I e = truth J e := by
  induction e using Expr.ind with
  | h e ih =>
    cases e with
    | compound op cs =>
      have : (cs.map fun c => truth I c) = cs.map fun c => truth J c := by
        apply List.map_congr_left
        intro c hc
        exact ih c hc fun p hp => h p (by simp only [basePredicates, List.mem_flatMap]; exact ⟨c, hc, hp⟩)
      cases op <;> simp only [truth, this]
    | _ => simp only [truth]; exact h _ (by simp [basePredicates])

/-- **C84.** `base_predicates()` are not compound and occur in the predicate. -/
theorem C84_base_predicates_sub (e p : Expr Q) (h : p ∈ e.basePredicates) : p.isCompound = false ∧ Sub p e := by
  induction e using Expr.ind with
  | h e ih =>
    cases e with
    | compound op cs =>
      simp only [basePredicates, List.mem_flatMap] at h
      obtain ⟨c, hc, hp⟩ := h
      obtain ⟨h1, h2⟩ := ih c hc hp
      exact ⟨h1, h2.trans (.of_mem hc)⟩
    | _ => simp [basePredicates] at h; subst h; exact ⟨rfl, .refl _⟩

example : createAnd [jXY, fZ 1] = some (.compound .and [jXY, fZ 1]) ∧
    (root1.basePredicates).length = 5 := ⟨rfl, by decide +kernel⟩

/-! ### C32: filters and joins -/

/-- The column occurs in the expression, outside of subqueries. -/
def HasCol (c : Col) (e : Expr Q) : Prop := Sub (.col c) e

/-- Nothing in the expression that `iterchildren()` skips: no CASE, window functions or FILTER conditions. -/
def Collectable (e : Expr Q) : Prop := ∀ s, Sub s e → collectableNode s = true

theorem Collectable.sub {s e : Expr Q} (h : Collectable e) (hs : Sub s e) : Collectable s :=
  fun t ht => h t (ht.trans hs)

theorem collectBase_sub (e : Expr Q) : ∀ s ∈ e.collectBase, Sub s e := by
  induction e using sizeInd with
  | h e ih =>
    intro s hs
    rw [collectBase_eq] at hs
    split at hs
    · simp at hs; subst hs; exact .refl _
    · obtain ⟨d, hd, h⟩ := List.mem_flatMap.1 hs
      exact (ih d (sizeOf_iterChildren e d hd) s h).trans (sub_iterChildren e d hd)

theorem mem_baseCols_sound (e : Expr Q) (c : Col) (h : c ∈ e.baseCols) : HasCol c e := by
  simp only [baseCols, List.mem_toFinset, List.mem_flatMap] at h
  obtain ⟨s, hs, hc⟩ := h
  cases s <;> simp [colOf] at hc
  subst hc; exact collectBase_sub e _ hs

theorem collectBase_complete (e s : Expr Q) (hc : Collectable e) (hs : Sub s e) (hb : s.isBaseExpr = true) :
    s ∈ e.collectBase := by
  induction hs with
  | refl => rw [collectBase_eq]; simp [hb]
  | @step c' e' hm h ih =>
    have he : e'.isBaseExpr = false := by
      cases e' <;> simp [subs] at hm ⊢ <;> rfl
    rw [collectBase_eq, if_neg (by simp [he]), children_collectable e' (hc _ (.refl _))]
    exact List.mem_flatMap.2 ⟨c', hm, ih (hc.sub (.of_mem hm))⟩

theorem mem_baseCols (e : Expr Q) (hc : Collectable e) (c : Col) : c ∈ e.baseCols ↔ HasCol c e := by
  refine ⟨mem_baseCols_sound e c, fun h => ?_⟩
  simp only [baseCols, List.mem_toFinset, List.mem_flatMap]
  exact ⟨.col c, collectBase_complete e _ hc h rfl, by simp [colOf]⟩

theorem mem_baseTabs (e : Expr Q) (t : Tab) : t ∈ e.baseTabs ↔ ∃ c ∈ e.baseCols, c.tab = some t := by
  simp only [baseTabs, Finset.mem_biUnion]
  constructor
  · rintro ⟨c, hc, ht⟩
    refine ⟨c, hc, ?_⟩
    cases h : c.tab <;> simp [h, tabSet] at ht
    rw [ht]
  · rintro ⟨c, hc, ht⟩
    exact ⟨c, hc, by simp [ht, tabSet]⟩

/-- Columns of two different tables occur. -/
def TwoTables (e : Expr Q) : Prop :=
  ∃ c d s t, HasCol c e ∧ HasCol d e ∧ c.tab = some s ∧ d.tab = some t ∧ s ≠ t

theorem hasCol_subs {e : Expr Q} (he : ∀ c, e ≠ .col c) (c : Col) : HasCol c e ↔ ∃ s ∈ e.subs, HasCol c s := by
  constructor
  · intro h
    cases h with
    | refl => exact absurd rfl (he c)
    | step hm h => exact ⟨_, hm, h⟩
  · rintro ⟨s, hs, h⟩; exact .step hs h

theorem hasCol_binary (c : Col) (op : LogOp) (a b : Expr Q) : HasCol c (binary op a b) ↔ HasCol c a ∨ HasCol c b := by
  rw [hasCol_subs (e := binary op a b) (by simp)]; simp [subs]

theorem hasCol_between (c : Col) (e l u : Expr Q) :
    HasCol c (between e l u) ↔ HasCol c e ∨ HasCol c l ∨ HasCol c u := by
  rw [hasCol_subs (e := between e l u) (by simp)]; simp [subs]

theorem hasCol_inP (c : Col) (e : Expr Q) (vs : List (Expr Q)) :
    HasCol c (inP e vs) ↔ HasCol c e ∨ ∃ v ∈ vs, HasCol c v := by
  rw [hasCol_subs (e := inP e vs) (by simp)]; simp [subs]

/-- The tables of all parts together. -/
theorem twoTables_iff {e : Expr Q} (he : ∀ c, e ≠ .col c) (hc : Collectable e) (U : Finset Tab)
    (hU : ∀ t, t ∈ U ↔ ∃ s ∈ e.subs, t ∈ s.baseTabs) : TwoTables e ↔ 1 < U.card := by
  rw [Finset.one_lt_card]
  have key : ∀ t, t ∈ U ↔ ∃ c, HasCol c e ∧ c.tab = some t := by
    intro t
    rw [hU]
    constructor
    · rintro ⟨s, hs, ht⟩
      obtain ⟨c, h1, h2⟩ := (mem_baseTabs s t).1 ht
      exact ⟨c, .step hs (mem_baseCols_sound s c h1), h2⟩
    · rintro ⟨c, h1, h2⟩
      obtain ⟨s, hs, h⟩ := (hasCol_subs he c).1 h1
      exact ⟨s, hs, (mem_baseTabs s t).2 ⟨c, (mem_baseCols s (hc.sub (.of_mem hs)) c).2 h, h2⟩⟩
  constructor
  · rintro ⟨c, d, s, t, h1, h2, h3, h4, h5⟩
    exact ⟨s, (key s).2 ⟨c, h1, h3⟩, t, (key t).2 ⟨d, h2, h4⟩, h5⟩
  · rintro ⟨s, hs, t, ht, hne⟩
    obtain ⟨c, h1, h3⟩ := (key s).1 hs
    obtain ⟨d, h2, h4⟩ := (key t).1 ht
    exact ⟨c, d, s, t, h1, h2, h3, h4, hne⟩

theorem binary_isJoin_card (op : LogOp) (a b : Expr Q) :
    (binary op a b).isJoin = true ↔ 1 < (a.baseTabs ∪ b.baseTabs).card := by
  rw [isJoin]
  simp only [Bool.or_eq_true, Bool.and_eq_true, decide_eq_true_eq]
  generalize a.baseTabs = A
  generalize b.baseTabs = B
  have hA : A.card ≤ (A ∪ B).card := Finset.card_le_card Finset.subset_union_left
  have hB : B.card ≤ (A ∪ B).card := Finset.card_le_card Finset.subset_union_right
  constructor
  · rintro ((h | h) | ⟨⟨⟨x, hx⟩, ⟨y, hy⟩⟩, h⟩)
    · omega
    · omega
    · obtain ⟨z, hz⟩ := Finset.card_pos.1 h
      rw [Finset.one_lt_card]
      rcases Finset.mem_union.1 hz with hz | hz
      · rw [Finset.mem_sdiff] at hz
        exact ⟨z, Finset.mem_union_left _ hz.1, y, Finset.mem_union_right _ hy, fun e => hz.2 (e ▸ hy)⟩
      · rw [Finset.mem_sdiff] at hz
        exact ⟨z, Finset.mem_union_right _ hz.1, x, Finset.mem_union_left _ hx, fun e => hz.2 (e ▸ hx)⟩
  · intro h
    by_cases h1 : 1 < A.card
    · exact .inl (.inl h1)
    by_cases h2 : 1 < B.card
    · exact .inl (.inr h2)
    right
    have hu := Finset.card_union_le A B
    have hAc : A.card = 1 := by omega
    have hBc : B.card = 1 := by omega
    obtain ⟨x, rfl⟩ := Finset.card_eq_one.1 hAc
    obtain ⟨y, rfl⟩ := Finset.card_eq_one.1 hBc
    refine ⟨⟨by simp, by simp⟩, ?_⟩
    have : x ≠ y := by rintro rfl; simp at h
    rw [Finset.card_pos]
    exact ⟨x, by simp [this]⟩

/-- **C32.** A comparison is a join iff columns of at least two different tables occur in it. -/
theorem C32_binary_is_join (op : LogOp) (a b : Expr Q) (hc : Collectable (binary op a b)) :
    (binary op a b).isJoin = true ↔ TwoTables (binary op a b) := by
  rw [binary_isJoin_card, twoTables_iff (by simp) hc]
  intro t; simp [subs]

/-- **C32.** A unary predicate is a join iff columns of at least two different tables occur in it. -/
theorem C32_unary_is_join (e : Expr Q) (op : Option LogOp) (hc : Collectable (unary e op)) :
    (unary e op).isJoin = true ↔ TwoTables (unary e op) := by
  rw [isJoin, decide_eq_true_eq, twoTables_iff (by simp) hc]
  intro t; simp [subs]

theorem one_lt_union {A B C : Finset Tab} (hA : A.Nonempty) :
    1 < (A ∪ B ∪ C).card ↔ 1 < (A ∪ B).card ∨ 1 < (A ∪ C).card := by
  simp only [Finset.one_lt_card]
  obtain ⟨x, hx⟩ := hA
  constructor
  · rintro ⟨s, hs, t, ht, hne⟩
    have : ∃ y ∈ A ∪ B ∪ C, y ≠ x := by
      by_cases h : s = x
      · exact ⟨t, ht, fun e => hne (h.trans e.symm)⟩
      · exact ⟨s, hs, h⟩
    obtain ⟨y, hy, hyx⟩ := this
    simp only [Finset.mem_union] at hy ⊢
    rcases hy with (hy | hy) | hy
    · exact .inl ⟨y, .inl hy, x, .inl hx, hyx⟩
    · exact .inl ⟨y, .inr hy, x, .inl hx, hyx⟩
    · exact .inr ⟨y, .inr hy, x, .inl hx, hyx⟩
  · rintro (⟨s, hs, t, ht, hne⟩ | ⟨s, hs, t, ht, hne⟩)
    · exact ⟨s, Finset.mem_union_left _ hs, t, Finset.mem_union_left _ ht, hne⟩
    · simp only [Finset.mem_union] at hs ht ⊢
      exact ⟨s, by tauto, t, by tauto, hne⟩

/-- The expression contains a column of some table. -/
def HasTable (e : Expr Q) : Prop := ∃ c t, HasCol c e ∧ c.tab = some t

theorem hasTable_iff (e : Expr Q) (hc : Collectable e) : HasTable e ↔ e.baseTabs.Nonempty := by
  constructor
  · rintro ⟨c, t, h1, h2⟩; exact ⟨t, (mem_baseTabs e t).2 ⟨c, (mem_baseCols e hc c).2 h1, h2⟩⟩
  · rintro ⟨t, ht⟩
    obtain ⟨c, h1, h2⟩ := (mem_baseTabs e t).1 ht
    exact ⟨c, t, mem_baseCols_sound e c h1, h2⟩

/-- **C32 (partial).** A BETWEEN predicate whose tested expression contains a column of a table is a join iff columns
of at least two different tables occur in it. Missing: tested expressions without columns, see `C32_violated`. -/
theorem C32_between_is_join_partial (e l u : Expr Q) (hc : Collectable (between e l u)) (he : HasTable e) :
    (between e l u).isJoin = true ↔ TwoTables (between e l u) := by
  have hne := (hasTable_iff e (hc.sub (.of_mem (by simp [subs])))).1 he
  rw [twoTables_iff (by simp) hc (e.baseTabs ∪ l.baseTabs ∪ u.baseTabs) (by intro t; simp [subs, or_assoc]), one_lt_union hne, isJoin]
  simp only [Bool.or_eq_true, decide_eq_true_eq]
  have : e.baseTabs.card ≤ (e.baseTabs ∪ l.baseTabs).card := Finset.card_le_card Finset.subset_union_left
  constructor
  · rintro ((h | h) | h)
    · left; omega
    · exact .inl h
    · exact .inr h
  · rintro (h | h)
    · exact .inl (.inr h)
    · exact .inr h

/-- **C32 (partial).** The same for IN predicates. -/
theorem C32_in_is_join_partial (e : Expr Q) (vs : List (Expr Q)) (hc : Collectable (inP e vs)) (he : HasTable e) :
    (inP e vs).isJoin = true ↔ TwoTables (inP e vs) := by
  obtain ⟨x, hx⟩ := (hasTable_iff e (hc.sub (.of_mem (by simp [subs])))).1 he
  rw [twoTables_iff (by simp) hc (e.baseTabs ∪ unionAll (vs.map baseTabs)) (by intro t; simp [subs, mem_unionAll]), isJoin]
  simp only [Bool.or_eq_true, decide_eq_true_eq, List.any_eq_true, Finset.one_lt_card]
  constructor
  · rintro (⟨s, hs, t, ht, hne⟩ | ⟨v, hv, s, hs, t, ht, hne⟩)
    · exact ⟨s, Finset.mem_union_left _ hs, t, Finset.mem_union_left _ ht, hne⟩
    · have sub : ∀ z, z ∈ e.baseTabs ∪ v.baseTabs → z ∈ e.baseTabs ∪ unionAll (vs.map baseTabs) := by
        intro z hz
        rcases Finset.mem_union.1 hz with h | h
        · exact Finset.mem_union_left _ h
        · exact Finset.mem_union_right _ ((mem_unionAll _ _).2 ⟨_, List.mem_map.2 ⟨v, hv, rfl⟩, h⟩)
      exact ⟨s, sub s hs, t, sub t ht, hne⟩
  · rintro ⟨s, hs, t, ht, hne⟩
    have : ∃ y ∈ e.baseTabs ∪ unionAll (vs.map baseTabs), y ≠ x := by
      by_cases h : s = x
      · exact ⟨t, ht, fun e => hne (h.trans e.symm)⟩
      · exact ⟨s, hs, h⟩
    obtain ⟨y, hy, hyx⟩ := this
    rcases Finset.mem_union.1 hy with hy | hy
    · exact .inl ⟨y, hy, x, hx, hyx⟩
    · obtain ⟨_, hm, hy⟩ := (mem_unionAll _ _).1 hy
      obtain ⟨v, hv, rfl⟩ := List.mem_map.1 hm
      exact .inr ⟨v, hv, y, Finset.mem_union_right _ hy, x, Finset.mem_union_left _ hx, hyx⟩

/-- **C32.** A compound predicate is a join iff one of its base predicates is one. -/
theorem C32_compound_is_join (e : Expr Q) : e.isJoin = true ↔ ∃ p ∈ e.basePredicates, p.isJoin = true := by
  induction e using Expr.ind with
  | h e ih =>
    cases e with
    | compound op cs =>
      rw [isJoin_compound, List.any_eq_true]
      simp only [basePredicates, List.mem_flatMap]
      constructor
      · rintro ⟨c, hc, h⟩
        obtain ⟨p, hp, hj⟩ := (ih c hc).1 h
        exact ⟨p, ⟨c, hc, hp⟩, hj⟩
      · rintro ⟨p, ⟨c, hc, hp⟩, hj⟩
        exact ⟨c, hc, (ih c hc).2 ⟨p, hp, hj⟩⟩
    | _ => simp [basePredicates]

/-- **C32.** Every predicate is exactly one of join and filter, and the filters and joins of a query are classified
accordingly. -/
theorem C32_exclusive [DecidableEq Q] (ops : QOps Q) (qp : QueryPreds Q) (hv : qp.Valid ops) :
    (∀ p ∈ qp.filters, p.isJoin = false) ∧ (∀ p ∈ qp.joins, p.isJoin = true) := by
  have key : ∀ e : Expr Q, (∀ p ∈ e.collectFilters, p.isJoin = false) ∧ (∀ p ∈ e.collectJoins, p.isJoin = true) := by
    intro e
    induction e using Expr.ind with
    | h e ih =>
      cases e with
      | compound op cs =>
        cases op with
        | and =>
          simp only [collectFilters, collectJoins, List.mem_dedup, List.mem_flatMap]
          exact ⟨fun p ⟨c, hc, hp⟩ => (ih c hc).1 p hp, fun p ⟨c, hc, hp⟩ => (ih c hc).2 p hp⟩
        | not =>
          simp only [collectFilters, collectJoins]
          by_cases h : cs.any isJoin = true
          · simp only [h, if_true]
            refine ⟨by simp, ?_⟩
            intro p hp; simp only [List.mem_singleton] at hp; subst hp; rw [isJoin_compound]; exact h
          · simp only [h, if_false]
            refine ⟨?_, by simp⟩
            intro p hp; simp only [Bool.false_eq_true, if_false, List.mem_singleton] at hp; subst hp; rw [isJoin_compound]; simpa using h
        | or =>
          simp only [collectFilters, collectJoins]
          constructor
          · intro p hp
            split at hp
            · simpa [isFilter] using (List.mem_filter.1 hp).2
            · simp only [List.mem_singleton] at hp; subst hp
              rw [isJoin_compound, List.any_eq_false]
              intro c hc; simpa [isFilter] using (List.mem_filter.1 hc).2
          · intro p hp
            split at hp
            · simpa using (List.mem_filter.1 hp).2
            · simp only [List.mem_singleton] at hp; subst hp
              rename_i hl
              rw [isJoin_compound, List.any_eq_true]
              obtain ⟨c, hc⟩ : ∃ c, c ∈ cs.filter isJoin := by
                cases h : cs.filter isJoin with
                | nil => simp [h] at hl
                | cons c _ => exact ⟨c, by simp⟩
              exact ⟨c, hc, (List.mem_filter.1 hc).2⟩
      | _ =>
        rw [(collect_other rfl).1, (collect_other rfl).2]
        constructor
        · intro p hp
          split at hp
          · rename_i h; simp at hp; subst hp; simpa [isFilter] using h
          · simp at hp
        · intro p hp
          split at hp
          · rename_i h; simp at hp; subst hp; exact h
          · simp at hp
  constructor
  · intro p hp
    obtain ⟨r, _, h⟩ := (hv.filters p).1 hp; exact (key r).1 p h
  · intro p hp
    obtain ⟨r, _, h⟩ := (hv.joins p).1 hp; exact (key r).2 p h

theorem lt_total {c d : Col} (h : c.tab ≠ d.tab) : (d.lt c = true) ↔ ¬ (c.lt d = true) := by
  have h' : ¬ d.tab = c.tab := fun e => h e.symm
  simp only [Col.lt, h, h', if_false]
  cases hc : c.tab with
  | none => cases hd : d.tab with
    | none => exact absurd (hc.trans hd.symm) h
    | some t => simp
  | some s => cases hd : d.tab with
    | none => simp
    | some t =>
      have hne : s ≠ t := fun e => h (by rw [hc, hd, e])
      simp only [decide_eq_true_eq]
      constructor
      · intro h; exact Nat.lt_asymm h
      · intro h; exact Nat.lt_of_le_of_ne (Nat.le_of_not_lt h) (Ne.symm hne)

theorem mem_generate (A B : Finset Col) (c d : Col) :
    (c, d) ∈ generateJoinPairs A B ↔
      c.tab ≠ d.tab ∧ c.lt d = true ∧ ((c ∈ A ∧ d ∈ B) ∨ (d ∈ A ∧ c ∈ B)) := by
  simp only [generateJoinPairs, Finset.mem_image, Finset.mem_filter, Finset.mem_product, Prod.exists, normalizePair]
  constructor
  · rintro ⟨x, y, ⟨⟨hx, hy⟩, hne⟩, h⟩
    split at h
    · rename_i hlt; cases h; exact ⟨Ne.symm hne, hlt, .inr ⟨hx, hy⟩⟩
    · rename_i hlt; cases h
      refine ⟨hne, ?_, .inl ⟨hx, hy⟩⟩
      by_contra hcon
      exact hlt ((lt_total hne).2 hcon)
  · rintro ⟨hne, hlt, ⟨h1, h2⟩ | ⟨h1, h2⟩⟩
    · refine ⟨c, d, ⟨⟨h1, h2⟩, hne⟩, ?_⟩
      rw [if_neg]; intro h; exact (lt_total hne).1 h hlt
    · exact ⟨d, c, ⟨⟨h1, h2⟩, Ne.symm hne⟩, by simp [hlt]⟩

/-- **C32.** The join partners of a comparison that is a join are exactly the (ordered) pairs of columns of different
tables that occur in it. -/
theorem C32_binary_partners (op : LogOp) (a b : Expr Q) (hc : Collectable (binary op a b))
    (hj : (binary op a b).isJoin = true) :
    ∃ ps, (binary op a b).joinPartners = some ps ∧
      ∀ c d, (c, d) ∈ ps ↔ c.tab ≠ d.tab ∧ c.lt d = true ∧ HasCol c (binary op a b) ∧ HasCol d (binary op a b) := by
  refine ⟨_, by rw [joinPartners, if_pos hj], fun c d => ?_⟩
  have ha := mem_baseCols a (hc.sub (.of_mem (by simp [subs])))
  have hb := mem_baseCols b (hc.sub (.of_mem (by simp [subs])))
  simp only [Finset.mem_union, mem_generate, ha, hb, hasCol_binary]
  tauto

/-- **C32 (partial).** The join partners of a BETWEEN join are exactly the pairs of columns of different tables of
which one occurs in the tested expression. (Pairs of a lower and an upper bound are not reported.) -/
theorem C32_between_partners_partial (e l u : Expr Q) (hc : Collectable (between e l u))
    (hj : (between e l u).isJoin = true) :
    ∃ ps, (between e l u).joinPartners = some ps ∧
      ∀ c d, (c, d) ∈ ps ↔ c.tab ≠ d.tab ∧ c.lt d = true ∧ HasCol c (between e l u) ∧ HasCol d (between e l u) ∧
        (HasCol c e ∨ HasCol d e) := by
  refine ⟨_, by rw [joinPartners, if_pos hj], fun c d => ?_⟩
  have he := mem_baseCols e (hc.sub (.of_mem (by simp [subs])))
  have hl := mem_baseCols l (hc.sub (.of_mem (by simp [subs])))
  have hu := mem_baseCols u (hc.sub (.of_mem (by simp [subs])))
  simp only [Finset.mem_union, mem_generate, he, hl, hu, hasCol_between]
  generalize (c.tab ≠ d.tab) = p1
  generalize (c.lt d = true) = p2
  generalize HasCol c e = p3
  generalize HasCol d e = p4
  generalize HasCol c l = p5
  generalize HasCol d l = p6
  generalize HasCol c u = p7
  generalize HasCol d u = p8
  clear he hl hu hj hc
  constructor
  · rintro ((⟨h1, h2, h⟩ | ⟨h1, h2, h⟩) | ⟨h1, h2, h⟩) <;> rcases h with ⟨h3, h4⟩ | ⟨h3, h4⟩ <;> simp [h1, h2, h3, h4]
  · rintro ⟨h1, h2, h3, h4, h5⟩
    rcases h5 with h5 | h5
    · rcases h4 with h4 | h4 | h4 <;> simp [h1, h2, h4, h5]
    · rcases h3 with h3 | h3 | h3 <;> simp [h1, h2, h3, h5]

/-- **C32 (partial).** The join partners of an IN join are exactly the pairs of columns of different tables of
which one occurs in the tested expression. (Pairs of two listed values are not reported.) -/
theorem C32_in_partners_partial (e : Expr Q) (vs : List (Expr Q)) (hc : Collectable (inP e vs))
    (hj : (inP e vs).isJoin = true) :
    ∃ ps, (inP e vs).joinPartners = some ps ∧
      ∀ c d, (c, d) ∈ ps ↔ c.tab ≠ d.tab ∧ c.lt d = true ∧ HasCol c (inP e vs) ∧ HasCol d (inP e vs) ∧
        (HasCol c e ∨ HasCol d e) := by
  refine ⟨_, by rw [joinPartners, if_pos hj], fun c d => ?_⟩
  have he := mem_baseCols e (hc.sub (.of_mem (by simp [subs])))
  have hv : ∀ v ∈ vs, ∀ c, c ∈ v.baseCols ↔ HasCol c v :=
    fun v hv => mem_baseCols v (hc.sub (.of_mem (by simp [subs, hv])))
  simp only [Finset.mem_union, mem_unionAll, List.mem_map, exists_exists_and_eq_and, mem_generate, he, hasCol_inP]
  constructor
  · rintro (⟨h1, h2, h3⟩ | ⟨v, hm, h1, h2, h3⟩)
    · tauto
    · rw [hv v hm, hv v hm] at h3
      rcases h3 with ⟨h3, h4⟩ | ⟨h3, h4⟩
      · exact ⟨h1, h2, .inl h3, .inr ⟨v, hm, h4⟩, .inl h3⟩
      · exact ⟨h1, h2, .inr ⟨v, hm, h4⟩, .inl h3, .inr h3⟩
  · rintro ⟨h1, h2, h3, h4, h5⟩
    rcases h5 with h5 | h5
    · rcases h4 with h4 | ⟨v, hm, h4⟩
      · exact .inl ⟨h1, h2, .inl ⟨h5, h4⟩⟩
      · exact .inr ⟨v, hm, h1, h2, .inl ⟨h5, (hv v hm d).2 h4⟩⟩
    · rcases h3 with h3 | ⟨v, hm, h3⟩
      · exact .inl ⟨h1, h2, .inl ⟨h3, h5⟩⟩
      · exact .inr ⟨v, hm, h1, h2, .inr ⟨h5, (hv v hm c).2 h3⟩⟩

/-- Satisfiability: the joins of the sample query, and `t1.x BETWEEN t2.y AND 5`. -/
example : Collectable jXY ∧ jXY.isJoin = true ∧ Collectable (between (.col cx) (.col cy) (.static (.num 5)) : Expr Unit) ∧
    (between (.col cx) (.col cy) (.static (.num 5)) : Expr Unit).isJoin = true ∧ HasTable (.col cx : Expr Unit) ∧
    jXY.joinPartners = some {(cx, cy)} :=
  ⟨(everywhere_iff _ _).1 (by decide +kernel), by decide +kernel, (everywhere_iff _ _).1 (by decide +kernel),
    by decide +kernel, ⟨cx, 1, .refl _, rfl⟩, by decide +kernel⟩

/-- **C32 is violated.** `5 BETWEEN t1.x AND t2.y` and `5 IN (t1.x, t2.y)` contain columns of two tables but are not
joins; `5 BETWEEN t1.x + t2.y AND 7` is a join without join partners. -/
theorem C32_violated :
    (TwoTables (between (.static (.num 5)) (.col cx) (.col cy) : Expr Unit) ∧
      (between (.static (.num 5)) (.col cx) (.col cy) : Expr Unit).isJoin = false) ∧
    (TwoTables (inP (.static (.num 5)) [.col cx, .col cy] : Expr Unit) ∧
      (inP (.static (.num 5)) [.col cx, .col cy] : Expr Unit).isJoin = false) ∧
    ((between (.static (.num 5)) (.math .add (.col cx) [.col cy]) (.static (.num 7)) : Expr Unit).isJoin = true ∧
      (between (.static (.num 5)) (.math .add (.col cx) [.col cy]) (.static (.num 7)) : Expr Unit).joinPartners = some ∅) := by
  refine ⟨⟨⟨cx, cy, 1, 2, .of_mem (by simp [subs]), .of_mem (by simp [subs]), rfl, rfl, by decide⟩, by decide +kernel⟩,
    ⟨⟨cx, cy, 1, 2, .of_mem (by simp [subs]), .of_mem (by simp [subs]), rfl, rfl, by decide⟩, by decide +kernel⟩,
    by decide +kernel, by decide +kernel⟩

/-! ### C33: join_partners of compound predicates -/

theorem optUnion_eq_some {α : Type} [DecidableEq α] (l : List (Option (Finset α))) :
    (∀ r, optUnion l = some r → (∀ o ∈ l, o.isSome) ∧ ∀ x, x ∈ r ↔ ∃ s, some s ∈ l ∧ x ∈ s) ∧
    ((∀ o ∈ l, o.isSome) → ∃ r, optUnion l = some r) := by
  induction l with
  | nil =>
    refine ⟨?_, fun _ => ⟨∅, rfl⟩⟩
    intro r hr; simp [optUnion] at hr; subst hr; simp
  | cons o l ih =>
    cases o with
    | none =>
      refine ⟨by intro r hr; simp [optUnion] at hr, ?_⟩
      intro h; have := h none (by simp); simp at this
    | some s =>
      constructor
      · intro r hr
        simp only [optUnion, Option.bind_some, Option.map_eq_some_iff] at hr
        obtain ⟨r', hr', rfl⟩ := hr
        obtain ⟨h1, h2⟩ := ih.1 r' hr'
        refine ⟨by simpa using h1, fun x => ?_⟩
        simp only [Finset.mem_union, h2, List.mem_cons, Option.some.injEq]
        constructor
        · rintro (h | ⟨s', h, hx⟩)
          · exact ⟨s, .inl rfl, h⟩
          · exact ⟨s', .inr h, hx⟩
        · rintro ⟨s', rfl | h, hx⟩
          · exact .inl hx
          · exact .inr ⟨s', h, hx⟩
      · intro h
        obtain ⟨r, hr⟩ := ih.2 fun o ho => h o (by simp [ho])
        exact ⟨s ∪ r, by simp [optUnion, hr]⟩

/-- **C33 (partial).** If every base predicate below is a join, `join_partners()` returns, and returns exactly the
partners of the base predicates. Missing: predicates that mix joins and filters, see `C33_violated`. -/
theorem C33_join_partners_partial (e : Expr Q) (h : ∀ p ∈ e.basePredicates, p.isJoin = true) :
    ∃ ps, e.joinPartners = some ps ∧
      ∀ x, x ∈ ps ↔ ∃ p ∈ e.basePredicates, ∃ qs, p.joinPartners = some qs ∧ x ∈ qs := by
  induction e using Expr.ind with
  | h e ih =>
    cases e with
    | compound op cs =>
      simp only [basePredicates, List.mem_flatMap] at h ⊢
      have ih' := fun c hc => ih c hc fun p hp => h p ⟨c, hc, hp⟩
      obtain ⟨r, hr⟩ := (optUnion_eq_some (cs.map fun c => c.joinPartners)).2 (by
        intro o ho
        obtain ⟨c, hc, rfl⟩ := List.mem_map.1 ho
        obtain ⟨ps, hp, _⟩ := ih' c hc
        rw [hp]; rfl)
      refine ⟨r, by rw [joinPartners]; exact hr, fun x => ?_⟩
      rw [((optUnion_eq_some _).1 r hr).2]
      constructor
      · rintro ⟨s, hs, hx⟩
        obtain ⟨c, hc, hs⟩ := List.mem_map.1 hs
        obtain ⟨ps, hp, hps⟩ := ih' c hc
        rw [hp] at hs; cases hs
        obtain ⟨p, hp, h⟩ := (hps x).1 hx
        exact ⟨p, ⟨c, hc, hp⟩, h⟩
      · rintro ⟨p, ⟨c, hc, hp⟩, h⟩
        obtain ⟨ps, hps, hx⟩ := ih' c hc
        exact ⟨ps, List.mem_map.2 ⟨c, hc, hps⟩, (hx x).2 ⟨p, hp, h⟩⟩
    | binary op a b =>
      have := h (binary op a b) (by simp [basePredicates])
      refine ⟨_, by rw [joinPartners, if_pos this], ?_⟩
      simp [basePredicates, joinPartners, this]
    | between a l u =>
      have := h (between a l u) (by simp [basePredicates])
      refine ⟨_, by rw [joinPartners, if_pos this], ?_⟩
      simp [basePredicates, joinPartners, this]
    | inP a vs =>
      have := h (inP a vs) (by simp [basePredicates])
      refine ⟨_, by rw [joinPartners, if_pos this], ?_⟩
      simp [basePredicates, joinPartners, this]
    | unary a op => refine ⟨_, by rw [joinPartners], ?_⟩; simp [basePredicates, joinPartners]
    | _ => refine ⟨∅, by simp [joinPartners], ?_⟩; simp [basePredicates, joinPartners]

example : ∀ p ∈ (Expr.compound .or [jXY, jLt]).basePredicates, p.isJoin = true := by decide +kernel

/-- **C33.** Whenever `join_partners()` returns, it contains the partners of every join among the base predicates. -/
theorem C33_contains (e : Expr Q) (ps : Finset (Col × Col)) (h : e.joinPartners = some ps) :
    ∀ p ∈ e.basePredicates, ∃ qs, p.joinPartners = some qs ∧ qs ⊆ ps := by
  induction e using Expr.ind generalizing ps with
  | h e ih =>
    cases e with
    | compound op cs =>
      rw [joinPartners] at h
      obtain ⟨h1, h2⟩ := (optUnion_eq_some _).1 ps h
      intro p hp
      simp only [basePredicates, List.mem_flatMap] at hp
      obtain ⟨c, hc, hp⟩ := hp
      have hs := h1 _ (List.mem_map.2 ⟨c, hc, rfl⟩)
      obtain ⟨s, hs⟩ := Option.isSome_iff_exists.1 hs
      obtain ⟨qs, hq, hsub⟩ := ih c hc s hs p hp
      exact ⟨qs, hq, fun x hx => (h2 x).2 ⟨s, List.mem_map.2 ⟨c, hc, hs⟩, hsub hx⟩⟩
    | _ => intro p hp; simp [basePredicates] at hp; subst hp; exact ⟨ps, h, Finset.Subset.refl _⟩

/-- **C33 is violated.** `t1.x = t2.y AND t1.z = 1` is a join, but `join_partners()` raises. As a consequence, no
`QueryPredicates` can be created for the WHERE clause `(t1.x = t2.y AND t1.z = 1) OR t1.x < t2.y`: whatever the
iteration order of its sets, the constructor raises. -/
theorem C33_violated :
    (compound .and [jXY, fZ 1]).isJoin = true ∧ (compound .and [jXY, fZ 1]).joinPartners = none ∧
    ¬ ∃ qp : QueryPreds Unit, qp.Valid noOps ∧
      qp.root = some (.compound .or [.compound .and [jXY, fZ 1], jLt]) := by
  refine ⟨by decide +kernel, by decide +kernel, ?_⟩
  rintro ⟨qp, hv, hr⟩
  have h1 : (Expr.compound .or [.compound .and [jXY, fZ 1], jLt]).collectJoins =
      [.compound .or [.compound .and [jXY, fZ 1], jLt]] := by decide +kernel
  have h3 : (Expr.compound .or [.compound .and [jXY, fZ 1], jLt]).tables noOps = {1, 2} := by decide +kernel
  have hj : qp.joins = [.compound .or [.compound .and [jXY, fZ 1], jLt]] := by
    have hm : ∀ p, p ∈ qp.joins ↔ p = .compound .or [.compound .and [jXY, fZ 1], jLt] := by
      intro p; rw [hv.joins, hr]; simp [h1]
    have hnd := hv.joinsNodup
    match hq : qp.joins, hm, hnd with
    | [], hm, _ => exact absurd ((hm _).2 rfl) (by simp)
    | [a], hm, _ => rw [(hm a).1 (by simp)]
    | a :: b :: l, hm, hnd =>
      have e1 := (hm a).1 (by simp)
      have e2 := (hm b).1 (by simp)
      subst e1; subst e2; simp at hnd
  have ht : ∀ t, t ∈ qp.tabs ↔ t = 1 ∨ t = 2 := by
    intro t; rw [hv.tabs, hr]; simp [h3]
  have hm := hv.map
  rw [hj] at hm
  cases hq : qp.tabs with
  | nil => have := (ht 1).2 (.inl rfl); simp [hq] at this
  | cons t ts =>
    rw [hq] at hm ht
    rcases (ht t).1 (by simp) with rfl | rfl
    · have : joinsForAux noOps [.compound .or [.compound .and [jXY, fZ 1], jLt]] 1 = none := by decide +kernel
      simp [initMap, this] at hm
    · have : joinsForAux noOps [.compound .or [.compound .and [jXY, fZ 1], jLt]] 2 = none := by decide +kernel
      simp [initMap, this] at hm

end PB.PredProps
