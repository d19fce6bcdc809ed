import Verif.Model.Native
import Verif.Model.DbHints

set_option linter.unusedSimpArgs false
set_option linter.unusedVariables false
set_option linter.unnecessarySimpa false
set_option linter.unnecessarySeqFocus false

/-!
# Properties of the native stages (C204-C206)
-/

namespace PB.NativeProps

open PB PB.Hints PB.QP PB.Native

variable {Qy : Type}

/-! ## C204: native costs -/

/-- The part of the query that a plan computes. -/
inductive Part (S : System Qy) (q : Qy) (p : Plan) : Qy → Prop
  | whole : S.tables q = p.tables → Part S q p q
  | fragment (f : Qy) : S.tables q ≠ p.tables → S.fragment q p.tables = some f → Part S q p f

/-- The scan that is reached by following the outer children of joins and the only children of other nodes. -/
inductive OuterScan : Plan → Plan → Prop
  | scan (i : Info) (cs : List Plan) (s : Option Plan) : i.isScan = true → OuterScan (.node i cs s) (.node i cs s)
  | join (i : Info) (c d : Plan) (s : Option Plan) (r : Plan) : i.isJoin = true → OuterScan c r → OuterScan (.node i [c, d] s) r
  | other (i : Info) (c : Plan) (s : Option Plan) (r : Plan) : i.isScan = false → i.isJoin = false → OuterScan c r → OuterScan (.node i [c] s) r

theorem outermost_spec : (p r : Plan) → outermostScan p = some r → OuterScan p r
  | .node i cs s, r, h => by
    unfold outermostScan at h
    split at h
    · rename_i hs
      cases h
      exact .scan i cs s hs
    · rename_i hs
      split at h
      · rename_i hj
        split at h
        · rename_i c d
          exact .join i c d s r hj (outermost_spec c r h)
        · cases h
      · rename_i hj
        split at h
        · rename_i c
          exact .other i c s r (by simpa using hs) (by simpa using hj) (outermost_spec c r h)
        · cases h

/-- The plan uses an index. -/
def UsesIndex (p : Plan) : Prop := p.info.op = some (.scan .idxScan) ∨ p.info.op = some (.scan .idxOnlyScan)

instance (p : Plan) : Decidable (UsesIndex p) := by unfold UsesIndex; infer_instance

/-- The root of the plan is neither a sort nor a materialization nor a memoization. -/
def Ordinary (p : Plan) : Prop := ∀ o, p.info.op ≠ some (.inter o)

/-- The database system assigns the cost to the part of the query: it is the cost of the query if the plan is enforced, or the cost of the same operator in the plan of a COUNT(*) query if the system refuses to use the index
otherwise. -/
inductive Assigned (S : System Qy) (f : Qy) (p : Plan) (c : Flt) : Prop
  | direct : S.cost (S.hint f (p.withActual none true)) = .ok c → Assigned S f p c
  | count (r n : Plan) : UsesIndex p → S.cost (S.hint f (p.withActual none true)) = .error .database →
      S.plan (S.hint (S.count f) (p.withActual none true)) = .ok r → OuterScan r n → n.info.op = p.info.op → n.info.estCost = c → Assigned S f p c

theorem ordinary_isIntermediate {p : Plan} (h : Ordinary p) : isIntermediate p.info = false := by
  unfold isIntermediate
  have h1 := h .materialize
  have h2 := h .memoize
  simp [h1, h2]

theorem estimate_part {S : System Qy} {b : Bool} {q f : Qy} {p : Plan} (ho : Ordinary p) (hf : Part S q p f) :
    estimateCost S b q p = dispatch S b f p := by
  have hi := ordinary_isIntermediate ho
  unfold estimateCost
  cases hf with
  | whole ht => simp [hi, ht]
  | fragment f ht he => simp [hi, ht, he]

theorem estimate_ok {S : System Qy} {b : Bool} {q : Qy} {p : Plan} {c : Flt} (ho : Ordinary p) (h : estimateCost S b q p = .ok c) :
    ∃ f, Part S q p f ∧ dispatch S b f p = .ok c := by
  have hi := ordinary_isIntermediate ho
  by_cases ht : S.tables q = p.tables
  · exact ⟨q, .whole ht, by rw [← estimate_part ho (.whole ht)]; exact h⟩
  · cases hf : S.fragment q p.tables with
    | none =>
      unfold estimateCost at h
      simp [hi, ht, hf] at h
    | some f => exact ⟨f, .fragment f ht hf, by rw [← estimate_part ho (.fragment f ht hf)]; exact h⟩

theorem dispatch_ordinary {S : System Qy} {b : Bool} {f : Qy} {p : Plan} (ho : Ordinary p) :
    (UsesIndex p ∧ dispatch S b f p = costIndex S b f p) ∨ (¬ UsesIndex p ∧ dispatch S b f p = costPlain S b f p) := by
  unfold dispatch UsesIndex
  match hop : p.info.op with
  | none => right; simp
  | some (.scan .idxScan) => left; simp
  | some (.scan .idxOnlyScan) => left; simp
  | some (.scan .seqScan) => right; simp
  | some (.scan .bitmapScan) => right; simp
  | some (.join _) => right; simp
  | some (.inter o) => exact absurd hop (ho o)

theorem plain_ok {S : System Qy} {b : Bool} {f : Qy} {p : Plan} {c : Flt} (h : costPlain S b f p = .ok c) :
    Assigned S f p c ∨ (b = false ∧ c = .pinf) := by
  unfold costPlain at h
  split at h
  · rename_i hc
    cases h
    exact .inl (.direct hc)
  · cases b <;> simp at h
    exact .inr ⟨rfl, h.symm⟩
  · cases h

theorem index_ok {S : System Qy} {b : Bool} {f : Qy} {p : Plan} {c : Flt} (hu : UsesIndex p) (h : costIndex S b f p = .ok c) :
    Assigned S f p c ∨ (b = false ∧ c = .pinf) := by
  unfold costIndex at h
  split at h
  · rename_i hc
    cases h
    exact .inl (.direct hc)
  · rename_i hc
    split at h
    · rename_i r hr
      unfold costFromCount at h
      split at h
      · cases h
      · rename_i n hn
        split at h
        · rename_i ho
          cases h
          exact .inl (.count r n hu hc hr (outermost_spec r n hn) ho rfl)
        · cases b <;> simp at h
          exact .inr ⟨rfl, h.symm⟩
    · cases b <;> simp at h
      exact .inr ⟨rfl, h.symm⟩
    · cases h
  · cases h

/-- **C204** (partial).  For all database systems, queries and plans whose root is neither a sort nor a materialization nor a memoization: a cost that is returned is a cost that the database system assigns to the part of the query
that the plan computes. The only exception are infinite costs, and they are only made up if errors should not be raised.

Missing: other roots, which never obtain a cost (`C204_sort_violated`, `C204_intermediate_violated`). -/
theorem C204_sound_partial (S : System Qy) (raiseOnError : Bool) (q : Qy) (p : Plan) (c : Flt) (ho : Ordinary p)
    (h : estimateCost S raiseOnError q p = .ok c) :
    ∃ f, Part S q p f ∧ (Assigned S f p c ∨ (raiseOnError = false ∧ c = .pinf)) := by
  obtain ⟨f, hf, hd⟩ := estimate_ok ho h
  refine ⟨f, hf, ?_⟩
  rcases dispatch_ordinary (S := S) (b := raiseOnError) (f := f) ho with ⟨hu, he⟩ | ⟨hu, he⟩
  · exact index_ok hu (he ▸ hd)
  · exact plain_ok (he ▸ hd)

/-- **C204** (partial).  If the database system can estimate the cost of the query under the plan, that cost is returned. If it refuses, the result is an error or infinite costs, depending on the flag, unless an index can be costed by a
COUNT(*) query. Errors of other kinds are passed on. -/
theorem C204_complete_partial (S : System Qy) (raiseOnError : Bool) (q f : Qy) (p : Plan) (ho : Ordinary p) (hf : Part S q p f) :
    (∀ c, S.cost (S.hint f (p.withActual none true)) = .ok c → estimateCost S raiseOnError q p = .ok c) ∧
    (S.cost (S.hint f (p.withActual none true)) = .error .other → estimateCost S raiseOnError q p = .error (.db .other)) ∧
    (¬ UsesIndex p → S.cost (S.hint f (p.withActual none true)) = .error .database →
      estimateCost S raiseOnError q p = if raiseOnError then .error (.db .database) else .ok .pinf) ∧
    (UsesIndex p → S.cost (S.hint f (p.withActual none true)) = .error .database →
      S.plan (S.hint (S.count f) (p.withActual none true)) = .error .database →
      estimateCost S raiseOnError q p = if raiseOnError then .error (.db .database) else .ok .pinf) := by
  rw [estimate_part ho hf]
  rcases dispatch_ordinary (S := S) (b := raiseOnError) (f := f) ho with ⟨hu, he⟩ | ⟨hu, he⟩ <;> rw [he]
  · refine ⟨?_, ?_, fun h => absurd hu h, ?_⟩
    · intro c hc; simp [costIndex, hc]
    · intro hc; simp [costIndex, hc]
    · intro _ hc hp; simp [costIndex, hc, hp]
  · refine ⟨?_, ?_, ?_, fun h => absurd h hu⟩
    · intro c hc; simp [costPlain, hc]
    · intro hc; simp [costPlain, hc]
    · intro _ hc; simp [costPlain, hc]

/-- **C204** (partial).  The cost of an index that the database system only uses for COUNT(*) queries. -/
theorem C204_count_partial (S : System Qy) (raiseOnError : Bool) (q f : Qy) (p r n : Plan) (hu : UsesIndex p) (hf : Part S q p f)
    (hc : S.cost (S.hint f (p.withActual none true)) = .error .database)
    (hr : S.plan (S.hint (S.count f) (p.withActual none true)) = .ok r) (hn : outermostScan r = some n) :
    estimateCost S raiseOnError q p =
      if n.info.op = p.info.op then .ok n.info.estCost else if raiseOnError then .error (.db .database) else .ok .pinf := by
  have ho : Ordinary p := by
    intro o h
    rcases hu with hu | hu <;> rw [hu] at h <;> cases h
  rw [estimate_part ho hf]
  rcases dispatch_ordinary (S := S) (b := raiseOnError) (f := f) ho with ⟨_, he⟩ | ⟨hu', _⟩
  · rw [he]
    simp [costIndex, hc, hr, costFromCount, hn]
  · exact absurd hu hu'

/-- **C204** (violated).  No sort is ever assigned a cost: whatever the database system, the query and the plan are, the call raises an error, even if errors should not be raised. -/
theorem C204_sort_violated (S : System Qy) (raiseOnError : Bool) (q : Qy) (p : Plan) (h : p.info.op = some (.inter .sort)) :
    ∃ e, estimateCost S raiseOnError q p = .error e ∧ e ≠ .db .database := by
  have hs : ∀ f, ∃ e, dispatch S raiseOnError f p = .error e ∧ e ≠ .db .database := by
    intro f
    unfold dispatch costSort
    simp only [h]
    split
    · exact ⟨_, rfl, by simp⟩
    · split <;> exact ⟨_, rfl, by simp⟩
  unfold estimateCost
  split
  · exact ⟨_, rfl, by simp⟩
  · split
    · split
      · exact ⟨_, rfl, by simp⟩
      · exact hs _
    · exact hs q

theorem findFirst_never : (p : Plan) → p.findFirst isRequested true = none ∨ p.findFirst isRequested true = some none
  | .node i cs s => by
    unfold Plan.findFirst
    simp only [isRequested, Bool.false_eq_true, if_false]
    match cs with
    | [] => right; rfl
    | [c] => simpa using findFirst_never c
    | [a, b] =>
      simp only [List.map_cons, List.map_nil, if_true]
      rcases findFirst_never a with ha | ha <;> simp only [ha]
      · left; trivial
      · rcases findFirst_never b with hb | hb <;> simp only [hb]
        · left; trivial
        · match s with
          | none => right; rfl
          | some r => simpa using findFirst_never r
    | _ :: _ :: _ :: _ => left; rfl

theorem within_never (S : System Qy) (q : Qy) (p : Plan) (anchor : Finset Nat) (c : Flt) (h : costWithin S q p anchor = .ok c) : c = .pinf := by
  unfold costWithin at h
  split at h
  · cases h; rfl
  · simp only at h
    split at h
    · cases h
    · split at h
      · cases h; rfl
      · cases h
      · rename_i r hr
        rcases findFirst_never r with hn | hn <;> simp only [hn] at h
        · cases h
        · cases h; rfl

/-- **C204** (violated).  Materializations and memoizations are never assigned a cost: if the call returns, the cost is infinite, whatever the database system, the query and the plan are. -/
theorem C204_intermediate_violated (S : System Qy) (raiseOnError : Bool) (q : Qy) (p : Plan) (c : Flt)
    (h : p.info.op = some (.inter .materialize) ∨ p.info.op = some (.inter .memoize)) (hc : estimateCost S raiseOnError q p = .ok c) : c = .pinf := by
  have hd : ∀ f, dispatch S raiseOnError f p = .ok c → c = .pinf := by
    intro f hf
    unfold dispatch at hf
    rcases h with h | h <;> simp only [h] at hf
    · unfold costMaterialize at hf
      split at hf
      · cases hf; rfl
      · exact within_never S f p _ c hf
    · unfold costMemoize at hf
      split at hf
      · cases hf; rfl
      · split at hf
        · cases hf
        · cases hf; rfl
        · exact within_never S f p _ c hf
  unfold estimateCost at hc
  split at hc
  · cases hc
  · split at hc
    · split at hc
      · cases hc
      · exact hd _ hc
    · exact hd q hc

/-- **C204** (violated).  The flag for errors is ignored for materializations: a database system that refuses all requests leads to infinite costs instead of an error. -/
theorem C204_raise_violated (S : System Qy) (q : Qy) (p : Plan) (h : p.info.op = some (.inter .materialize)) (ht : S.tables q ≠ p.tables)
    (hpg : S.postgres = false ∨ S.joinsBetween q (S.tables q \ p.tables) p.tables = none) :
    estimateCost S true q p = .ok .pinf := by
  unfold estimateCost dispatch
  have hi : isIntermediate p.info = true := by simp [isIntermediate, h]
  simp only [hi, ht, and_false, if_false, h, Bool.true_eq_false, ne_eq, not_false_eq_true, and_true]
  unfold costMaterialize costWithin
  cases hpg' : S.postgres with
  | false => simp
  | true =>
    rcases hpg with hpg | hpg
    · simp [hpg'] at hpg
    · simp [hpg]

/-- A node without estimates. -/
def node (ty : String) (op : Option PhysOp) (base : Option Nat) : Info :=
  ⟨ty, op, base, ∅, ∅, 0, Card.unknown, .nan, Card.unknown, .nan, none, none⟩

/-- A scan of table `t`. -/
def scanOf (op : ScanOp) (t : Nat) : Plan := .node (node "scan" (some (.scan op)) (some t)) [] none

/-- A system whose queries are the sets of their tables: the cost is the number of tables, and index scans are only used for COUNT(*) queries, which are marked by table 100. -/
def sample : System (Finset Nat) where
  tables q := q
  fragment q ts := if ts ⊆ q then some ts else none
  star q := q
  count q := q ∪ {100}
  hint q p := if UsesIndex p then q ∪ {200} else q
  hintParts q _ _ _ := q
  cost q := if 200 ∈ q then .error .database else .ok (.fin q.card)
  plan q := if 100 ∈ q then .ok (.node { node "agg" none none with estCost := .fin 9 } [.node { node "scan" (some (.scan .idxScan)) (some 1) with estCost := .fin 7 } [] none] none) else .ok (scanOf .seqScan 1)
  joinsBetween _ _ _ := none
  pick _ := 0
  postgres := true
  columns _ := []
  sortKeys _ := []
  lookupKey _ := .none

theorem tables_scanOf (op : ScanOp) (t : Nat) : (scanOf op t).tables = {t} := by
  simp [scanOf, node, Plan.tables, Info.ownTables, optSet, setUnion]

theorem withActual_scanOf (op : ScanOp) (t : Nat) : (scanOf op t).withActual none true = scanOf op t := by
  simp [scanOf, node, Plan.withActual, Info.withActual, Card.unknown]

/-- A sequential scan of table 1 in a query over two tables; an index scan that needs a COUNT(*) query, and one that is refused. -/
theorem sample_seq : Ordinary (scanOf .seqScan 1) ∧ Part sample {1, 2} (scanOf .seqScan 1) {1} ∧ sample.cost (sample.hint {1} ((scanOf .seqScan 1).withActual none true)) = .ok (.fin 1) := by
  refine ⟨by intro o h; simp [scanOf, node, Plan.info] at h, .fragment _ (by rw [tables_scanOf]; decide) (by rw [tables_scanOf]; decide), ?_⟩
  rw [withActual_scanOf]
  decide +kernel

example : estimateCost sample true {1, 2} (scanOf .seqScan 1) = .ok (.fin 1) :=
  (C204_complete_partial sample true {1, 2} {1} _ sample_seq.1 sample_seq.2.1).1 _ sample_seq.2.2

theorem sample_idx (op : ScanOp) (h : op = .idxScan ∨ op = .idxOnlyScan) : estimateCost sample true {1, 2} (scanOf op 1) =
    if op = .idxScan then .ok (.fin 7) else .error (.db .database) := by
  have hc : sample.cost (sample.hint {1} ((scanOf op 1).withActual none true)) = .error .database := by
    rw [withActual_scanOf]
    rcases h with rfl | rfl <;> decide +kernel
  have hu : UsesIndex (scanOf op 1) := by
    rcases h with rfl | rfl
    · exact .inl rfl
    · exact .inr rfl
  have hp : sample.plan (sample.hint (sample.count {1}) ((scanOf op 1).withActual none true)) =
      .ok (.node { node "agg" none none with estCost := .fin 9 } [.node { node "scan" (some (.scan .idxScan)) (some 1) with estCost := .fin 7 } [] none] none) := by
    rw [withActual_scanOf]
    rcases h with rfl | rfl <;> rfl
  rw [C204_count_partial sample true {1, 2} {1} (scanOf op 1) _
    (.node { node "scan" (some (.scan .idxScan)) (some 1) with estCost := .fin 7 } [] none) hu
    (.fragment _ (by rw [tables_scanOf]; decide) (by rw [tables_scanOf]; decide)) hc hp
    (by simp [outermostScan, node, Info.isScan, Info.isJoin])]
  rcases h with rfl | rfl <;> simp [scanOf, node, Plan.info]

/-- The hypotheses of `C204_raise_violated` are met. -/
example : estimateCost sample true {1, 2} (.node (node "mat" (some (.inter .materialize)) none) [scanOf .seqScan 1] none) = .ok .pinf := by
  refine C204_raise_violated sample {1, 2} _ rfl ?_ (.inr rfl)
  rw [Plan.tables]
  simp only [List.map_cons, List.map_nil, tables_scanOf]
  decide

/-! ## C205: the native stages -/

/-- **C205** (partial).  The native stages fail exactly if the plan of the database system is not available or cannot be turned into hints; otherwise, they yield the join order and the operators of the plan that the database system
chooses, for the operators under the given join order.

Missing: the parameters (`C205_parameters_violated`). -/
theorem C205_native_partial (S : System Qy) (q : Qy) :
    (∀ p t, S.plan q = .ok p → p.jointree .estimated = some t → nativeJoinOrder S q = .ok (some t)) ∧
    (∀ e, S.plan q = .error e → nativeJoinOrder S q = .error (.db e)) ∧
    (∀ p a, S.plan q = .ok p → p.ops false = some a → nativeOperators S q none = .ok (some a)) ∧
    (∀ t p a, t.isEmpty = false → S.plan (S.hintParts q (some t) none none) = .ok p → p.ops false = some a →
      nativeOperators S q (some t) = .ok (some a)) ∧
    (∀ p, S.plan q = .ok p → nativeOptimizer S q = .ok p) := by
  refine ⟨?_, ?_, ?_, ?_, ?_⟩
  · intro p t hp ht; simp [nativeJoinOrder, planOf, hp, ht]
  · intro e he; simp [nativeJoinOrder, planOf, he]
  · intro p a hp ha; simp [nativeOperators, planOf, hp, ha]
  · intro t p a ht hp ha; simp [nativeOperators, planOf, ht, hp, ha, Option.filter]
  · intro p hp; simp [nativeOptimizer, planOf, hp]

/-- **C205** (violated).  The native parameterization never yields parameters, whatever the database system estimates. -/
theorem C205_parameters_violated (S : System Qy) (q : Qy) (order : Option (JT.Tree Card)) (ops : Option OpAssign) (r : Option Params)
    (h : nativeParameters S q order ops = .ok r) : r = none := by
  unfold nativeParameters at h
  split at h
  · cases h
  · cases h; rfl

/-- There are plans with an estimate, for which parameters exist. -/
example : nativeParameters sample {1} none none = .ok none ∧ sample.plan {1} = .ok (scanOf .seqScan 1) := ⟨by rfl, by rfl⟩

/-! ## C206: stages as complete optimizers -/

/-- Two join orders are the same up to the cardinalities. -/
def SameOrder : JT.Tree Card → JT.Tree Card → Prop
  | .empty _, .empty _ => True
  | .scan _ t _, .scan _ u _ => t = u
  | .join _ a b _, .join _ c d _ => SameOrder a c ∧ SameOrder b d
  | _, _ => False

/-- The database system follows join orders. -/
def FollowsOrder (S : System Qy) : Prop :=
  ∀ q t p, S.plan (S.hintParts q (some t) none none) = .ok p → ∃ u, p.jointree .estimated = some u ∧ SameOrder t u

/-- The database system follows the choice of operators. -/
def FollowsOperators (S : System Qy) : Prop :=
  ∀ q a p, S.plan (S.hintParts q none (some a) none) = .ok p → ∃ b, p.ops false = some b ∧
    (∀ t, (b.scans.get? t).map (·.op) = (a.scans.get? t).map (·.op)) ∧ (∀ T, (b.joins.get? T).map (·.op) = (a.joins.get? T).map (·.op))

/-- Hints without contents do not change the plan. -/
def IgnoresEmpty (S : System Qy) : Prop :=
  ∀ q, S.plan (S.hintParts q none none none) = S.plan q ∧ S.plan (S.hintParts q none (some OpAssign.empty) none) = S.plan q

/-- **C206**.  If the database system follows hints, the native stages as complete optimizers do not change the join order respectively the operators of the database system. -/
theorem C206_native (S : System Qy) (q : Qy) (p r : Plan) (hp : S.plan q = .ok p) :
    (FollowsOrder S → complete S (nativeOrderStage S) q = .ok r →
      ∃ t u, p.jointree .estimated = some t ∧ r.jointree .estimated = some u ∧ SameOrder t u) ∧
    (FollowsOperators S → complete S (nativeOpsStage S) q = .ok r →
      ∃ a b, p.ops false = some a ∧ r.ops false = some b ∧ (∀ t, (b.scans.get? t).map (·.op) = (a.scans.get? t).map (·.op)) ∧
        (∀ T, (b.joins.get? T).map (·.op) = (a.joins.get? T).map (·.op))) := by
  constructor
  · intro hf h
    simp only [complete, accepts, nativeOrderStage, Option.isSome_some, Option.isSome_none, Bool.or_false, Bool.not_true, Bool.false_eq_true, if_false, runOpt,
      nativeJoinOrder, planOf, hp] at h
    cases ht : p.jointree .estimated with
    | none => simp [ht] at h
    | some t =>
      simp only [ht] at h
      split at h
      · rename_i r' hr
        cases h
        obtain ⟨u, hu, hs⟩ := hf q t r hr
        exact ⟨t, u, rfl, hu, hs⟩
      · cases h
  · intro hf h
    simp only [complete, accepts, nativeOpsStage, Option.isSome_some, Option.isSome_none, Bool.or_false, Bool.false_or, Bool.not_true, Bool.false_eq_true, if_false, runOpt,
      nativeOperators, Option.filter, planOf, hp] at h
    cases ha : p.ops false with
    | none => simp [ha] at h
    | some a =>
      simp only [ha] at h
      split at h
      · rename_i r' hr
        cases h
        obtain ⟨b, hb, h1, h2⟩ := hf q a r hr
        exact ⟨a, b, rfl, hb, h1, h2⟩
      · cases h

/-- **C206** (partial).  If hints without contents do not change the plan, the stages that do nothing leave the query to the database system.

Missing: the hints of PostBOUND for Postgres are never without contents for large queries and pg_lab (`C206_geqo_violated`, `C206_lab_violated`). -/
theorem C206_empty_partial (S : System Qy) (h : IgnoresEmpty S) (q : Qy) :
    complete S emptyOrder q = nativeOptimizer S q ∧ complete S emptyOps q = nativeOptimizer S q ∧ complete S emptyParams q = nativeOptimizer S q := by
  obtain ⟨h1, h2⟩ := h q
  refine ⟨?_, ?_, ?_⟩
  · simp [complete, accepts, emptyOrder, runOpt, nativeOptimizer, planOf, h1]
  · simp [complete, accepts, emptyOps, runOpt, nativeOptimizer, planOf, h2]
  · simp [complete, accepts, emptyParams, runOpt, nativeOptimizer, planOf, h1]

/-- **C206**.  Without any stage, there is no complete optimizer, and the parameterization of the database system has the same effect as the empty one if it succeeds. -/
theorem C206_stages (S : System Qy) (q : Qy) :
    complete S ⟨none, none, none⟩ q = .error .value ∧
    (∀ p, S.plan q = .ok p → complete S (nativeParamsStage S) q = complete S emptyParams q) := by
  constructor
  · rfl
  · intro p hp
    simp [complete, accepts, nativeParamsStage, emptyParams, runOpt, nativeParameters, planOf, hp]

/-- **C206**.  For the database systems of PostBOUND, the empty stages lead to no hints about join order, operators and parameters: there are no preparatory statements, and the hint block only contains general options. -/
theorem C206_hints (enum : Finset Nat → List Nat) (geqo n : Nat) (ops : Option OpAssign) (ho : ops = none ∨ ops = some OpAssign.empty) :
    DbHints.pgGenerate enum geqo n .pgHintPlan none none ops none = some ⟨[], if geqo < n then [.geqoOff] else []⟩ ∧
    DbHints.pgGenerate enum geqo n .pgLab none none ops none = some ⟨[], [.planMode "anchored"]⟩ ∧
    DbHints.quackGenerate none none ops none = some ⟨[], []⟩ ∧
    DbHints.myGenerate none none ops none = some none := by
  rcases ho with rfl | rfl
  · refine ⟨?_, ?_, ?_, ?_⟩ <;> simp [DbHints.pgGenerate, DbHints.pgHintPlan, DbHints.orderLine, DbHints.hpOps?, DbHints.hpParams, DbHints.settings?,
      DbHints.pgLab, DbHints.labIntegrate, DbHints.labOps?, DbHints.labParams?, DbHints.quackGenerate, DbHints.quackParts, DbHints.quackOps?, DbHints.quackParams?,
      DbHints.myGenerate, DbHints.myParts, DbHints.myOps?, DbHints.myPrep, DbHints.mySwitches, DbHints.myOrder]
  · refine ⟨?_, ?_, ?_, ?_⟩ <;> simp [DbHints.pgGenerate, DbHints.pgHintPlan, DbHints.orderLine, DbHints.hpOps?, DbHints.hpOps, DbHints.hpParams, DbHints.settings?,
      DbHints.pgLab, DbHints.labIntegrate, DbHints.labOps?, DbHints.labOps, DbHints.labParams?, DbHints.quackGenerate, DbHints.quackParts, DbHints.quackOps?, DbHints.quackParams?,
      DbHints.myGenerate, DbHints.myParts, DbHints.myOps?, DbHints.myOps, DbHints.myPrep, DbHints.mySwitches, DbHints.myOrder, OpAssign.empty, DbHints.hpScans, DbHints.hpInters,
      DbHints.mapAll, DbHints.setLines, DbHints.labLoop, DbHints.labEntries, DbHints.hasEntries, Dict.values]

/-- **C206** (violated).  The stages that do nothing disable the genetic optimizer of Postgres for queries with many tables. -/
theorem C206_geqo_violated (enum : Finset Nat → List Nat) (geqo n : Nat) (h : geqo < n) :
    ∃ b, DbHints.pgGenerate enum geqo n .pgHintPlan none none none none = some b ∧ DbHints.Line.geqoOff ∈ b.lines := by
  refine ⟨_, (C206_hints enum geqo n none (.inl rfl)).1, ?_⟩
  simp [h]

/-- **C206** (violated).  The stages that do nothing change the mode of pg_lab. -/
theorem C206_lab_violated (enum : Finset Nat → List Nat) (geqo n : Nat) :
    ∃ b, DbHints.pgGenerate enum geqo n .pgLab none none none none = some b ∧ DbHints.Line.planMode "anchored" ∈ b.lines := by
  exact ⟨_, (C206_hints enum geqo n none (.inl rfl)).2.1, by simp⟩

/-- A system that always scans table 1 follows all hints if it only knows one query. -/
example : IgnoresEmpty sample ∧ complete sample emptyOps {1} = .ok (scanOf .seqScan 1) :=
  ⟨fun _ => ⟨rfl, rfl⟩, rfl⟩

/-- A system whose queries are the operators that it is told to use: it has a single table, and refuses hints that do not assign exactly one scan to it. -/
def obedient : System (Option ScanOp) where
  tables _ := {1}
  fragment q _ := some q
  star q := q
  count q := q
  hint q _ := q
  hintParts q order a _ :=
    match order, a with
    | none, some a => match a.scans, a.joins with
      | [(1, x)], [] => some x.op
      | _, _ => none
    | some (.scan _ 1 _), none => some .seqScan
    | _, _ => none
  cost _ := .ok (.fin 1)
  plan q := match q with
    | some op => .ok (scanOf op 1)
    | none => .error .database
  joinsBetween _ _ _ := none
  pick _ := 0
  postgres := true
  columns _ := []
  sortKeys _ := []
  lookupKey _ := .none

theorem jointree_scanOf (op : ScanOp) (t : Nat) : (scanOf op t).jointree .estimated = some (.scan .generic t (some Card.unknown)) := by
  simp [scanOf, node, Plan.jointree, Info.isScan, Info.isJoin, Info.card]

theorem ops_scanOf (op : ScanOp) (t : Nat) : (scanOf op t).ops false = some ⟨[], [], [], [(t, ⟨op, t, none⟩)]⟩ := by
  simp [scanOf, node, Plan.ops, nodeOp, OpAssign.empty, OpAssign.setScan, Dict.set]

/-- The hypotheses of `C206_native` are met. -/
theorem obedient_follows : FollowsOrder obedient ∧ FollowsOperators obedient := by
  constructor
  · intro q t p h
    match t with
    | .empty _ => simp [obedient] at h
    | .join .. => simp [obedient] at h
    | .scan c 1 a =>
      simp [obedient] at h
      subst h
      exact ⟨_, jointree_scanOf _ _, rfl⟩
    | .scan c 0 a => simp [obedient] at h
    | .scan c (n + 2) a => simp [obedient] at h
  · intro q a p h
    simp only [obedient] at h
    split at h
    · rename_i op hop
      cases h
      split at hop
      · rename_i x h1 h2
        cases hop
        refine ⟨_, ops_scanOf _ _, ?_, ?_⟩
        · intro t; rw [h1]; by_cases ht : t = 1 <;> simp [Dict.get?, ht]
        · intro T; rw [h2]
      · cases hop
    · cases h

example : complete obedient (nativeOrderStage obedient) (some .bitmapScan) = .ok (scanOf .seqScan 1) ∧
    complete obedient (nativeOpsStage obedient) (some .bitmapScan) = .ok (scanOf .bitmapScan 1) := by
  constructor
  · simp [complete, accepts, nativeOrderStage, runOpt, nativeJoinOrder, planOf, obedient, jointree_scanOf]
  · simp [complete, accepts, nativeOpsStage, runOpt, nativeOperators, planOf, obedient, ops_scanOf]

end PB.NativeProps
