import Verif.Model.DbHints
import Verif.Props.Hints
import Verif.Props.QueryPlan

set_option linter.unusedSimpArgs false
set_option linter.unusedVariables false
set_option linter.unusedSectionVars false
set_option linter.unnecessarySimpa false
set_option linter.unnecessarySeqFocus false

/-! Properties C118-C123: the hints that are generated for the database backends. -/

namespace PB.DbHintsProps
open PB PB.Hints PB.QP PB.DbHints

variable {A : Type}

/-! ### Vocabulary -/

/-- The nested sequence has the structure and the tables of the join tree. -/
inductive Reads : JT.Tree A → JT.Nested → Prop
  | scan (c : JT.Cls) (t : Nat) (a : Option A) : Reads (.scan c t a) (.table t)
  | join (c : JT.Cls) (o i : JT.Tree A) (a : Option A) (x y : JT.Nested) :
    Reads o x → Reads i y → Reads (.join c o i a) (.pair x y)

/-- The nested sequence is the join order of the plan: scans are tables, joins are pairs and all nodes with one input are
skipped. -/
inductive PlanReads : Plan → JT.Nested → Prop
  | scan (i : Info) (cs : List Plan) (s : Option Plan) (t : Nat) :
    i.isScan = true → i.base = some t → PlanReads (.node i cs s) (.table t)
  | pair (i : Info) (o n : Plan) (s : Option Plan) (x y : JT.Nested) :
    i.isScan = false → PlanReads o x → PlanReads n y → PlanReads (.node i [o, n] s) (.pair x y)
  | skip (i : Info) (c : Plan) (s : Option Plan) (x : JT.Nested) :
    i.isScan = false → PlanReads c x → PlanReads (.node i [c] s) x

/-- Identifiers of tables: not empty and without the characters that delimit them in hints. -/
def Clean (name : Nat → List Char) : Prop := ∀ t, name t ≠ [] ∧ '(' ∉ name t ∧ ')' ∉ name t ∧ ' ' ∉ name t

/-- The assignment requests an operator for a set of tables with a number of workers. -/
def Requested (a : OpAssign) (o : PhysOp) (T : Finset Nat) (w : Workers) : Prop :=
  (∃ s ∈ a.scans.values, o = .scan s.op ∧ T = {s.table} ∧ w = s.workers) ∨
  (∃ j ∈ a.joins.values, o = .join j.op ∧ T = j.join ∧ w = j.workers) ∨
  ∃ e ∈ a.inters, o = .inter e.2 ∧ T = e.1 ∧ w = none

/-- The operator names in the documentation of pg_hint_plan. -/
def hintPlanName : PhysOp → Option String
  | .scan .seqScan => some "SeqScan"
  | .scan .idxScan => some "IndexScan"
  | .scan .idxOnlyScan => some "IndexOnlyScan"
  | .scan .bitmapScan => some "BitmapScan"
  | .join .nlj => some "NestLoop"
  | .join .hash => some "HashJoin"
  | .join .merge => some "MergeJoin"
  | .inter .memoize => some "Memoize"
  | _ => none

/-- The operator names in the documentation of pg_lab. -/
def pgLabName : PhysOp → Option String
  | .scan .seqScan => some "SeqScan"
  | .scan .idxScan => some "IdxScan"
  | .scan .idxOnlyScan => some "IdxScan"
  | .scan .bitmapScan => some "BitmapScan"
  | .join .nlj => some "NestLoop"
  | .join .hash => some "HashJoin"
  | .join .merge => some "MergeJoin"
  | .inter .materialize => some "Material"
  | .inter .memoize => some "Memo"
  | _ => none

/-- The operator names of quack_lab. -/
def quackName : PhysOp → Option String
  | .scan .seqScan => some "SeqScan"
  | .scan .idxScan => some "IdxScan"
  | .join .nlj => some "NestLoop"
  | .join .hash => some "HashJoin"
  | .join .merge => some "MergeJoin"
  | _ => none

/-- The names of the MySQL hints for operators. -/
def mysqlName : PhysOp → Option String
  | .scan .seqScan => some "NO_INDEX"
  | .scan .idxScan => some "INDEX"
  | .scan .idxOnlyScan => some "INDEX"
  | .scan .bitmapScan => some "INDEX_MERGE"
  | .join .nlj => some "NO_BNL"
  | .join .hash => some "BNL"
  | _ => none

/-- The setting of Postgres that enables or disables an operator. -/
def postgresSetting : PhysOp → Option String
  | .scan .seqScan => some "enable_seqscan"
  | .scan .idxScan => some "enable_indexscan"
  | .scan .idxOnlyScan => some "enable_indexonlyscan"
  | .scan .bitmapScan => some "enable_bitmapscan"
  | .join .nlj => some "enable_nestloop"
  | .join .hash => some "enable_hashjoin"
  | .join .merge => some "enable_mergejoin"
  | .join .indexNlj => none
  | .inter .sort => some "enable_sort"
  | .inter .memoize => some "enable_memoize"
  | .inter .materialize => some "enable_material"

/-- The lines that ask for parallel workers. -/
def IsParallel : Line → Bool
  | .parallel _ _ => true
  | .result _ => true
  | .op _ _ (some _) => true
  | _ => false

/-- More than one worker. -/
def Parallel (w : Workers) : Prop := ∃ n, w = some n ∧ 1 < n

/-! ### Text -/

theorem orderText_split {name : Nat → List Char} (hc : Clean name) (hi : Function.Injective name) :
    ∀ (a b : JT.Nested) (r r' : List Char), (∀ c, r.head? = some c → c = ' ' ∨ c = ')') →
      (∀ c, r'.head? = some c → c = ' ' ∨ c = ')') → orderText name a ++ r = orderText name b ++ r' → a = b ∧ r = r' := by
  have word : ∀ (x y r r' : List Char), (' ' ∉ x ∧ ')' ∉ x) → (' ' ∉ y ∧ ')' ∉ y) →
      (∀ c, r.head? = some c → c = ' ' ∨ c = ')') → (∀ c, r'.head? = some c → c = ' ' ∨ c = ')') →
      x ++ r = y ++ r' → x = y ∧ r = r' := by
    intro x
    induction x with
    | nil =>
      intro y r r' _ hy hr hr' h
      cases y with
      | nil => simpa using h
      | cons c y =>
        simp only [List.nil_append, List.cons_append] at h
        have := hr c (by simp [h])
        simp only [List.mem_cons, not_or] at hy
        rcases this with rfl | rfl
        · exact absurd rfl hy.1.1
        · exact absurd rfl hy.2.1
    | cons d x ih =>
      intro y r r' hx hy hr hr' h
      simp only [List.mem_cons, not_or] at hx
      cases y with
      | nil =>
        simp only [List.nil_append, List.cons_append] at h
        have := hr' d (by simp [← h])
        rcases this with rfl | rfl
        · exact absurd rfl hx.1.1
        · exact absurd rfl hx.2.1
      | cons c y =>
        simp only [List.mem_cons, not_or] at hy
        simp only [List.cons_append, List.cons.injEq] at h
        obtain ⟨e1, e2⟩ := ih y r r' ⟨hx.1.2, hx.2.2⟩ ⟨hy.1.2, hy.2.2⟩ hr hr' h.2
        exact ⟨by rw [h.1, e1], e2⟩
  intro a
  induction a with
  | table t =>
    intro b r r' hr hr' h
    obtain ⟨n1, n2, n3, n4⟩ := hc t
    cases b with
    | table t' =>
      obtain ⟨m1, m2, m3, m4⟩ := hc t'
      obtain ⟨e, e'⟩ := word _ _ _ _ ⟨n4, n3⟩ ⟨m4, m3⟩ hr hr' h
      exact ⟨by rw [hi e], e'⟩
    | pair x y =>
      exfalso
      simp only [orderText] at h
      cases e : name t with
      | nil => exact n1 e
      | cons c cs =>
        rw [e] at h n2
        simp only [List.cons_append, List.cons.injEq] at h
        exact n2 (List.mem_cons.2 (.inl h.1.symm))
  | pair a1 a2 ih1 ih2 =>
    intro b r r' hr hr' h
    cases b with
    | table t' =>
      exfalso
      obtain ⟨m1, m2, m3, m4⟩ := hc t'
      simp only [orderText] at h
      cases e : name t' with
      | nil => exact m1 e
      | cons c cs =>
        rw [e] at h m2
        simp only [List.cons_append, List.cons.injEq] at h
        exact m2 (List.mem_cons.2 (.inl h.1))
    | pair b1 b2 =>
      simp only [orderText, List.cons_append, List.append_assoc, List.cons.injEq, true_and] at h
      obtain ⟨e1, e2⟩ := ih1 _ _ _ (by simp) (by simp) h
      simp only [List.cons_append, List.append_assoc, List.cons.injEq, true_and] at e2
      obtain ⟨e3, e4⟩ := ih2 _ _ _ (by simp) (by simp) e2
      simp only [List.nil_append, List.cons.injEq, true_and] at e4
      exact ⟨by rw [e1, e3], e4⟩

/-- The text of a join order hint determines the join order. -/
theorem C118_text (name : Nat → List Char) (hc : Clean name) (hi : Function.Injective name) (a b : JT.Nested)
    (h : orderText name a = orderText name b) : a = b :=
  (orderText_split hc hi a b [] [] (by simp) (by simp) (by simpa using h)).1

/-- The text of a list of tables determines the list. -/
theorem C118_tables_text (name : Nat → List Char) (hc : Clean name) (hi : Function.Injective name) (l m : List Nat)
    (h : tablesText name l = tablesText name m) : l = m := by
  have ne : ∀ t ts, tablesText name (t :: ts) ≠ [] := by
    intro t ts
    cases ts with
    | nil => exact (hc t).1
    | cons u us => simp [tablesText]
  have hd : ∀ ts : List Nat, ∃ r, (∀ c, r.head? = some c → c = ' ' ∨ c = ')') ∧ (ts = [] → r = []) ∧
      (∀ u us, ts = u :: us → r = ' ' :: tablesText name ts) ∧ ∀ t, tablesText name (t :: ts) = orderText name (.table t) ++ r := by
    intro ts
    cases ts with
    | nil => exact ⟨[], by simp, by simp, by simp, by simp [tablesText, orderText]⟩
    | cons u us =>
      exact ⟨' ' :: tablesText name (u :: us), by simp, by simp, by simp, fun t => by
        simp only [tablesText, orderText]⟩
  induction l generalizing m with
  | nil =>
    cases m with
    | nil => rfl
    | cons y ys => exact absurd h.symm (ne y ys)
  | cons x xs ih =>
    cases m with
    | nil => exact absurd h (ne x xs)
    | cons y ys =>
      obtain ⟨r, h1, h2, h3, h4⟩ := hd xs
      obtain ⟨r', k1, k2, k3, k4⟩ := hd ys
      rw [h4 x, k4 y] at h
      obtain ⟨e, e'⟩ := orderText_split hc hi _ _ _ _ h1 k1 h
      cases e
      congr 1
      cases xs with
      | nil =>
        cases ys with
        | nil => rfl
        | cons u us =>
          rw [h2 rfl, k3 u us rfl] at e'
          simp at e'
      | cons u us =>
        cases ys with
        | nil =>
          rw [k2 rfl, h3 u us rfl] at e'
          simp at e'
        | cons v vs =>
          rw [h3 u us rfl, k3 v vs rfl] at e'
          exact ih (v :: vs) (by simpa using e')

/-! ### Join orders -/

theorem walk_iff (t : JT.Tree A) (n : JT.Nested) : walk t = some n ↔ Reads t n := by
  induction t generalizing n with
  | empty c => simp only [walk]; exact ⟨fun h => by simp at h, fun h => by cases h⟩
  | scan c t a =>
    simp only [walk]
    exact ⟨fun h => by cases h; exact .scan _ _ _, fun h => by cases h; rfl⟩
  | join c o i a iho ihi =>
    simp only [walk, Option.bind_eq_some_iff, Option.map_eq_some_iff]
    constructor
    · rintro ⟨x, hx, y, hy, rfl⟩
      exact .join _ _ _ _ _ _ ((iho x).1 hx) ((ihi y).1 hy)
    · rintro (_ | ⟨_, _, _, _, x, y, hx, hy⟩)
      exact ⟨x, (iho x).2 hx, y, (ihi y).2 hy, rfl⟩

theorem orderLine_mem {k : Nat} {order : Option (JT.Tree A)} {ls : List Line} (h : orderLine k order = some ls) (l : Line) :
    l ∈ ls ↔ ∃ t n, order = some t ∧ k ≤ t.tables.card ∧ Reads t n ∧ l = .order n := by
  cases order with
  | none => simp only [orderLine, Option.some.injEq] at h; subst h; simp
  | some t =>
    have hl : t.len = t.tables.card := rfl
    simp only [orderLine] at h
    by_cases hk : t.len < k
    · rw [if_pos hk] at h
      simp only [Option.some.injEq] at h
      subst h
      simp only [List.not_mem_nil, Option.some.injEq, false_iff]
      rintro ⟨_, n, rfl, hk', -⟩
      omega
    · rw [if_neg hk] at h
      simp only [Option.map_eq_some_iff] at h
      obtain ⟨n, hn, rfl⟩ := h
      simp only [List.mem_singleton, Option.some.injEq]
      constructor
      · rintro rfl
        exact ⟨t, n, rfl, by omega, (walk_iff t n).1 hn, rfl⟩
      · rintro ⟨_, m, rfl, -, hm, rfl⟩
        rw [← walk_iff, hn] at hm
        rw [Option.some.inj hm]

theorem planOrder_iff (p : Plan) (n : JT.Nested) : planOrder p = some n ↔ PlanReads p n := by
  induction p using QPProps.Plan.ind generalizing n with
  | h i cs s ihc ihs =>
    rw [planOrder]
    by_cases hs : i.isScan = true
    · rw [if_pos hs]
      simp only [Option.map_eq_some_iff]
      constructor
      · rintro ⟨t, ht, rfl⟩; exact .scan _ _ _ _ hs ht
      · intro h
        cases h with
        | scan _ _ _ t h1 h2 => exact ⟨t, h2, rfl⟩
        | pair _ o m _ x y h1 => rw [h1] at hs; cases hs
        | skip _ c _ _ h1 => rw [h1] at hs; cases hs
    · rw [if_neg hs]
      have hf : i.isScan = false := by simpa using hs
      match cs with
      | [] => exact ⟨fun h => by simp at h, fun h => by cases h; contradiction⟩
      | [c] =>
        simp only [List.map_cons, List.map_nil]
        rw [ihc c (by simp) n]
        exact ⟨fun h => .skip _ _ _ _ hf h, fun h => by
          cases h with
          | scan _ _ _ t h1 h2 => exact absurd h1 hs
          | skip _ _ _ _ _ h => exact h⟩
      | [o, m] =>
        simp only [List.map_cons, List.map_nil, Option.bind_eq_some_iff, Option.map_eq_some_iff]
        constructor
        · rintro ⟨x, hx, y, hy, rfl⟩
          exact .pair _ _ _ _ _ _ hf ((ihc o (by simp) x).1 hx) ((ihc m (by simp) y).1 hy)
        · intro h
          cases h with
          | scan _ _ _ t h1 h2 => exact absurd h1 hs
          | pair _ _ _ _ x y _ hx hy =>
            exact ⟨x, (ihc o (by simp) x).2 hx, y, (ihc m (by simp) y).2 hy, rfl⟩
      | _ :: _ :: _ :: _ =>
        exact ⟨fun h => by simp at h, fun h => by cases h; contradiction⟩

theorem orderLine_none {k : Nat} {order : Option (JT.Tree A)} :
    orderLine k order = none ↔ ∃ t, order = some t ∧ k ≤ t.tables.card ∧ ∀ n, ¬ Reads t n := by
  cases order with
  | none => simp [orderLine]
  | some t =>
    have hl : t.len = t.tables.card := rfl
    simp only [orderLine, Option.some.injEq, exists_eq_left']
    have hw : walk t = none ↔ ∀ n, ¬ Reads t n := by
      simp only [← walk_iff]
      cases walk t <;> simp
    by_cases hk : t.len < k
    · rw [if_pos hk]
      simp only [reduceCtorEq, false_iff, not_and]
      omega
    · rw [if_neg hk, Option.map_eq_none_iff, hw]
      exact ⟨fun h => ⟨by omega, h⟩, fun h => h.2⟩

/-! ### Lists -/

theorem mapAll_mem {α β : Type} {f : α → Option β} {l : List α} {r : List β} (h : mapAll f l = some r) (y : β) :
    y ∈ r ↔ ∃ x ∈ l, f x = some y := by
  induction l generalizing r with
  | nil => simp only [mapAll, Option.some.injEq] at h; subst h; simp
  | cons x xs ih =>
    simp only [mapAll, Option.bind_eq_some_iff, Option.map_eq_some_iff] at h
    obtain ⟨y', hy, ys, hys, rfl⟩ := h
    simp only [List.mem_cons, ih hys, exists_eq_or_imp, hy, Option.some.injEq]
    constructor
    · rintro (rfl | h)
      · exact .inl rfl
      · exact .inr h
    · rintro (rfl | h)
      · exact .inl rfl
      · exact .inr h

theorem mapAll_none {α β : Type} {f : α → Option β} {l : List α} : mapAll f l = none ↔ ∃ x ∈ l, f x = none := by
  induction l with
  | nil => simp [mapAll]
  | cons x xs ih =>
    simp only [mapAll, List.mem_cons, exists_eq_or_imp, ← ih]
    cases f x <;> simp

theorem mapAll_len {α β : Type} {f : α → Option β} {l : List α} {r : List β} (h : mapAll f l = some r) :
    r.length = l.length := by
  induction l generalizing r with
  | nil => simp only [mapAll, Option.some.injEq] at h; subst h; rfl
  | cons x xs ih =>
    simp only [mapAll, Option.bind_eq_some_iff, Option.map_eq_some_iff] at h
    obtain ⟨y', hy, ys, hys, rfl⟩ := h
    simp [ih hys]

theorem many_some {w : Workers} {n : Nat} : many w = some n ↔ w = some n ∧ 1 < n := by
  unfold many
  cases w with
  | none => simp
  | some m =>
    simp only [Option.some.injEq]
    by_cases h : 1 < m
    · rw [if_pos h]; simp only [Option.some.injEq]; constructor
      · rintro rfl; exact ⟨rfl, h⟩
      · rintro ⟨rfl, -⟩; rfl
    · rw [if_neg h]; simp only [reduceCtorEq, false_iff, not_and]; rintro rfl; exact h

theorem many_isSome {w : Workers} : (many w).isSome = true ↔ Parallel w := by
  rw [Option.isSome_iff_exists]
  simp only [many_some, Parallel]

/-! ### Lines of pg_hint_plan -/

theorem hpScans_op (used : Bool) (ss : List ScanAssign) (name : String) (T : Finset Nat) (w : Option Nat) :
    Line.op name T w ∈ (hpScans used ss).1 ↔ ∃ s ∈ ss, name = hpScan s.op ∧ T = {s.table} ∧ w = none := by
  induction ss generalizing used with
  | nil => simp [hpScans]
  | cons s ss ih =>
    simp only [hpScans]
    split <;> simp only [List.mem_cons, Line.op.injEq, ih, reduceCtorEq, false_or, exists_eq_or_imp]

theorem hpScans_shape (used : Bool) (ss : List ScanAssign) (l : Line) (h : l ∈ (hpScans used ss).1) :
    (∃ n T w, l = .op n T w) ∨ ∃ T n, l = .parallel T n := by
  induction ss generalizing used with
  | nil => simp [hpScans] at h
  | cons s ss ih =>
    simp only [hpScans] at h
    split at h
    · simp only [List.mem_cons] at h
      rcases h with rfl | rfl | h
      · exact .inl ⟨_, _, _, rfl⟩
      · exact .inr ⟨_, _, rfl⟩
      · exact ih _ h
    · simp only [List.mem_cons] at h
      rcases h with rfl | h
      · exact .inl ⟨_, _, _, rfl⟩
      · exact ih _ h

theorem hpScans_used (used : Bool) (ss : List ScanAssign) :
    (hpScans used ss).2 = true ↔ used = true ∨ ∃ s ∈ ss, Parallel s.workers := by
  induction ss generalizing used with
  | nil => simp [hpScans]
  | cons s ss ih =>
    simp only [hpScans]
    split
    · rename_i h
      simp only [ih, true_or, true_iff]
      exact .inr ⟨s, by simp, many_isSome.1 h.2⟩
    · rename_i h
      simp only [ih, List.mem_cons, exists_eq_or_imp]
      rw [many_isSome] at h
      cases used <;> simp_all

theorem hpScans_true (ss : List ScanAssign) (T : Finset Nat) (n : Nat) : Line.parallel T n ∉ (hpScans true ss).1 := by
  induction ss with
  | nil => simp [hpScans]
  | cons s ss ih => simp [hpScans, ih]

theorem hpScans_parallel (ss : List ScanAssign) (T : Finset Nat) (n : Nat) :
    Line.parallel T n ∈ (hpScans false ss).1 ↔
      ∃ l s r, ss = l ++ s :: r ∧ (∀ x ∈ l, ¬ Parallel x.workers) ∧ s.workers = some n ∧ 1 < n ∧ T = {s.table} := by
  induction ss with
  | nil => simp [hpScans]
  | cons s ss ih =>
    simp only [hpScans]
    by_cases hs : (many s.workers).isSome = true
    · rw [if_pos ⟨trivial, hs⟩]
      simp only [List.mem_cons, reduceCtorEq, false_or, hpScans_true, or_false, Line.parallel.injEq]
      obtain ⟨m, hm⟩ := Option.isSome_iff_exists.1 hs
      have hm' := many_some.1 hm
      simp only [hm, Option.getD_some]
      constructor
      · rintro ⟨rfl, rfl⟩
        exact ⟨[], s, ss, rfl, by simp, hm'.1, hm'.2, rfl⟩
      · rintro ⟨l, s', r, e, hl, hw, hn, rfl⟩
        cases l with
        | nil =>
          simp only [List.nil_append, List.cons.injEq] at e
          obtain ⟨rfl, rfl⟩ := e
          rw [hm'.1] at hw
          exact ⟨rfl, (Option.some.inj hw).symm⟩
        | cons x l =>
          simp only [List.cons_append, List.cons.injEq] at e
          obtain ⟨rfl, -⟩ := e
          exact absurd (many_isSome.1 hs) (hl s (by simp))
    · rw [if_neg (fun h => hs h.2)]
      simp only [List.mem_cons, reduceCtorEq, false_or, ih]
      rw [many_isSome] at hs
      constructor
      · rintro ⟨l, s', r, rfl, hl, h⟩
        refine ⟨s :: l, s', r, rfl, ?_, h⟩
        intro x hx
        rcases List.mem_cons.1 hx with rfl | hx
        · exact hs
        · exact hl x hx
      · rintro ⟨l, s', r, e, hl, hw, hn, rfl⟩
        cases l with
        | nil =>
          simp only [List.nil_append, List.cons.injEq] at e
          obtain ⟨rfl, rfl⟩ := e
          exact absurd ⟨n, hw, hn⟩ hs
        | cons x l =>
          simp only [List.cons_append, List.cons.injEq] at e
          obtain ⟨rfl, rfl⟩ := e
          exact ⟨l, s', r, rfl, fun x hx => hl x (by simp [hx]), hw, hn, rfl⟩

theorem hpScans_count (used : Bool) (ss : List ScanAssign) :
    ((hpScans used ss).1.filter IsParallel).length = if used then 0 else if (hpScans used ss).2 then 1 else 0 := by
  induction ss generalizing used with
  | nil => cases used <;> simp [hpScans]
  | cons s ss ih =>
    have hu : (hpScans true ss).2 = true := (hpScans_used true ss).2 (.inl rfl)
    cases used with
    | true =>
      have := ih true
      simp only [hpScans, List.filter_cons, IsParallel]
      simpa [IsParallel] using this
    | false =>
      by_cases hs : (many s.workers).isSome = true
      · have := ih true
        simp only [hpScans, hs, List.filter_cons, IsParallel]
        simp only [and_self, if_true, List.filter_cons, IsParallel, hu]
        simpa using this
      · have := ih false
        simp only [hpScans, hs, List.filter_cons, IsParallel]
        simpa [List.filter_cons, IsParallel] using this

/-- The membership in the lines of pg_hint_plan. -/
theorem hp_lines {enum : Finset Nat → List Nat} {geqo n : Nat} {order : Option (JT.Tree A)} {ops : Option OpAssign}
    {params : Option Params} {b : Block} (h : pgHintPlan enum geqo n order ops params = some b) :
    ∃ ol os, orderLine 2 order = some ol ∧ hpOps? enum ops = some os ∧ b.prep = settings? params ∧
      ∀ l, l ∈ b.lines ↔ (geqo < n ∧ l = .geqoOff) ∨ l ∈ ol ∨ l ∈ os.1 ∨ l ∈ hpParams os.2 params := by
  simp only [pgHintPlan, Option.bind_eq_some_iff, Option.map_eq_some_iff] at h
  obtain ⟨ol, hol, os, hos, rfl⟩ := h
  refine ⟨ol, os, hol, hos, rfl, ?_⟩
  intro l
  simp only [List.mem_append]
  by_cases hg : geqo < n
  · simp [hg, or_assoc]
  · simp [hg, or_assoc]

theorem hpOps_lines {enum : Finset Nat → List Nat} {a : OpAssign} {os : List Line × Bool} (h : hpOps enum a = some os) :
    ∃ js gs, mapAll (hpJoin enum (hpScans false a.scans.values).2) a.joins.values = some js ∧ setLines a.globals = some gs ∧
      os = ((hpScans false a.scans.values).1 ++ js.flatten ++ hpInters a.inters ++ gs, (hpScans false a.scans.values).2) := by
  simp only [hpOps, Option.bind_eq_some_iff, Option.map_eq_some_iff] at h
  obtain ⟨js, hjs, gs, hgs, rfl⟩ := h
  exact ⟨js, gs, hjs, hgs, rfl⟩

theorem setLines_mem {g : List (PhysOp × Bool)} {gs : List Line} (h : setLines g = some gs) (l : Line) :
    l ∈ gs ↔ ∃ e ∈ g, ∃ n, postgresSetting e.1 = some n ∧ l = .set n e.2 := by
  have hp : ∀ o, pgSetting o = postgresSetting o := by
    rintro (o | o | o) <;> cases o <;> rfl
  rw [mapAll_mem h]
  simp only [Option.map_eq_some_iff, hp]
  constructor
  · rintro ⟨e, he, m, hm, rfl⟩; exact ⟨e, he, m, hm, rfl⟩
  · rintro ⟨e, he, m, hm, rfl⟩; exact ⟨e, he, m, hm, rfl⟩

theorem setLines_none {g : List (PhysOp × Bool)} : setLines g = none ↔ ∃ v, (PhysOp.join .indexNlj, v) ∈ g := by
  unfold setLines
  rw [mapAll_none]
  constructor
  · rintro ⟨⟨o, v⟩, he, h⟩
    have : o = .join .indexNlj := by
      rcases o with (o | o | o) <;> cases o <;> simp [pgSetting] at h ⊢
    subst this
    exact ⟨v, he⟩
  · rintro ⟨v, hv⟩
    exact ⟨_, hv, by simp [pgSetting]⟩

theorem hpJoin_mem {enum : Finset Nat → List Nat} {used : Bool} {j : JoinAssign} {ls : List Line}
    (h : hpJoin enum used j = some ls) (l : Line) :
    l ∈ ls ↔ (∃ n, joinName j.op = some n ∧ l = .op n j.join none) ∨
      (used = false ∧ ∃ t ∈ enum j.join, ∃ w, j.workers = some w ∧ 1 < w ∧ l = .parallel {t} w) := by
  simp only [hpJoin, Option.map_eq_some_iff] at h
  obtain ⟨n, hn, rfl⟩ := h
  simp only [List.mem_cons, hn, Option.some.injEq, exists_eq_left']
  cases used with
  | true => simp
  | false =>
    simp only [Bool.false_eq_true, if_false, true_and]
    cases hm : many j.workers with
    | none =>
      simp only [List.not_mem_nil, or_false]
      constructor
      · exact fun h => .inl h
      · rintro (h | ⟨t, _, w, hw, h1, _⟩)
        · exact h
        · have := many_some.2 ⟨hw, h1⟩; rw [hm] at this; cases this
    | some w =>
      have hw := many_some.1 hm
      simp only [List.mem_map]
      constructor
      · rintro (h | ⟨t, ht, rfl⟩)
        · exact .inl h
        · exact .inr ⟨t, ht, w, hw.1, hw.2, rfl⟩
      · rintro (h | ⟨t, ht, w', hw', h1, rfl⟩)
        · exact .inl h
        · rw [hw.1] at hw'
          cases hw'
          exact .inr ⟨t, ht, rfl⟩

/-- All lines for operators of pg_hint_plan. -/
theorem hpOps_mem {enum : Finset Nat → List Nat} {a : OpAssign} {os : List Line × Bool} (h : hpOps enum a = some os)
    (l : Line) :
    l ∈ os.1 ↔ l ∈ (hpScans false a.scans.values).1 ∨
      (∃ j ∈ a.joins.values, (∃ n, joinName j.op = some n ∧ l = .op n j.join none) ∨
        ((¬ ∃ s ∈ a.scans.values, Parallel s.workers) ∧
          ∃ t ∈ enum j.join, ∃ w, j.workers = some w ∧ 1 < w ∧ l = .parallel {t} w)) ∨
      (∃ e ∈ a.inters, e.2 = .memoize ∧ l = .op "Memoize" e.1 none) ∨
      ∃ e ∈ a.globals, ∃ n, postgresSetting e.1 = some n ∧ l = .set n e.2 := by
  obtain ⟨js, gs, hjs, hgs, rfl⟩ := hpOps_lines h
  have hu : (hpScans false a.scans.values).2 = false ↔ ¬ ∃ s ∈ a.scans.values, Parallel s.workers := by
    have := hpScans_used false a.scans.values
    simp only [Bool.false_eq_true, false_or] at this
    rw [← this]; simp
  simp only [List.mem_append, or_assoc]
  refine or_congr Iff.rfl (or_congr ?_ (or_congr ?_ (setLines_mem hgs l)))
  · rw [List.mem_flatten]
    constructor
    · rintro ⟨ls, hls, hl⟩
      obtain ⟨j, hj, e⟩ := (mapAll_mem hjs ls).1 hls
      have := (hpJoin_mem e l).1 hl
      rw [hu] at this
      exact ⟨j, hj, this⟩
    · rintro ⟨j, hj, hl⟩
      have hn : hpJoin enum (hpScans false a.scans.values).2 j ≠ none := by
        intro e
        have := mapAll_none.2 ⟨j, hj, e⟩
        rw [hjs] at this; cases this
      obtain ⟨ls, hls⟩ := Option.ne_none_iff_exists'.1 hn
      refine ⟨ls, (mapAll_mem hjs ls).2 ⟨j, hj, hls⟩, (hpJoin_mem hls l).2 ?_⟩
      rw [hu]; exact hl
  · simp only [hpInters, List.mem_filterMap, Option.map_eq_some_iff]
    constructor
    · rintro ⟨e, he, n, hn, rfl⟩
      cases ho : e.2 with
      | memoize => rw [ho] at hn; simp only [hpInter, Option.some.injEq] at hn; subst hn; exact ⟨e, he, ho, rfl⟩
      | sort => rw [ho] at hn; simp [hpInter] at hn
      | materialize => rw [ho] at hn; simp [hpInter] at hn
    · rintro ⟨e, he, ho, rfl⟩
      exact ⟨e, he, "Memoize", by rw [ho]; rfl, rfl⟩

theorem cardLines_mem (c : List (Finset Nat × Card)) (l : Line) :
    l ∈ cardLines c ↔ ∃ e ∈ c, e.2.nan = false ∧ e.2.inf = false ∧ l = .card e.1 e.2.value := by
  simp only [cardLines, List.mem_filterMap]
  constructor
  · rintro ⟨e, he, h⟩
    cases hn : e.2.nan <;> cases hi : e.2.inf <;> simp [hn, hi] at h
    exact ⟨e, he, hn, hi, h.symm⟩
  · rintro ⟨e, he, hn, hi, rfl⟩
    exact ⟨e, he, by simp [hn, hi]⟩

theorem hpWorkers_mem (used : Bool) (w : List (Finset Nat × Nat)) (l : Line) :
    l ∈ hpWorkers used w ↔ used = false ∧ ∃ a e r, w = a ++ e :: r ∧ (∀ x ∈ a, x.2 = 1) ∧ e.2 ≠ 1 ∧
      l = .parallel e.1 e.2 := by
  cases used with
  | true => simp [hpWorkers]
  | false =>
    simp only [hpWorkers, Bool.false_eq_true, if_false, true_and]
    induction w with
    | nil => simp
    | cons x w ih =>
      by_cases hx : x.2 = 1
      · have : (x.2 != 1) = false := by simp [hx]
        rw [List.find?_cons, this]
        rw [ih]
        constructor
        · rintro ⟨a, e, r, rfl, ha, h⟩
          refine ⟨x :: a, e, r, rfl, ?_, h⟩
          intro y hy
          rcases List.mem_cons.1 hy with rfl | hy
          · exact hx
          · exact ha y hy
        · rintro ⟨a, e, r, eq, ha, he, h⟩
          cases a with
          | nil =>
            simp only [List.nil_append, List.cons.injEq] at eq
            obtain ⟨rfl, rfl⟩ := eq
            exact absurd hx he
          | cons y a =>
            simp only [List.cons_append, List.cons.injEq] at eq
            obtain ⟨rfl, rfl⟩ := eq
            exact ⟨a, e, r, rfl, fun z hz => ha z (by simp [hz]), he, h⟩
      · have : (x.2 != 1) = true := by simp [hx]
        rw [List.find?_cons, this]
        simp only [Option.map_some, Option.toList_some, List.mem_singleton]
        constructor
        · rintro rfl
          exact ⟨[], x, w, rfl, by simp, hx, rfl⟩
        · rintro ⟨a, e, r, eq, ha, he, rfl⟩
          cases a with
          | nil =>
            simp only [List.nil_append, List.cons.injEq] at eq
            obtain ⟨rfl, rfl⟩ := eq
            rfl
          | cons y a =>
            simp only [List.cons_append, List.cons.injEq] at eq
            obtain ⟨rfl, rfl⟩ := eq
            exact absurd (ha x (by simp)) hx

theorem hpParams_mem (used : Bool) (params : Option Params) (l : Line) :
    l ∈ hpParams used params ↔ ∃ p, params = some p ∧
      ((∃ e ∈ p.cards, e.2.nan = false ∧ e.2.inf = false ∧ l = .card e.1 e.2.value) ∨
       (used = false ∧ ∃ a e r, p.workers = a ++ e :: r ∧ (∀ x ∈ a, x.2 = 1) ∧ e.2 ≠ 1 ∧ l = .parallel e.1 e.2)) := by
  cases params with
  | none => simp [hpParams]
  | some p => simp only [hpParams, List.mem_append, cardLines_mem, hpWorkers_mem, Option.some.injEq, exists_eq_left']

/-- Some scan is assigned more than one worker. -/
def ScanParallel (ops : Option OpAssign) : Prop := ∃ a, ops = some a ∧ ∃ s ∈ a.scans.values, Parallel s.workers

/-- All lines of pg_hint_plan. -/
theorem hp_all {enum : Finset Nat → List Nat} {geqo n : Nat} {order : Option (JT.Tree A)} {ops : Option OpAssign}
    {params : Option Params} {b : Block} (h : pgHintPlan enum geqo n order ops params = some b) (l : Line) :
    l ∈ b.lines ↔ (geqo < n ∧ l = .geqoOff) ∨
      (∃ t m, order = some t ∧ 2 ≤ t.tables.card ∧ Reads t m ∧ l = .order m) ∨
      (∃ a, ops = some a ∧ (l ∈ (hpScans false a.scans.values).1 ∨
        (∃ j ∈ a.joins.values, (∃ n, joinName j.op = some n ∧ l = .op n j.join none) ∨
          ((¬ ∃ s ∈ a.scans.values, Parallel s.workers) ∧
            ∃ t ∈ enum j.join, ∃ w, j.workers = some w ∧ 1 < w ∧ l = .parallel {t} w)) ∨
        (∃ e ∈ a.inters, e.2 = .memoize ∧ l = .op "Memoize" e.1 none) ∨
        ∃ e ∈ a.globals, ∃ n, postgresSetting e.1 = some n ∧ l = .set n e.2)) ∨
      ∃ p, params = some p ∧
        ((∃ e ∈ p.cards, e.2.nan = false ∧ e.2.inf = false ∧ l = .card e.1 e.2.value) ∨
         (¬ ScanParallel ops ∧ ∃ a e r, p.workers = a ++ e :: r ∧ (∀ x ∈ a, x.2 = 1) ∧ e.2 ≠ 1 ∧
           l = .parallel e.1 e.2)) := by
  obtain ⟨ol, os, hol, hos, -, hl⟩ := hp_lines h
  rw [hl, orderLine_mem hol]
  refine or_congr Iff.rfl (or_congr Iff.rfl ?_)
  cases ops with
  | none =>
    simp only [hpOps?, Option.some.injEq] at hos
    subst hos
    rw [hpParams_mem]
    simp [ScanParallel]
  | some a =>
    have hu : os.2 = false ↔ ¬ ScanParallel (some a) := by
      obtain ⟨js, gs, hjs, hgs, rfl⟩ := hpOps_lines hos
      have := hpScans_used false a.scans.values
      simp only [Bool.false_eq_true, false_or] at this
      simp only [ScanParallel, Option.some.injEq, exists_eq_left', ← this]
      simp
    rw [hpParams_mem, hpOps_mem hos, hu]
    simp only [Option.some.injEq, exists_eq_left']

/-! ### C118 join orders -/

/-- C118: the join order hint of pg_hint_plan has exactly the structure and the tables of the given join order. Join
orders of fewer than two tables are not hinted. -/
theorem C118_hint_plan {enum : Finset Nat → List Nat} {geqo n : Nat} {order : Option (JT.Tree A)} {ops : Option OpAssign}
    {params : Option Params} {b : Block} (h : pgHintPlan enum geqo n order ops params = some b) (m : JT.Nested) :
    .order m ∈ b.lines ↔ ∃ t, order = some t ∧ 2 ≤ t.tables.card ∧ Reads t m := by
  rw [hp_all h]
  constructor
  · rintro (⟨_, h⟩ | ⟨t, m', h1, h2, h3, h4⟩ | ⟨a, ha, h⟩ | ⟨p, hp, h⟩)
    · cases h
    · cases h4; exact ⟨t, h1, h2, h3⟩
    · rcases h with h | ⟨j, hj, ⟨_, _, h⟩ | ⟨_, _, _, _, _, _, h⟩⟩ | ⟨_, _, _, h⟩ | ⟨_, _, _, _, h⟩
      · rcases hpScans_shape _ _ _ h with ⟨_, _, _, h⟩ | ⟨_, _, h⟩ <;> cases h
      all_goals cases h
    · rcases h with ⟨_, _, _, _, h⟩ | ⟨_, _, _, _, _, _, _, h⟩ <;> cases h
  · rintro ⟨t, h1, h2, h3⟩
    exact .inr (.inl ⟨t, m, h1, h2, h3, rfl⟩)

/-! ### C119 operators -/

theorem hpScan_name (o : ScanOp) (h : o ≠ .idxScan) : hintPlanName (.scan o) = some (hpScan o) := by
  cases o <;> first | rfl | exact absurd rfl h

theorem joinName_name (o : JoinOp) : hintPlanName (.join o) = joinName o := by cases o <;> rfl

/-- C119 partial: pg_hint_plan gets a hint for exactly the requested operators, with the name of the operator and the
tables of the request. Missing: index scans, see `C119_index_scan_violated`. -/
theorem C119_hint_plan_partial {enum : Finset Nat → List Nat} {geqo n : Nat} {order : Option (JT.Tree A)}
    {ops : Option OpAssign} {params : Option Params} {b : Block}
    (h : pgHintPlan enum geqo n order ops params = some b)
    (hi : ∀ a, ops = some a → ∀ s ∈ a.scans.values, s.op ≠ .idxScan) (name : String) (T : Finset Nat) (w : Option Nat) :
    .op name T w ∈ b.lines ↔
      w = none ∧ ∃ a o v, ops = some a ∧ Requested a o T v ∧ hintPlanName o = some name := by
  rw [hp_all h]
  constructor
  · rintro (⟨_, h⟩ | ⟨_, _, _, _, _, h⟩ | ⟨a, ha, h⟩ | ⟨p, hp, h⟩)
    · cases h
    · cases h
    · rcases h with h | ⟨j, hj, ⟨n, hn, h⟩ | ⟨_, _, _, _, _, _, h⟩⟩ | ⟨e, he, ho, h⟩ | ⟨_, _, _, _, h⟩
      · obtain ⟨s, hs, rfl, rfl, rfl⟩ := (hpScans_op _ _ _ _ _).1 h
        exact ⟨rfl, a, .scan s.op, s.workers, ha, .inl ⟨s, hs, rfl, rfl, rfl⟩, hpScan_name _ (hi a ha s hs)⟩
      · cases h
        exact ⟨rfl, a, .join j.op, j.workers, ha, .inr (.inl ⟨j, hj, rfl, rfl, rfl⟩), by rw [joinName_name, hn]⟩
      · cases h
      · cases h
        exact ⟨rfl, a, .inter e.2, none, ha, .inr (.inr ⟨e, he, rfl, rfl, rfl⟩), by rw [ho]; rfl⟩
      · cases h
    · rcases h with ⟨_, _, _, _, h⟩ | ⟨_, _, _, _, _, _, _, h⟩ <;> cases h
  · rintro ⟨rfl, a, o, v, ha, hr, hn⟩
    refine .inr (.inr (.inl ⟨a, ha, ?_⟩))
    rcases hr with ⟨s, hs, rfl, rfl, rfl⟩ | ⟨j, hj, rfl, rfl, rfl⟩ | ⟨e, he, rfl, rfl, rfl⟩
    · rw [hpScan_name _ (hi a ha s hs)] at hn
      exact .inl ((hpScans_op _ _ _ _ _).2 ⟨s, hs, (Option.some.inj hn).symm, rfl, rfl⟩)
    · rw [joinName_name] at hn
      exact .inr (.inl ⟨j, hj, .inl ⟨name, hn, rfl⟩⟩)
    · refine .inr (.inr (.inl ⟨e, he, ?_⟩))
      cases ho : e.2 <;> rw [ho] at hn <;> simp [hintPlanName] at hn
      subst hn
      exact ⟨rfl, rfl⟩

/-- C119 violated: an index scan is hinted as an index-only scan, and no generated block contains an index scan. -/
theorem C119_index_scan_violated {enum : Finset Nat → List Nat} {geqo n : Nat} {order : Option (JT.Tree A)}
    {a : OpAssign} {params : Option Params} {b : Block}
    (h : pgHintPlan enum geqo n order (some a) params = some b) :
    (∀ s ∈ a.scans.values, s.op = .idxScan → .op "IndexOnlyScan" {s.table} none ∈ b.lines) ∧
    ∀ T w, .op "IndexScan" T w ∉ b.lines := by
  constructor
  · intro s hs ho
    exact (hp_all h _).2 (.inr (.inr (.inl ⟨a, rfl, .inl ((hpScans_op _ _ _ _ _).2 ⟨s, hs, by rw [ho]; rfl, rfl, rfl⟩)⟩)))
  · intro T w hl
    rw [hp_all h] at hl
    rcases hl with ⟨_, h⟩ | ⟨_, _, _, _, _, h⟩ | ⟨a, ha, h⟩ | ⟨p, hp, h⟩
    · cases h
    · cases h
    · rcases h with h | ⟨j, hj, ⟨n, hn, h⟩ | ⟨_, _, _, _, _, _, h⟩⟩ | ⟨e, he, ho, h⟩ | ⟨_, _, _, _, h⟩
      · obtain ⟨s, hs, hn, -⟩ := (hpScans_op _ _ _ _ _).1 h
        cases ho : s.op <;> rw [ho] at hn <;> simp [hpScan] at hn
      · simp only [Line.op.injEq] at h
        rw [← h.1] at hn
        cases ho : j.op <;> rw [ho] at hn <;> simp [joinName] at hn
      · cases h
      · simp at h
      · cases h
    · rcases h with ⟨_, _, _, _, h⟩ | ⟨_, _, _, _, _, _, _, h⟩ <;> cases h

/-! ### C120 parallel workers -/

/-- C120: every line that asks pg_hint_plan for parallel workers goes back to a request: to the first scan with more than
one worker, to a join with more than one worker (once for each of its tables), or to the first of the given worker counts
that is not one. Requests for joins and worker counts only matter without a parallel scan. -/
theorem C120_hint_plan {enum : Finset Nat → List Nat} {geqo n : Nat} {order : Option (JT.Tree A)}
    {ops : Option OpAssign} {params : Option Params} {b : Block}
    (h : pgHintPlan enum geqo n order ops params = some b) (T : Finset Nat) (w : Nat) :
    .parallel T w ∈ b.lines ↔
      (∃ a l s r, ops = some a ∧ a.scans.values = l ++ s :: r ∧ (∀ x ∈ l, ¬ Parallel x.workers) ∧ s.workers = some w ∧
        1 < w ∧ T = {s.table}) ∨
      (¬ ScanParallel ops ∧ ∃ a, ops = some a ∧ ∃ j ∈ a.joins.values, j.workers = some w ∧ 1 < w ∧
        ∃ t ∈ enum j.join, T = {t}) ∨
      (¬ ScanParallel ops ∧ ∃ p l r, params = some p ∧ p.workers = l ++ (T, w) :: r ∧ (∀ x ∈ l, x.2 = 1) ∧ w ≠ 1) := by
  rw [hp_all h]
  constructor
  · rintro (⟨_, h⟩ | ⟨_, _, _, _, _, h⟩ | ⟨a, ha, h⟩ | ⟨p, hp, h⟩)
    · cases h
    · cases h
    · rcases h with h | ⟨j, hj, ⟨n, hn, h⟩ | ⟨hs, t, ht, w', hw, h1, h⟩⟩ | ⟨e, he, ho, h⟩ | ⟨_, _, _, _, h⟩
      · obtain ⟨l, s, r, h1, h2, h3, h4, h5⟩ := (hpScans_parallel _ _ _).1 h
        exact .inl ⟨a, l, s, r, ha, h1, h2, h3, h4, h5⟩
      · cases h
      · cases h
        refine .inr (.inl ⟨?_, a, ha, j, hj, hw, h1, t, ht, rfl⟩)
        rintro ⟨a', ha', h'⟩
        rw [ha] at ha'; cases ha'
        exact hs h'
      · cases h
      · cases h
    · rcases h with ⟨_, _, _, _, h⟩ | ⟨hs, l, e, r, h1, h2, h3, h⟩
      · cases h
      · cases h
        exact .inr (.inr ⟨hs, p, l, r, hp, h1, h2, h3⟩)
  · rintro (⟨a, l, s, r, ha, h⟩ | ⟨hs, a, ha, j, hj, hw, h1, t, ht, rfl⟩ | ⟨hs, p, l, r, hp, h1, h2, h3⟩)
    · exact .inr (.inr (.inl ⟨a, ha, .inl ((hpScans_parallel _ _ _).2 ⟨l, s, r, h⟩)⟩))
    · refine .inr (.inr (.inl ⟨a, ha, .inr (.inl ⟨j, hj, .inr ⟨?_, t, ht, w, hw, h1, rfl⟩⟩)⟩))
      exact fun h' => hs ⟨a, ha, h'⟩
    · exact .inr (.inr (.inr ⟨p, hp, .inr ⟨hs, l, (T, w), r, h1, h2, h3, rfl⟩⟩))

theorem count_zero {l : List Line} (h : ∀ x ∈ l, IsParallel x = false) : (l.filter IsParallel).length = 0 := by
  rw [List.length_eq_zero_iff, List.filter_eq_nil_iff]
  intro x hx; simp [h x hx]

/-- C120 partial: there is at most one line for parallel workers if no join has more than one worker. Missing: parallel
joins, see `C120_joins_violated`. -/
theorem C120_single_partial {enum : Finset Nat → List Nat} {geqo n : Nat} {order : Option (JT.Tree A)}
    {ops : Option OpAssign} {params : Option Params} {b : Block}
    (h : pgHintPlan enum geqo n order ops params = some b)
    (hj : ∀ a, ops = some a → ∀ j ∈ a.joins.values, ¬ Parallel j.workers) :
    (b.lines.filter IsParallel).length ≤ 1 := by
  simp only [pgHintPlan, Option.bind_eq_some_iff, Option.map_eq_some_iff] at h
  obtain ⟨ol, hol, os, hos, rfl⟩ := h
  have z1 : ((if geqo < n then [Line.geqoOff] else []).filter IsParallel).length = 0 := by
    split <;> simp [IsParallel]
  have z2 : (ol.filter IsParallel).length = 0 := by
    apply count_zero
    intro l hl
    obtain ⟨t, m, _, _, _, rfl⟩ := (orderLine_mem hol l).1 hl
    rfl
  have zc : ∀ c, ((cardLines c).filter IsParallel).length = 0 := by
    intro c
    apply count_zero
    intro l hl
    obtain ⟨e, _, _, _, rfl⟩ := (cardLines_mem c l).1 hl
    rfl
  have z3 : ((hpParams os.2 params).filter IsParallel).length ≤ if os.2 then 0 else 1 := by
    cases params with
    | none => simp [hpParams]
    | some p =>
      simp only [hpParams, List.filter_append, List.length_append, zc, hpWorkers]
      cases os.2 with
      | true => simp
      | false =>
        cases List.find? (fun e : Finset Nat × Nat => e.2 != 1) p.workers <;>
          simp [List.filter_cons, IsParallel]
  have z4 : (os.1.filter IsParallel).length = if os.2 then 1 else 0 := by
    cases ops with
    | none => simp only [hpOps?, Option.some.injEq] at hos; subst hos; simp
    | some a =>
      obtain ⟨js, gs, hjs, hgs, rfl⟩ := hpOps_lines hos
      have y1 : (js.flatten.filter IsParallel).length = 0 := by
        apply count_zero
        intro l hl
        obtain ⟨ls, hls, hl⟩ := List.mem_flatten.1 hl
        obtain ⟨j, hj', e⟩ := (mapAll_mem hjs ls).1 hls
        rcases (hpJoin_mem e l).1 hl with ⟨_, _, rfl⟩ | ⟨_, _, _, w, hw, h1, rfl⟩
        · rfl
        · exact absurd ⟨w, hw, h1⟩ (hj a rfl j hj')
      have y2 : ((hpInters a.inters).filter IsParallel).length = 0 := by
        apply count_zero
        intro l hl
        simp only [hpInters, List.mem_filterMap, Option.map_eq_some_iff] at hl
        obtain ⟨_, _, _, _, rfl⟩ := hl
        rfl
      have y3 : (gs.filter IsParallel).length = 0 := by
        apply count_zero
        intro l hl
        obtain ⟨_, _, _, _, rfl⟩ := (setLines_mem hgs l).1 hl
        rfl
      simp only [List.filter_append, List.length_append, y1, y2, y3, hpScans_count]
      simp
  simp only [List.filter_append, List.length_append, z1, z2, z4]
  cases hu : os.2 <;> simp [hu] at z3 ⊢ <;> omega

/-- C120 violated: without parallel scans, every join with more than one worker produces a line for each of its tables,
so a single join of two tables already leads to two lines. -/
theorem C120_joins_violated (enum : Finset Nat → List Nat) (henum : enum {0, 1} = [0, 1]) (op : JoinOp)
    (hop : op ≠ .indexNlj) (w : Nat) (hw : 1 < w) :
    ∃ b, pgHintPlan (A := Nat) enum 12 2 none (some (OpAssign.empty.run [.join ⟨op, {0, 1}, some w, none⟩])) none = some b ∧
      (b.lines.filter IsParallel).length = 2 := by
  have : joinName op ≠ none := by cases op <;> simp [joinName] at hop ⊢
  obtain ⟨name, hname⟩ := Option.ne_none_iff_exists'.1 this
  refine ⟨⟨[], [.op name {0, 1} none, .parallel {0} w, .parallel {1} w]⟩, ?_, by simp [List.filter_cons, IsParallel]⟩
  have hm : many (some w) = some w := many_some.2 ⟨rfl, hw⟩
  simp [pgHintPlan, orderLine, hpOps?, hpOps, OpAssign.run, OpAssign.step, OpAssign.setJoin, OpAssign.empty, Dict.set,
    Dict.values, hpScans, mapAll, hpJoin, hname, hm, henum, setLines, hpInters, hpParams, settings?]

/-- C120 violated: the worker count of an intermediate of several tables is hinted as one line over all of these tables,
although pg_hint_plan accepts parallel workers for single tables only. -/
theorem C120_intermediate_violated (enum : Finset Nat → List Nat) (geqo n : Nat) (T : Finset Nat) (w : Nat) (hT : 1 < T.card)
    (hw : w ≠ 1) :
    ∃ b, pgHintPlan (A := Nat) enum geqo n none none (some ⟨[], [(T, w)], [], none⟩) = some b ∧ .parallel T w ∈ b.lines := by
  refine ⟨_, rfl, ?_⟩
  simp [hpParams, hpWorkers, hw]

/-! ### C121 cardinalities -/

/-- C121: pg_hint_plan gets exactly the known and finite cardinalities. -/
theorem C121_hint_plan {enum : Finset Nat → List Nat} {geqo n : Nat} {order : Option (JT.Tree A)}
    {ops : Option OpAssign} {params : Option Params} {b : Block}
    (h : pgHintPlan enum geqo n order ops params = some b) (T : Finset Nat) (v : Int) :
    .card T v ∈ b.lines ↔ ∃ p c, params = some p ∧ (T, c) ∈ p.cards ∧ c.nan = false ∧ c.inf = false ∧ c.value = v := by
  rw [hp_all h]
  constructor
  · rintro (⟨_, h⟩ | ⟨_, _, _, _, _, h⟩ | ⟨a, ha, h⟩ | ⟨p, hp, h⟩)
    · cases h
    · cases h
    · rcases h with h | ⟨j, hj, ⟨_, _, h⟩ | ⟨_, _, _, _, _, _, h⟩⟩ | ⟨_, _, _, h⟩ | ⟨_, _, _, _, h⟩
      · rcases hpScans_shape _ _ _ h with ⟨_, _, _, h⟩ | ⟨_, _, h⟩ <;> cases h
      all_goals cases h
    · rcases h with ⟨e, he, h1, h2, h⟩ | ⟨_, _, _, _, _, _, _, h⟩
      · cases h; exact ⟨p, e.2, hp, he, h1, h2, rfl⟩
      · cases h
  · rintro ⟨p, c, hp, hc, h1, h2, rfl⟩
    exact .inr (.inr (.inr ⟨p, hp, .inl ⟨(T, c), hc, h1, h2, rfl⟩⟩))

/-! ### C122 settings and failures -/

/-- C122: pg_hint_plan gets exactly the global settings of operators, the genetic optimizer is disabled exactly for
queries with more tables than the threshold, and the system settings become statements that run before the query. -/
theorem C122_hint_plan {enum : Finset Nat → List Nat} {geqo n : Nat} {order : Option (JT.Tree A)}
    {ops : Option OpAssign} {params : Option Params} {b : Block}
    (h : pgHintPlan enum geqo n order ops params = some b) :
    (∀ name v, .set name v ∈ b.lines ↔ ∃ a o, ops = some a ∧ (o, v) ∈ a.globals ∧ postgresSetting o = some name) ∧
    (.geqoOff ∈ b.lines ↔ geqo < n) ∧
    ∀ x, x ∈ b.prep ↔ ∃ p, params = some p ∧ x ∈ p.settings := by
  refine ⟨?_, ?_, ?_⟩
  · intro name v
    rw [hp_all h]
    constructor
    · rintro (⟨_, h⟩ | ⟨_, _, _, _, _, h⟩ | ⟨a, ha, h⟩ | ⟨p, hp, h⟩)
      · cases h
      · cases h
      · rcases h with h | ⟨j, hj, ⟨_, _, h⟩ | ⟨_, _, _, _, _, _, h⟩⟩ | ⟨_, _, _, h⟩ | ⟨e, he, m, hm, h⟩
        · rcases hpScans_shape _ _ _ h with ⟨_, _, _, h⟩ | ⟨_, _, h⟩ <;> cases h
        · cases h
        · cases h
        · cases h
        · cases h; exact ⟨a, e.1, ha, he, hm⟩
      · rcases h with ⟨e, he, h1, h2, h⟩ | ⟨_, _, _, _, _, _, _, h⟩ <;> cases h
    · rintro ⟨a, o, ha, ho, hn⟩
      exact .inr (.inr (.inl ⟨a, ha, .inr (.inr (.inr ⟨(o, v), ho, name, hn, rfl⟩))⟩))
  · rw [hp_all h]
    constructor
    · rintro (⟨h, _⟩ | ⟨_, _, _, _, _, h⟩ | ⟨a, ha, h⟩ | ⟨p, hp, h⟩)
      · exact h
      · cases h
      · rcases h with h | ⟨j, hj, ⟨_, _, h⟩ | ⟨_, _, _, _, _, _, h⟩⟩ | ⟨_, _, _, h⟩ | ⟨e, he, m, hm, h⟩
        · rcases hpScans_shape _ _ _ h with ⟨_, _, _, h⟩ | ⟨_, _, h⟩ <;> cases h
        all_goals cases h
      · rcases h with ⟨e, he, h1, h2, h⟩ | ⟨_, _, _, _, _, _, _, h⟩ <;> cases h
    · exact fun h => .inl ⟨h, rfl⟩
  · obtain ⟨_, _, _, _, hp, _⟩ := hp_lines h
    intro x
    rw [hp]
    cases params <;> simp [settings?]

theorem joinName_none (o : JoinOp) : joinName o = none ↔ o = .indexNlj := by cases o <;> simp [joinName]

/-- C122: the generation for pg_hint_plan fails exactly if the join order of at least two tables contains an empty join
tree, or an index nested-loop join is requested or globally enabled or disabled. -/
theorem C122_hint_plan_fails {enum : Finset Nat → List Nat} {geqo n : Nat} {order : Option (JT.Tree A)}
    {ops : Option OpAssign} {params : Option Params} :
    pgHintPlan enum geqo n order ops params = none ↔
      (∃ t, order = some t ∧ 2 ≤ t.tables.card ∧ ∀ m, ¬ Reads t m) ∨
      ∃ a, ops = some a ∧ ((∃ T v, Requested a (.join .indexNlj) T v) ∨ ∃ v, (PhysOp.join .indexNlj, v) ∈ a.globals) := by
  rw [← orderLine_none]
  simp only [pgHintPlan, Option.bind_eq_none_iff, Option.map_eq_none_iff]
  have hops : hpOps? enum ops = none ↔
      ∃ a, ops = some a ∧ ((∃ T v, Requested a (.join .indexNlj) T v) ∨ ∃ v, (PhysOp.join .indexNlj, v) ∈ a.globals) := by
    cases ops with
    | none => simp [hpOps?]
    | some a =>
      have hr : (∃ T v, Requested a (.join .indexNlj) T v) ↔ ∃ j ∈ a.joins.values, j.op = .indexNlj := by
        constructor
        · rintro ⟨T, v, ⟨_, _, h, _⟩ | ⟨j, hj, h, _⟩ | ⟨_, _, h, _⟩⟩
          · cases h
          · simp only [PhysOp.join.injEq] at h; exact ⟨j, hj, h.symm⟩
          · cases h
        · rintro ⟨j, hj, h⟩
          exact ⟨j.join, j.workers, .inr (.inl ⟨j, hj, by rw [h], rfl, rfl⟩)⟩
      have hj : ∀ u, mapAll (hpJoin enum u) a.joins.values = none ↔ ∃ j ∈ a.joins.values, j.op = .indexNlj := by
        intro u
        rw [mapAll_none]
        simp only [hpJoin, Option.map_eq_none_iff, joinName_none]
      simp only [hpOps?, hpOps, Option.some.injEq, exists_eq_left', hr, ← setLines_none,
        ← hj (hpScans false a.scans.values).2]
      cases mapAll (hpJoin enum (hpScans false a.scans.values).2) a.joins.values <;>
        cases setLines a.globals <;> simp
  rw [← hops]
  cases orderLine 2 order <;> cases hpOps? enum ops <;> simp

/-! ### pg_lab -/

/-- The operators that pg_lab uses: those given, with the worker counts of the parameters. -/
inductive Effective : Option OpAssign → Option Params → Option OpAssign → Prop
  | noOps (params : Option Params) : Effective none params none
  | noParams (a : OpAssign) : Effective (some a) none (some a)
  | both (a : OpAssign) (p : Params) (r : OpAssign) : a.integrateWorkers p false = some r → Effective (some a) (some p) (some r)

theorem integrate_iff (ops : Option OpAssign) (params : Option Params) (r : Option OpAssign) :
    labIntegrate ops params = some r ↔ Effective ops params r := by
  cases ops with
  | none =>
    have : labIntegrate none params = some none := by cases params <;> rfl
    rw [this]
    exact ⟨fun h => by cases h; exact .noOps _, fun h => by cases h; rfl⟩
  | some a =>
    cases params with
    | none => exact ⟨fun h => by cases h; exact .noParams _, fun h => by cases h; rfl⟩
    | some p =>
      have : labIntegrate (some a) (some p) = (a.integrateWorkers p false).map some := by
        simp only [labIntegrate]
        split
        · rename_i h
          simp only [List.isEmpty_iff] at h
          simp [OpAssign.integrateWorkers, h]
        · rfl
      rw [this, Option.map_eq_some_iff]
      constructor
      · rintro ⟨x, hx, rfl⟩; exact .both _ _ _ hx
      · intro h
        cases h with
        | both _ _ r h => exact ⟨r, h, rfl⟩

/-- More than one worker. -/
def parB : Workers → Bool
  | some n => decide (1 < n)
  | none => false

theorem parB_iff (w : Workers) : parB w = true ↔ Parallel w := by
  cases w with
  | none => simp [parB, Parallel]
  | some n =>
    simp only [parB, decide_eq_true_eq, Parallel, Option.some.injEq]
    exact ⟨fun h => ⟨n, rfl, h⟩, fun ⟨m, e, h⟩ => e ▸ h⟩

/-- At most one scan or join has more than one worker. -/
def OneParallel (a : OpAssign) : Prop :=
  (a.scans.values.filter fun s => parB s.workers).length + (a.joins.values.filter fun j => parB j.workers).length ≤ 1

/-- The workers that appear in a hint. -/
def Shown (v : Workers) (w : Option Nat) : Prop := (Parallel v ∧ w = v) ∨ (¬ Parallel v ∧ w = none)

theorem many_shown (v : Workers) (w : Option Nat) : many v = w ↔ Shown v w := by
  unfold Shown
  cases h : many v with
  | none =>
    have : ¬ Parallel v := fun ⟨n, hn, h1⟩ => by rw [many_some.2 ⟨hn, h1⟩] at h; cases h
    simp only [this, false_and, not_false_eq_true, true_and, false_or]
    exact eq_comm
  | some n =>
    have h' := many_some.1 h
    have : Parallel (some n) := ⟨n, rfl, h'.2⟩
    simp only [this, true_and, not_true_eq_false, false_and, or_false, h'.1]
    exact eq_comm

theorem many_parB (v : Workers) : (many v).isSome = parB v := by
  cases h : parB v with
  | true => exact many_isSome.2 ((parB_iff v).1 h)
  | false =>
    cases h' : (many v).isSome with
    | false => rfl
    | true => rw [(parB_iff v).2 (many_isSome.1 h')] at h; cases h

theorem labLoop_cons (st : Lab) (e : Option String × Finset Nat × Workers) (l) :
    labLoop st (e :: l) = (st.step e).bind fun st => labLoop st l := by
  simp [labLoop, List.foldlM_cons]

theorem lab_step_some {st st' : Lab} {e : Option String × Finset Nat × Workers} (h : st.step e = some st') :
    ∃ name, e.1 = some name ∧
      ((parB e.2.2 = true ∧ st.used = true ∧ ∃ x, st.last = some x ∧ st' = ⟨true, some x, st.lines ++ [x]⟩) ∨
       ((parB e.2.2 = true → st.used = false) ∧
        st' = ⟨st.used || parB e.2.2, some (.op name e.2.1 (many e.2.2)), st.lines ++ [.op name e.2.1 (many e.2.2)]⟩)) := by
  simp only [Lab.step, Option.bind_eq_some_iff] at h
  obtain ⟨name, hn, h⟩ := h
  refine ⟨name, hn, ?_⟩
  rw [← many_parB]
  cases hm : many e.2.2 with
  | none =>
    rw [hm] at h
    simp only [Option.some.injEq] at h
    refine .inr ⟨by simp, ?_⟩
    rw [← h]; simp
  | some w =>
    rw [hm] at h
    cases hu : st.used with
    | true =>
      simp only [hu, if_true, Option.map_eq_some_iff] at h
      obtain ⟨x, hx, rfl⟩ := h
      exact .inl ⟨rfl, rfl, x, hx, by cases st; simp_all⟩
    | false =>
      simp only [hu, Bool.false_eq_true, if_false, Option.some.injEq] at h
      exact .inr ⟨fun _ => rfl, by rw [← h]; rfl⟩

theorem labLoop_lines {st st' : Lab} {l : List (Option String × Finset Nat × Workers)} (h : labLoop st l = some st')
    (hc : (l.filter fun e => parB e.2.2).length + (if st.used then 1 else 0) ≤ 1) (x : Line) :
    x ∈ st'.lines ↔ x ∈ st.lines ∨ ∃ e ∈ l, ∃ n, e.1 = some n ∧ x = .op n e.2.1 (many e.2.2) := by
  induction l generalizing st with
  | nil => simp only [labLoop, List.foldlM_nil] at h; cases h; simp
  | cons e l ih =>
    rw [labLoop_cons, Option.bind_eq_some_iff] at h
    obtain ⟨st1, h1, h2⟩ := h
    obtain ⟨name, hn, ⟨hp, hu, -⟩ | ⟨hp, rfl⟩⟩ := lab_step_some h1
    · simp only [List.filter_cons, hp, hu, if_true, List.length_cons] at hc
      omega
    · rw [ih h2]
      · simp only [List.mem_append, List.mem_singleton, List.mem_cons, exists_eq_or_imp, hn, Option.some.injEq,
          exists_eq_left', or_assoc, List.not_mem_nil, false_or]
      · cases hq : parB e.2.2 with
        | true =>
          have hu := hp hq
          simp only [List.filter_cons, hq, hu, if_true, List.length_cons] at hc
          simp [hu]; simpa using hc
        | false =>
          simp only [List.filter_cons, hq] at hc
          simpa using hc

theorem labLoop_sound {st st' : Lab} {l : List (Option String × Finset Nat × Workers)} (h : labLoop st l = some st')
    (P : Line → Prop) (h0 : ∀ x ∈ st.lines, P x) (h1 : ∀ x, st.last = some x → P x)
    (h2 : ∀ e ∈ l, ∀ n, e.1 = some n → P (.op n e.2.1 (many e.2.2))) : ∀ x ∈ st'.lines, P x := by
  induction l generalizing st with
  | nil => simp only [labLoop, List.foldlM_nil] at h; cases h; exact h0
  | cons e l ih =>
    rw [labLoop_cons, Option.bind_eq_some_iff] at h
    obtain ⟨st1, e1, e2⟩ := h
    have hP : ∀ y, P y → ∀ x ∈ st.lines ++ [y], P x := by
      intro y hy x hx
      rcases List.mem_append.1 hx with hx | hx
      · exact h0 x hx
      · rw [List.mem_singleton.1 hx]; exact hy
    obtain ⟨name, hn, ⟨hp, hu, y, hy, rfl⟩ | ⟨hp, rfl⟩⟩ := lab_step_some e1
    · exact ih e2 (hP y (h1 y hy)) (fun x hx => by cases hx; exact h1 y hy) (fun e he => h2 e (by simp [he]))
    · have hq := h2 e (by simp) name hn
      exact ih e2 (hP _ hq) (fun x hx => by cases hx; exact hq) (fun e he => h2 e (by simp [he]))

theorem labLoop_none {st : Lab} (hs : st.used = true → st.last ≠ none) (l : List (Option String × Finset Nat × Workers)) :
    labLoop st l = none ↔ ∃ e ∈ l, e.1 = none := by
  induction l generalizing st with
  | nil => simp [labLoop]
  | cons e l ih =>
    rw [labLoop_cons]
    cases he : st.step e with
    | none =>
      simp only [Option.bind_none, true_iff]
      refine ⟨e, by simp, ?_⟩
      cases hn : e.1 with
      | none => rfl
      | some n =>
        exfalso
        simp only [Lab.step, hn, Option.bind_some] at he
        cases hm : many e.2.2 with
        | none => simp [hm] at he
        | some w =>
          cases hu : st.used with
          | true => simp only [hm, hu, if_true, Option.map_eq_none_iff] at he; exact hs hu he
          | false => simp [hm, hu] at he
    | some st1 =>
      simp only [Option.bind_some]
      obtain ⟨name, hn, h⟩ := lab_step_some he
      have : st1.last ≠ none := by
        rcases h with ⟨_, _, y, _, rfl⟩ | ⟨_, rfl⟩ <;> simp
      rw [ih (fun _ => this)]
      simp [hn]

theorem labName_name (o : PhysOp) : labName o = pgLabName o := by
  rcases o with (o | o | o) <;> cases o <;> rfl

theorem labEntries_mem (a : OpAssign) (n : String) (T : Finset Nat) (v : Workers) :
    (some n, T, v) ∈ labEntries a ↔
      (∃ s ∈ a.scans.values, pgLabName (.scan s.op) = some n ∧ T = {s.table} ∧ v = s.workers) ∨
      ∃ j ∈ a.joins.values, pgLabName (.join j.op) = some n ∧ T = j.join ∧ v = j.workers := by
  simp only [labEntries, List.mem_append, List.mem_map, ← labName_name, labName]
  refine or_congr ?_ ?_
  · constructor
    · rintro ⟨s, hs, e⟩
      simp only [Prod.mk.injEq] at e
      exact ⟨s, hs, e.1, e.2.1.symm, e.2.2.symm⟩
    · rintro ⟨s, hs, e, rfl, rfl⟩
      exact ⟨s, hs, by rw [e]⟩
  · constructor
    · rintro ⟨s, hs, e⟩
      simp only [Prod.mk.injEq] at e
      exact ⟨s, hs, e.1, e.2.1.symm, e.2.2.symm⟩
    · rintro ⟨s, hs, e, rfl, rfl⟩
      exact ⟨s, hs, by rw [e]⟩

/-- The parts of the pg_lab block. -/
theorem lab_parts {order : Option (JT.Tree A)} {ops : Option OpAssign} {params : Option Params} {b : Block}
    (h : pgLab order ops params = some b) :
    ∃ r ol os, Effective ops params r ∧ orderLine 2 order = some ol ∧ labOps? r = some os ∧ b.prep = [] ∧
      ∀ l, l ∈ b.lines ↔ l = .planMode "anchored" ∨ l ∈ ol ∨ l ∈ os ∨ l ∈ labParams? params := by
  simp only [pgLab, Option.bind_eq_some_iff, Option.map_eq_some_iff] at h
  obtain ⟨r, hr, ol, hol, os, hos, rfl⟩ := h
  exact ⟨r, ol, os, (integrate_iff _ _ _).1 hr, hol, hos, rfl, by intro l; simp [or_assoc]⟩

theorem labOps_parts {a : OpAssign} {os : List Line} (h : labOps a = some os) :
    ∃ st is gs, labLoop ⟨false, none, []⟩ (labEntries a) = some st ∧
      mapAll (fun e => (labInter e.2).map fun n => Line.op n e.1 none) a.inters = some is ∧ setLines a.globals = some gs ∧
      os = st.lines ++ is ++ gs := by
  simp only [labOps, Option.bind_eq_some_iff, Option.map_eq_some_iff] at h
  obtain ⟨st, hst, is, his, gs, hgs, rfl⟩ := h
  exact ⟨st, is, gs, hst, his, hgs, rfl⟩

theorem labParams_mem (params : Option Params) (l : Line) :
    l ∈ labParams? params ↔ ∃ p, params = some p ∧
      ((∃ e ∈ p.cards, e.2.nan = false ∧ e.2.inf = false ∧ l = .card e.1 e.2.value) ∨
       (∃ e ∈ p.settings, l = .setting e.1 e.2) ∨
       ∃ m, p.mode = some m ∧ l = .execMode (if m = "sequential" then "sequential" else "parallel")) := by
  cases params with
  | none => simp [labParams?]
  | some p =>
    simp only [labParams?, labParams, List.mem_append, cardLines_mem, Option.some.injEq, exists_eq_left', or_assoc,
      List.mem_map]
    refine or_congr Iff.rfl (or_congr ?_ ?_)
    · exact ⟨fun ⟨e, he, h⟩ => ⟨e, he, h.symm⟩, fun ⟨e, he, h⟩ => ⟨e, he, h.symm⟩⟩
    · cases p.mode <;> simp

theorem labOps_other {r : Option OpAssign} {os : List Line} (h : labOps? r = some os) (l : Line) (hl : l ∈ os) :
    (∃ a o T v w, r = some a ∧ Requested a o T v ∧ Shown v w ∧ ∃ name, pgLabName o = some name ∧ l = .op name T w) ∨
    ∃ a e n, r = some a ∧ e ∈ a.globals ∧ postgresSetting e.1 = some n ∧ l = .set n e.2 := by
  cases r with
  | none => simp only [labOps?, Option.some.injEq] at h; subst h; simp at hl
  | some a =>
    obtain ⟨st, is, gs, hst, his, hgs, rfl⟩ := labOps_parts h
    simp only [List.mem_append] at hl
    rcases hl with (hl | hl) | hl
    · left
      refine labLoop_sound hst (fun l => ∃ a' o T v w, some a = some a' ∧ Requested a' o T v ∧ Shown v w ∧
        ∃ name, pgLabName o = some name ∧ l = .op name T w) (by simp) (by simp) ?_ l hl
      rintro ⟨m, T, v⟩ he n hn
      simp only at hn
      subst hn
      rcases (labEntries_mem a n T v).1 he with ⟨s, hs, e, rfl, rfl⟩ | ⟨j, hj, e, rfl, rfl⟩
      · exact ⟨a, .scan s.op, _, _, many s.workers, rfl, .inl ⟨s, hs, rfl, rfl, rfl⟩, (many_shown _ _).1 rfl, n, e, rfl⟩
      · exact ⟨a, .join j.op, _, _, many j.workers, rfl, .inr (.inl ⟨j, hj, rfl, rfl, rfl⟩), (many_shown _ _).1 rfl, n, e, rfl⟩
    · left
      obtain ⟨e, he, hn⟩ := (mapAll_mem his l).1 hl
      simp only [Option.map_eq_some_iff] at hn
      obtain ⟨n, hn, rfl⟩ := hn
      refine ⟨a, .inter e.2, e.1, none, none, rfl, .inr (.inr ⟨e, he, rfl, rfl, rfl⟩), .inr ⟨?_, rfl⟩, n, ?_, rfl⟩
      · rintro ⟨_, h, _⟩; cases h
      · rw [← labName_name]; exact hn
    · right
      obtain ⟨e, he, n, hn, rfl⟩ := (setLines_mem hgs l).1 hl
      exact ⟨a, e, n, rfl, he, hn, rfl⟩

/-- C118: the join order hint of pg_lab has exactly the structure and the tables of the given join order. Join orders of
fewer than two tables are not hinted. -/
theorem C118_lab {order : Option (JT.Tree A)} {ops : Option OpAssign} {params : Option Params} {b : Block}
    (h : pgLab order ops params = some b) (m : JT.Nested) :
    .order m ∈ b.lines ↔ ∃ t, order = some t ∧ 2 ≤ t.tables.card ∧ Reads t m := by
  obtain ⟨r, ol, os, hr, hol, hos, -, hl⟩ := lab_parts h
  rw [hl, orderLine_mem hol, labParams_mem]
  constructor
  · rintro (h | ⟨t, m', h1, h2, h3, h4⟩ | h | ⟨p, hp, ⟨_, _, _, _, h⟩ | ⟨_, _, h⟩ | ⟨_, _, h⟩⟩)
    · cases h
    · cases h4; exact ⟨t, h1, h2, h3⟩
    · rcases labOps_other hos _ h with ⟨_, _, _, _, _, _, _, _, _, _, h⟩ | ⟨_, _, _, _, _, _, h⟩ <;> cases h
    all_goals cases h
  · rintro ⟨t, h1, h2, h3⟩
    exact .inr (.inl ⟨t, m, h1, h2, h3, rfl⟩)

/-- C119: every operator in a pg_lab block was requested, for the same tables and with the same number of workers. -/
theorem C119_lab_sound {order : Option (JT.Tree A)} {ops r : Option OpAssign} {params : Option Params} {b : Block}
    (h : pgLab order ops params = some b) (he : Effective ops params r) (name : String) (T : Finset Nat) (w : Option Nat)
    (hm : .op name T w ∈ b.lines) :
    ∃ a o v, r = some a ∧ Requested a o T v ∧ pgLabName o = some name ∧ Shown v w := by
  obtain ⟨r', ol, os, hr, hol, hos, -, hl⟩ := lab_parts h
  have : r = r' := by
    have h1 := (integrate_iff _ _ _).2 he
    have h2 := (integrate_iff _ _ _).2 hr
    rw [h1] at h2; exact Option.some.inj h2
  subst this
  rw [hl, orderLine_mem hol, labParams_mem] at hm
  rcases hm with (h | ⟨t, m', h1, h2, h3, h⟩ | h | ⟨p, hp, ⟨_, _, _, _, h⟩ | ⟨_, _, h⟩ | ⟨_, _, h⟩⟩)
  · cases h
  · cases h
  · rcases labOps_other hos _ h with ⟨a, o, T', v, w', h1, h2, h3, n, h4, h⟩ | ⟨_, _, _, _, _, _, h⟩
    · cases h; exact ⟨a, o, v, h1, h2, h4, h3⟩
    · cases h
  all_goals cases h

/-- C119 partial: pg_lab gets a hint for exactly the requested operators, if at most one scan or join has more than one
worker. Missing: several parallel operators, see `C119_lab_violated`. -/
theorem C119_lab_partial {order : Option (JT.Tree A)} {ops r : Option OpAssign} {params : Option Params} {b : Block}
    (h : pgLab order ops params = some b) (he : Effective ops params r) (h1 : ∀ a, r = some a → OneParallel a)
    (name : String) (T : Finset Nat) (w : Option Nat) :
    .op name T w ∈ b.lines ↔ ∃ a o v, r = some a ∧ Requested a o T v ∧ pgLabName o = some name ∧ Shown v w := by
  refine ⟨C119_lab_sound h he name T w, ?_⟩
  rintro ⟨a, o, v, rfl, hreq, hn, hw⟩
  obtain ⟨r', ol, os, hr, hol, hos, -, hl⟩ := lab_parts h
  have : some a = r' := by
    have h1 := (integrate_iff _ _ _).2 he
    have h2 := (integrate_iff _ _ _).2 hr
    rw [h1] at h2; exact Option.some.inj h2
  subst this
  rw [hl]
  refine .inr (.inr (.inl ?_))
  obtain ⟨st, is, gs, hst, his, hgs, rfl⟩ := labOps_parts hos
  simp only [List.mem_append]
  have hc : ((labEntries a).filter fun e => parB e.2.2).length + (if (Lab.mk false none []).used then 1 else 0) ≤ 1 := by
    have := h1 a rfl
    unfold OneParallel at this
    simp only [labEntries, List.filter_append, List.length_append, List.filter_map, List.length_map, Function.comp_def]
    simpa using this
  have key := labLoop_lines hst hc
  have hk : ∀ n T v, (some n, T, v) ∈ labEntries a → Line.op n T (many v) ∈ st.lines :=
    fun n T v h => (key _).2 (.inr ⟨_, h, n, rfl, rfl⟩)
  rw [← many_shown] at hw
  subst hw
  rcases hreq with ⟨s, hs, rfl, rfl, rfl⟩ | ⟨j, hj, rfl, rfl, rfl⟩ | ⟨e, he, rfl, rfl, rfl⟩
  · exact .inl (.inl (hk _ _ _ ((labEntries_mem _ _ _ _).2 (.inl ⟨s, hs, hn, rfl, rfl⟩))))
  · exact .inl (.inl (hk _ _ _ ((labEntries_mem _ _ _ _).2 (.inr ⟨j, hj, hn, rfl, rfl⟩))))
  · refine .inl (.inr ((mapAll_mem his _).2 ⟨e, he, ?_⟩))
    rw [← labName_name] at hn
    simp only [labName] at hn
    simp [hn, many]

/-- C119 violated: if two scans have more than one worker, the operator of the second one is lost. -/
theorem C119_lab_violated (o1 o2 : ScanOp) (t1 t2 w1 w2 : Nat) (ht : t1 ≠ t2) (h1 : 1 < w1) (h2 : 1 < w2) :
    ∃ b, pgLab (A := Nat) none (some (OpAssign.empty.run [.scan ⟨o1, t1, some w1⟩, .scan ⟨o2, t2, some w2⟩])) none = some b ∧
      (∀ name w, .op name {t2} w ∉ b.lines) ∧ (b.lines.filter IsParallel).length = 2 := by
  have hm1 : many (some w1) = some w1 := many_some.2 ⟨rfl, h1⟩
  have hm2 : many (some w2) = some w2 := many_some.2 ⟨rfl, h2⟩
  refine ⟨⟨[], [.planMode "anchored", .op (labScan o1) {t1} (some w1), .op (labScan o1) {t1} (some w1)]⟩, ?_, ?_, ?_⟩
  · simp [pgLab, orderLine, labIntegrate, labOps?, labOps, OpAssign.run, OpAssign.step, OpAssign.setScan, OpAssign.empty,
      Dict.set, Dict.values, labEntries, labLoop_cons, Lab.step, hm1, hm2, ht, setLines, mapAll, labParams?]
    simp [labLoop]
  · intro name w
    simp only [List.mem_cons, reduceCtorEq, Line.op.injEq, List.not_mem_nil, false_or, or_false]
    rintro (⟨_, h, _⟩ | ⟨_, h, _⟩) <;> exact ht (Finset.singleton_inj.1 h).symm
  · simp [List.filter_cons, IsParallel]

/-- C121: pg_lab gets exactly the known and finite cardinalities. -/
theorem C121_lab {order : Option (JT.Tree A)} {ops : Option OpAssign} {params : Option Params} {b : Block}
    (h : pgLab order ops params = some b) (T : Finset Nat) (v : Int) :
    .card T v ∈ b.lines ↔ ∃ p c, params = some p ∧ (T, c) ∈ p.cards ∧ c.nan = false ∧ c.inf = false ∧ c.value = v := by
  obtain ⟨r, ol, os, hr, hol, hos, -, hl⟩ := lab_parts h
  rw [hl, orderLine_mem hol, labParams_mem]
  constructor
  · rintro (h | ⟨t, m', h1, h2, h3, h⟩ | h | ⟨p, hp, ⟨e, he, h1, h2, h⟩ | ⟨_, _, h⟩ | ⟨_, _, h⟩⟩)
    · cases h
    · cases h
    · rcases labOps_other hos _ h with ⟨_, _, _, _, _, _, _, _, _, _, h⟩ | ⟨_, _, _, _, _, _, h⟩ <;> cases h
    · cases h; exact ⟨p, e.2, hp, he, h1, h2, rfl⟩
    all_goals cases h
  · rintro ⟨p, c, hp, hc, h1, h2, rfl⟩
    exact .inr (.inr (.inr ⟨p, hp, .inl ⟨(T, c), hc, h1, h2, rfl⟩⟩))

/-- C122: pg_lab gets exactly the global settings of operators, the system settings and the execution mode; there are no
statements that run before the query. -/
theorem C122_lab {order : Option (JT.Tree A)} {ops r : Option OpAssign} {params : Option Params} {b : Block}
    (h : pgLab order ops params = some b) (he : Effective ops params r) :
    (∀ name v, .set name v ∈ b.lines ↔ ∃ a o, r = some a ∧ (o, v) ∈ a.globals ∧ postgresSetting o = some name) ∧
    (∀ name v, .setting name v ∈ b.lines ↔ ∃ p, params = some p ∧ (name, v) ∈ p.settings) ∧
    (∀ m, .execMode m ∈ b.lines ↔ ∃ p x, params = some p ∧ p.mode = some x ∧
      ((x = "sequential" ∧ m = "sequential") ∨ (x ≠ "sequential" ∧ m = "parallel"))) ∧
    (∀ m, .planMode m ∈ b.lines ↔ m = "anchored") ∧ b.prep = [] := by
  obtain ⟨r', ol, os, hr, hol, hos, hp, hl⟩ := lab_parts h
  have : r = r' := by
    have h1 := (integrate_iff _ _ _).2 he
    have h2 := (integrate_iff _ _ _).2 hr
    rw [h1] at h2; exact Option.some.inj h2
  subst this
  refine ⟨?_, ?_, ?_, ?_, hp⟩
  · intro name v
    rw [hl, orderLine_mem hol, labParams_mem]
    constructor
    · rintro (h | ⟨t, m', h1, h2, h3, h⟩ | h | ⟨p, hp, ⟨e, he, h1, h2, h⟩ | ⟨_, _, h⟩ | ⟨_, _, h⟩⟩)
      · cases h
      · cases h
      · rcases labOps_other hos _ h with ⟨_, _, _, _, _, _, _, _, _, _, h⟩ | ⟨a, e, n, h1, h2, h3, h⟩
        · cases h
        · cases h; exact ⟨a, e.1, h1, h2, h3⟩
      all_goals cases h
    · rintro ⟨a, o, rfl, ho, hn⟩
      obtain ⟨st, is, gs, hst, his, hgs, rfl⟩ := labOps_parts hos
      refine .inr (.inr (.inl ?_))
      simp only [List.mem_append]
      exact .inr ((setLines_mem hgs _).2 ⟨(o, v), ho, name, hn, rfl⟩)
  · intro name v
    rw [hl, orderLine_mem hol, labParams_mem]
    constructor
    · rintro (h | ⟨t, m', h1, h2, h3, h⟩ | h | ⟨p, hp, ⟨e, he, h1, h2, h⟩ | ⟨e, he, h⟩ | ⟨_, _, h⟩⟩)
      · cases h
      · cases h
      · rcases labOps_other hos _ h with ⟨_, _, _, _, _, _, _, _, _, _, h⟩ | ⟨a, e, n, h1, h2, h3, h⟩ <;> cases h
      · cases h
      · cases h; exact ⟨p, hp, he⟩
      · cases h
    · rintro ⟨p, hp, hs⟩
      exact .inr (.inr (.inr ⟨p, hp, .inr (.inl ⟨(name, v), hs, rfl⟩)⟩))
  · intro m
    rw [hl, orderLine_mem hol, labParams_mem]
    constructor
    · rintro (h | ⟨t, m', h1, h2, h3, h⟩ | h | ⟨p, hp, ⟨e, he, h1, h2, h⟩ | ⟨e, he, h⟩ | ⟨x, hx, h⟩⟩)
      · cases h
      · cases h
      · rcases labOps_other hos _ h with ⟨_, _, _, _, _, _, _, _, _, _, h⟩ | ⟨a, e, n, h1, h2, h3, h⟩ <;> cases h
      · cases h
      · cases h
      · simp only [Line.execMode.injEq] at h
        refine ⟨p, x, hp, hx, ?_⟩
        by_cases hx' : x = "sequential"
        · rw [if_pos hx'] at h; exact .inl ⟨hx', h⟩
        · rw [if_neg hx'] at h; exact .inr ⟨hx', h⟩
    · rintro ⟨p, x, hp, hx, h⟩
      refine .inr (.inr (.inr ⟨p, hp, .inr (.inr ⟨x, hx, ?_⟩)⟩))
      rcases h with ⟨rfl, rfl⟩ | ⟨h1, rfl⟩
      · rfl
      · rw [if_neg h1]
  · intro m
    rw [hl, orderLine_mem hol, labParams_mem]
    constructor
    · rintro (h | ⟨t, m', h1, h2, h3, h⟩ | h | ⟨p, hp, ⟨e, he, h1, h2, h⟩ | ⟨e, he, h⟩ | ⟨x, hx, h⟩⟩)
      · cases h; rfl
      · cases h
      · rcases labOps_other hos _ h with ⟨_, _, _, _, _, _, _, _, _, _, h⟩ | ⟨a, e, n, h1, h2, h3, h⟩ <;> cases h
      all_goals cases h
    · rintro rfl; exact .inl rfl

/-- C122: the generation for pg_lab fails exactly if the worker counts cannot be integrated, the join order of at least
two tables contains an empty join tree, a sort operator or an index nested-loop join is requested, or an index
nested-loop join is globally enabled or disabled. -/
theorem C122_lab_fails {order : Option (JT.Tree A)} {ops : Option OpAssign} {params : Option Params} :
    pgLab order ops params = none ↔
      (∀ r, ¬ Effective ops params r) ∨ (∃ t, order = some t ∧ 2 ≤ t.tables.card ∧ ∀ m, ¬ Reads t m) ∨
      ∃ a, Effective ops params (some a) ∧ ((∃ T v, Requested a (.join .indexNlj) T v) ∨
        (∃ T, Requested a (.inter .sort) T none) ∨ ∃ v, (PhysOp.join .indexNlj, v) ∈ a.globals) := by
  rw [← orderLine_none]
  have hops : ∀ a, labOps a = none ↔ (∃ T v, Requested a (.join .indexNlj) T v) ∨
        (∃ T, Requested a (.inter .sort) T none) ∨ ∃ v, (PhysOp.join .indexNlj, v) ∈ a.globals := by
    intro a
    have hr : (∃ T v, Requested a (.join .indexNlj) T v) ↔ labLoop ⟨false, none, []⟩ (labEntries a) = none := by
      rw [labLoop_none (by simp)]
      constructor
      · rintro ⟨T, v, ⟨_, _, h, _⟩ | ⟨j, hj, h, _⟩ | ⟨_, _, h, _⟩⟩
        · cases h
        · simp only [PhysOp.join.injEq] at h
          refine ⟨(none, j.join, j.workers), ?_, rfl⟩
          simp only [labEntries, List.mem_append, List.mem_map]
          exact .inr ⟨j, hj, by rw [(joinName_none _).2 h.symm]⟩
        · cases h
      · rintro ⟨⟨n, T, v⟩, he, hn⟩
        simp only at hn
        subst hn
        simp only [labEntries, List.mem_append, List.mem_map] at he
        rcases he with ⟨s, _, h⟩ | ⟨j, hj, h⟩
        · simp at h
        · simp only [Prod.mk.injEq] at h
          exact ⟨j.join, j.workers, .inr (.inl ⟨j, hj, by rw [(joinName_none _).1 h.1], rfl, rfl⟩)⟩
    have hs : (∃ T, Requested a (.inter .sort) T none) ↔
        mapAll (fun e => (labInter e.2).map fun n => Line.op n e.1 none) a.inters = none := by
      rw [mapAll_none]
      constructor
      · rintro ⟨T, ⟨_, _, h, _⟩ | ⟨j, hj, h, _⟩ | ⟨e, he, h, _⟩⟩
        · cases h
        · cases h
        · simp only [PhysOp.inter.injEq] at h
          exact ⟨e, he, by rw [← h]; rfl⟩
      · rintro ⟨e, he, h⟩
        refine ⟨e.1, .inr (.inr ⟨e, he, ?_, rfl, rfl⟩)⟩
        cases ho : e.2 <;> rw [ho] at h <;> simp [labInter] at h ⊢
    rw [hr, hs, ← setLines_none]
    unfold labOps
    cases labLoop ⟨false, none, []⟩ (labEntries a) <;>
      cases mapAll (fun e => (labInter e.2).map fun n => Line.op n e.1 none) a.inters <;>
      cases setLines a.globals <;> simp
  simp only [← hops, ← integrate_iff, pgLab]
  cases hi : labIntegrate ops params with
  | none => simp
  | some r =>
    simp only [Option.bind_some, Option.some.injEq, forall_eq', not_true_eq_false, false_or]
    cases r with
    | none => cases orderLine 2 order <;> simp [labOps?]
    | some a => cases orderLine 2 order <;> cases labOps a <;> simp_all [labOps?]

/-- C120 violated: the number of workers for a single table does not change the block of pg_lab. -/
theorem C120_lab_scan_violated (order : Option (JT.Tree A)) (a : OpAssign) (p : Params) (t w : Nat) :
    pgLab order (some a) (some { p with workers := [({t}, w)] }) = pgLab order (some a) (some { p with workers := [] }) := by
  have h1 : labIntegrate (some a) (some { p with workers := [({t}, w)] }) = some (some a) := by
    simp [labIntegrate, OpAssign.integrateWorkers, integrateStep, OpAssign.getSet]
  have h2 : labIntegrate (some a) (some { p with workers := [] }) = some (some a) := by
    simp [labIntegrate]
  simp only [pgLab, h1, h2]
  rfl

/-! ### Complete plans -/

theorem planSize_pos (p : Plan) : 0 < planSize p := by
  cases p; simp only [planSize]; omega

theorem planSize_children (p : Plan) : planSize p = 1 + (p.children.map planSize).sum := by
  cases p; simp only [planSize, Plan.children]

theorem iternodes_children (p : Plan) : p.iternodes = (p.children.map Plan.iternodes).flatten ++ [p] := by
  cases p; simp only [Plan.iternodes, Plan.children]

theorem bfsLoop_perm (n : Nat) (q : List Plan) (h : (q.map planSize).sum ≤ n) :
    List.Perm (bfsLoop n q) (q.map Plan.iternodes).flatten := by
  induction n generalizing q with
  | zero =>
    cases q with
    | nil => simp [bfsLoop]
    | cons p q =>
      have := planSize_pos p
      simp only [List.map_cons, List.sum_cons] at h
      omega
  | succ n ih =>
    cases q with
    | nil => simp [bfsLoop]
    | cons p q =>
      have hs := planSize_children p
      simp only [bfsLoop]
      have := ih (q ++ p.children) (by
        simp only [List.map_cons, List.sum_cons] at h
        simp only [List.map_append, List.sum_append]
        omega)
      refine (this.cons p).trans ?_
      simp only [List.map_append, List.flatten_append, List.map_cons, List.flatten_cons]
      rw [iternodes_children p]
      rw [List.append_assoc]
      refine List.Perm.trans ?_ (List.perm_append_comm (l₁ := [p] ++ (q.map Plan.iternodes).flatten)
        (l₂ := (p.children.map Plan.iternodes).flatten))
      simp

/-- C123: the breadth-first traversal visits every node of the plan exactly once, and the root first. -/
theorem C123_bfs (p : Plan) : List.Perm (bfs p) p.iternodes ∧ (bfs p).head? = some p ∧ ∀ x, x ∈ bfs p ↔ QPProps.Node x p := by
  have h1 : List.Perm (bfs p) p.iternodes := by
    have := bfsLoop_perm (planSize p) [p] (by simp)
    simpa [bfs] using this
  refine ⟨h1, ?_, fun x => by rw [h1.mem_iff, QPProps.C79_iternodes]⟩
  unfold bfs
  have := planSize_pos p
  obtain ⟨n, hn⟩ : ∃ n, planSize p = n + 1 := ⟨planSize p - 1, by omega⟩
  rw [hn]; rfl

/-- The level of the occurrences of the nodes in the plan. -/
inductive Level : Plan → Nat → List Plan → Prop
  | zero (p : Plan) : Level p 0 [p]
  | succ (p : Plan) (k : Nat) (l : List Plan) : Level p k l → Level p (k + 1) (l.map Plan.children).flatten

theorem bfsLoop_round (n : Nat) (q r : List Plan) (h : q.length ≤ n) :
    bfsLoop n (q ++ r) = q ++ bfsLoop (n - q.length) (r ++ (q.map Plan.children).flatten) := by
  induction q generalizing n r with
  | nil => simp
  | cons p q ih =>
    cases n with
    | zero => simp at h
    | succ n =>
      simp only [List.length_cons] at h
      simp only [List.cons_append, bfsLoop, List.append_assoc]
      rw [ih n (r ++ p.children) (by omega)]
      simp

theorem size_level (q : List Plan) :
    (q.map planSize).sum = q.length + ((q.map Plan.children).flatten.map planSize).sum := by
  induction q with
  | nil => rfl
  | cons p q ih =>
    simp only [List.map_cons, List.sum_cons, ih, planSize_children p, List.length_cons, List.flatten_cons, List.map_append,
      List.sum_append]
    omega

theorem bfs_levels (q : List Plan) (k : Nat) :
    ∃ (front : List Plan) (levels : List (List Plan)), levels.length = k ∧ bfsLoop (q.map planSize).sum q = levels.flatten ++
      bfsLoop (front.map planSize).sum front ∧ (∀ i (hi : i < k), ∃ l, levels[i]? = some l ∧
        l = (fun q : List Plan => (q.map Plan.children).flatten)^[i] q) ∧
      front = (fun q : List Plan => (q.map Plan.children).flatten)^[k] q := by
  induction k with
  | zero => exact ⟨q, [], rfl, by simp, by simp, rfl⟩
  | succ k ih =>
    obtain ⟨front, levels, h1, h2, h3, h4⟩ := ih
    refine ⟨(front.map Plan.children).flatten, levels ++ [front], by simp [h1], ?_, ?_, ?_⟩
    · rw [h2]
      have hs := size_level front
      have := bfsLoop_round (front.map planSize).sum front [] (by omega)
      simp only [List.append_nil, List.nil_append] at this
      rw [this, hs]
      simp
    · intro i hi
      by_cases hik : i < k
      · obtain ⟨l, hl, e⟩ := h3 i hik
        refine ⟨l, ?_, e⟩
        rw [List.getElem?_append_left (by omega)]; exact hl
      · have : i = k := by omega
        subst this
        refine ⟨front, ?_, h4⟩
        rw [List.getElem?_append_right (by omega)]
        simp [h1]
    · rw [Function.iterate_succ_apply', ← h4]

/-- C123: the traversal goes level by level: the nodes of each level come in one piece, from left to right, after the
nodes of all upper levels and before all lower ones. -/
theorem C123_levels (p : Plan) (k : Nat) (l : List Plan) (h : Level p k l) :
    ∃ pre post, bfs p = pre ++ l ++ post ∧ (∀ x ∈ pre, ∃ j l', j < k ∧ Level p j l' ∧ x ∈ l') := by
  have hl : ∀ j, Level p j ((fun q : List Plan => (q.map Plan.children).flatten)^[j] [p]) := by
    intro j
    induction j with
    | zero => exact .zero p
    | succ j ih => rw [Function.iterate_succ_apply']; exact .succ _ _ _ ih
  have hu : ∀ {j m}, Level p j m → m = (fun q : List Plan => (q.map Plan.children).flatten)^[j] [p] := by
    intro j m h
    induction h with
    | zero => rfl
    | succ k l _ ih => rw [Function.iterate_succ_apply', ← ih]
  obtain ⟨front, levels, h1, h2, h3, h4⟩ := bfs_levels [p] k
  have h4' : front = l := by rw [h4, hu h]
  subst h4'
  have hb : bfs p = levels.flatten ++ bfsLoop (front.map planSize).sum front := by
    rw [← h2]; simp [bfs]
  have hr := bfsLoop_round (front.map planSize).sum front [] (by have := size_level front; omega)
  simp only [List.append_nil] at hr
  refine ⟨levels.flatten, _, by rw [hb, hr, List.append_assoc], ?_⟩
  intro x hx
  obtain ⟨m, hm, hx⟩ := List.mem_flatten.1 hx
  obtain ⟨i, hi, e⟩ := List.getElem_of_mem hm
  obtain ⟨m', hm', e'⟩ := h3 i (by omega)
  rw [List.getElem?_eq_getElem hi, e] at hm'
  cases hm'
  exact ⟨i, m, by omega, e' ▸ hl i, hx⟩

theorem enter_lines (st : Full) (i : Info) :
    (st.enter i).lines = st.lines ∨ ∃ w, st.used = false ∧ (st.enter i).used = true ∧ (st.enter i).workers = none ∧
      (st.workers = some w ∨ i.workers = w) ∧ (st.enter i).lines = st.lines ++ [.result w] := by
  unfold Full.enter
  simp only
  cases hw : (if 0 < i.workers then some i.workers else st.workers) with
  | none => exact .inl rfl
  | some w =>
    simp only
    split
    · rename_i hc
      simp only [Bool.and_eq_true, Bool.not_eq_true'] at hc
      refine .inr ⟨w, hc.2, rfl, rfl, ?_, rfl⟩
      split at hw
      · exact .inr (Option.some.inj hw)
      · exact .inl hw
    · exact .inl rfl

theorem enter_workers (st : Full) (i : Info) (w : Nat) (h : (st.enter i).workers = some w) :
    st.workers = some w ∨ i.workers = w := by
  unfold Full.enter at h
  simp only at h
  cases hw : (if 0 < i.workers then some i.workers else st.workers) with
  | none => rw [hw] at h; simp at h
  | some w' =>
    rw [hw] at h
    simp only at h
    split at h
    · simp at h
    · simp only [Option.some.injEq] at h
      subst h
      split at hw
      · exact .inr (Option.some.inj hw)
      · exact .inl hw

theorem enter_used (st : Full) (i : Info) :
    (st.enter i).used = st.used ∧ (st.enter i).lines = st.lines ∨
    st.used = false ∧ (st.enter i).used = true ∧ ∃ w, (st.enter i).lines = st.lines ++ [.result w] := by
  unfold Full.enter
  simp only
  cases hw : (if 0 < i.workers then some i.workers else st.workers) with
  | none => exact .inl ⟨rfl, rfl⟩
  | some w =>
    simp only
    split
    · rename_i hc
      simp only [Bool.and_eq_true, Bool.not_eq_true'] at hc
      exact .inr ⟨hc.2, rfl, w, rfl⟩
    · exact .inl ⟨rfl, rfl⟩

theorem emit_lines (st : Full) (name : String) (T : Finset Nat) :
    ∃ w, (st.emit name T).lines = st.lines ++ [.op name T w] ∧ (∀ n, w = some n → st.workers = some n) ∧
      ((w = none ∧ (st.emit name T).used = st.used) ∨ (w ≠ none ∧ st.used = false ∧ (st.emit name T).used = true)) ∧
      (∀ n, (st.emit name T).workers = some n → st.workers = some n) := by
  unfold Full.emit
  cases hw : st.workers with
  | none => exact ⟨none, rfl, by simp, .inl ⟨rfl, rfl⟩, by simp [hw]⟩
  | some w =>
    cases hu : st.used with
    | true => exact ⟨none, by simp, by simp, .inl ⟨rfl, by simp [hu]⟩, by simp [hw]⟩
    | false => exact ⟨some w, by simp, by simp, .inr ⟨by simp, rfl, by simp⟩, by simp⟩


/-- Specification: the pg_lab name of the operator of a node. -/
def nodeName (x : Plan) : Option String := x.info.op.bind pgLabName

/-- Specification: the cardinality of a node: the actual one if it is known, the estimate otherwise. -/
def CardOf (x : Plan) (v : Int) : Prop :=
  (x.info.actCard.valid = true ∧ x.info.actCard.value = v) ∨
  (x.info.actCard.valid = false ∧ x.info.estCard.valid = true ∧ x.info.estCard.value = v)

theorem planCard_mem (x : Plan) (T : Finset Nat) (l : Line) : l ∈ planCard x.info T ↔ ∃ v, CardOf x v ∧ l = .card T v := by
  unfold planCard CardOf
  simp only
  cases h1 : x.info.actCard.valid <;> cases h2 : x.info.estCard.valid <;> simp [h1, h2]

theorem step_eq (st : Full) (x : Plan) :
    (nodeName x = none ∧ st.step x = st.enter x.info) ∨
    ∃ name, nodeName x = some name ∧ st.step x =
      { (st.enter x.info).emit name x.tables with
        lines := ((st.enter x.info).emit name x.tables).lines ++ planCard x.info x.tables } := by
  have hn : x.info.op.bind labName = nodeName x := by
    unfold nodeName; cases x.info.op <;> simp [labName_name]
  unfold Full.step
  simp only [hn]
  cases nodeName x with
  | none => exact .inl ⟨rfl, rfl⟩
  | some name => exact .inr ⟨name, rfl, rfl⟩

theorem step_lines (st : Full) (x : Plan) (l : Line) :
    l ∈ (st.step x).lines → l ∈ st.lines ∨ (∃ w, l = .result w ∧ (st.workers = some w ∨ x.info.workers = w)) ∨
      (∃ name w, nodeName x = some name ∧ l = .op name x.tables w ∧
        ∀ n, w = some n → st.workers = some n ∨ x.info.workers = n) ∨
      (nodeName x ≠ none ∧ ∃ v, CardOf x v ∧ l = .card x.tables v) := by
  intro h
  have he : l ∈ (st.enter x.info).lines → l ∈ st.lines ∨
      ∃ w, l = .result w ∧ (st.workers = some w ∨ x.info.workers = w) := by
    intro h
    rcases enter_lines st x.info with e | ⟨w, _, _, _, hw, e⟩
    · rw [e] at h; exact .inl h
    · rw [e] at h
      rcases List.mem_append.1 h with h | h
      · exact .inl h
      · exact .inr ⟨w, List.mem_singleton.1 h, hw⟩
  rcases step_eq st x with ⟨_, e⟩ | ⟨name, hn, e⟩
  · rw [e] at h
    rcases he h with h | h
    · exact .inl h
    · exact .inr (.inl h)
  · rw [e] at h
    simp only [List.mem_append] at h
    rcases h with h | h
    · obtain ⟨w, hl, hw, -, -⟩ := emit_lines (st.enter x.info) name x.tables
      rw [hl] at h
      rcases List.mem_append.1 h with h | h
      · rcases he h with h | h
        · exact .inl h
        · exact .inr (.inl h)
      · exact .inr (.inr (.inl ⟨name, w, hn, List.mem_singleton.1 h, fun n e => enter_workers _ _ _ (hw n e)⟩))
    · obtain ⟨v, hv, h⟩ := (planCard_mem _ _ _).1 h
      exact .inr (.inr (.inr ⟨by simp [hn], v, hv, h⟩))

theorem step_workers (st : Full) (x : Plan) (n : Nat) (h : (st.step x).workers = some n) :
    st.workers = some n ∨ x.info.workers = n := by
  rcases step_eq st x with ⟨_, e⟩ | ⟨name, hn, e⟩
  · rw [e] at h; exact enter_workers _ _ _ h
  · rw [e] at h
    simp only at h
    obtain ⟨w, -, -, -, hw⟩ := emit_lines (st.enter x.info) name x.tables
    exact enter_workers _ _ _ (hw n h)

theorem step_keeps (st : Full) (x : Plan) (l : Line) (h : l ∈ st.lines) : l ∈ (st.step x).lines := by
  have he : l ∈ (st.enter x.info).lines := by
    rcases enter_lines st x.info with e | ⟨w, _, _, _, hw, e⟩ <;> rw [e]
    · exact h
    · exact List.mem_append.2 (.inl h)
  rcases step_eq st x with ⟨_, e⟩ | ⟨name, hn, e⟩
  · rw [e]; exact he
  · rw [e]
    simp only [List.mem_append]
    obtain ⟨w, hl, -⟩ := emit_lines (st.enter x.info) name x.tables
    rw [hl]
    exact .inl (List.mem_append.2 (.inl he))

theorem step_has (st : Full) (x : Plan) (name : String) (hn : nodeName x = some name) :
    (∃ w, .op name x.tables w ∈ (st.step x).lines) ∧ ∀ v, CardOf x v → .card x.tables v ∈ (st.step x).lines := by
  rcases step_eq st x with ⟨e, _⟩ | ⟨name', hn', e⟩
  · rw [hn] at e; cases e
  · rw [hn] at hn'
    cases hn'
    rw [e]
    simp only [List.mem_append]
    obtain ⟨w, hl, -⟩ := emit_lines (st.enter x.info) name x.tables
    rw [hl]
    exact ⟨⟨w, .inl (by simp)⟩, fun v hv => .inr ((planCard_mem _ _ _).2 ⟨v, hv, rfl⟩)⟩

theorem step_count (st : Full) (x : Plan) (h : (st.lines.filter IsParallel).length = if st.used then 1 else 0) :
    ((st.step x).lines.filter IsParallel).length = if (st.step x).used then 1 else 0 := by
  have he : ((st.enter x.info).lines.filter IsParallel).length = if (st.enter x.info).used then 1 else 0 := by
    rcases enter_used st x.info with ⟨e1, e2⟩ | ⟨e1, e2, w, e3⟩
    · rw [e1, e2]; exact h
    · rw [e2, e3, List.filter_append, List.length_append, h, e1]
      simp [List.filter_cons, IsParallel]
  rcases step_eq st x with ⟨_, e⟩ | ⟨name, hn, e⟩
  · rw [e]; exact he
  · rw [e]
    simp only [List.filter_append, List.length_append]
    have hc : ((planCard x.info x.tables).filter IsParallel).length = 0 := by
      apply count_zero
      intro l hl
      obtain ⟨v, -, rfl⟩ := (planCard_mem _ _ _).1 hl
      rfl
    rw [hc]
    obtain ⟨w, hl, -, hu, -⟩ := emit_lines (st.enter x.info) name x.tables
    rw [hl, List.filter_append, List.length_append, he]
    rcases hu with ⟨rfl, e⟩ | ⟨hw, e1, e2⟩
    · rw [e]; simp [List.filter_cons, IsParallel]
    · obtain ⟨n, rfl⟩ := Option.ne_none_iff_exists'.1 hw
      rw [e1, e2]; simp [List.filter_cons, IsParallel]

/-- The loop over the nodes. -/
theorem fold_lines (q : List Plan) (st : Full) (l : Line) :
    l ∈ (q.foldl Full.step st).lines →
      l ∈ st.lines ∨ (∃ w, l = .result w ∧ (st.workers = some w ∨ ∃ x ∈ q, x.info.workers = w)) ∨
      (∃ x ∈ q, ∃ name w, nodeName x = some name ∧ l = .op name x.tables w ∧
        ∀ n, w = some n → st.workers = some n ∨ ∃ y ∈ q, y.info.workers = n) ∨
      ∃ x ∈ q, nodeName x ≠ none ∧ ∃ v, CardOf x v ∧ l = .card x.tables v := by
  induction q generalizing st with
  | nil => exact fun h => .inl h
  | cons x q ih =>
    intro h
    rw [List.foldl_cons] at h
    have up : ∀ n, ((st.step x).workers = some n ∨ ∃ y ∈ q, y.info.workers = n) →
        st.workers = some n ∨ ∃ y ∈ x :: q, y.info.workers = n := by
      rintro n (h | ⟨y, hy, h⟩)
      · rcases step_workers _ _ _ h with h | h
        · exact .inl h
        · exact .inr ⟨x, by simp, h⟩
      · exact .inr ⟨y, by simp [hy], h⟩
    rcases ih _ h with g | ⟨w, e, g⟩ | ⟨y, hy, name, w, hn, e, g⟩ | ⟨y, hy, hn, v, hv, e⟩
    · rcases step_lines _ _ _ g with g | ⟨w, e, g⟩ | ⟨name, w, hn, e, g⟩ | ⟨hn, v, hv, e⟩
      · exact .inl g
      · refine .inr (.inl ⟨w, e, ?_⟩)
        rcases g with g | g
        · exact .inl g
        · exact .inr ⟨x, by simp, g⟩
      · refine .inr (.inr (.inl ⟨x, by simp, name, w, hn, e, ?_⟩))
        intro n e
        rcases g n e with g | g
        · exact .inl g
        · exact .inr ⟨x, by simp, g⟩
      · exact .inr (.inr (.inr ⟨x, by simp, hn, v, hv, e⟩))
    · exact .inr (.inl ⟨w, e, up w g⟩)
    · exact .inr (.inr (.inl ⟨y, by simp [hy], name, w, hn, e, fun n e => up n (g n e)⟩))
    · exact .inr (.inr (.inr ⟨y, by simp [hy], hn, v, hv, e⟩))

theorem fold_keeps (q : List Plan) (st : Full) (l : Line) (h : l ∈ st.lines) : l ∈ (q.foldl Full.step st).lines := by
  induction q generalizing st with
  | nil => exact h
  | cons x q ih => exact ih _ (step_keeps _ _ _ h)

theorem fold_has (q : List Plan) (st : Full) (x : Plan) (hx : x ∈ q) (name : String) (hn : nodeName x = some name) :
    (∃ w, .op name x.tables w ∈ (q.foldl Full.step st).lines) ∧
    ∀ v, CardOf x v → .card x.tables v ∈ (q.foldl Full.step st).lines := by
  induction q generalizing st with
  | nil => simp at hx
  | cons y q ih =>
    rw [List.foldl_cons]
    rcases List.mem_cons.1 hx with rfl | hx
    · obtain ⟨⟨w, h1⟩, h2⟩ := step_has st x name hn
      exact ⟨⟨w, fold_keeps _ _ _ h1⟩, fun v hv => fold_keeps _ _ _ (h2 v hv)⟩
    · exact ih _ hx

theorem fold_count (q : List Plan) (st : Full) (h : (st.lines.filter IsParallel).length = if st.used then 1 else 0) :
    ((q.foldl Full.step st).lines.filter IsParallel).length = if (q.foldl Full.step st).used then 1 else 0 := by
  induction q generalizing st with
  | nil => exact h
  | cons x q ih => exact ih _ (step_count _ _ h)

/-- C118: the join order hint for a complete plan is the join order of the plan; the generation fails exactly if the plan
has no join order, that is, some node is neither a scan of a table nor has one or two inputs. -/
theorem C118_plan (p : Plan) :
    (∀ b, pgLabPlan p = some b → ∀ m, .order m ∈ b.lines ↔ PlanReads p m) ∧
    (pgLabPlan p = none ↔ ∀ m, ¬ PlanReads p m) := by
  constructor
  · intro b h m
    simp only [pgLabPlan, Option.map_eq_some_iff] at h
    obtain ⟨o, ho, rfl⟩ := h
    rw [← planOrder_iff, ho]
    simp only [List.mem_cons, reduceCtorEq, Line.order.injEq, false_or, Option.some.injEq]
    constructor
    · rintro (rfl | h)
      · rfl
      · rcases fold_lines _ _ _ h with h | ⟨_, h, _⟩ | ⟨_, _, _, _, _, h, _⟩ | ⟨_, _, _, _, _, h⟩
        · simp at h
        all_goals cases h
    · rintro rfl; exact .inl rfl
  · simp only [pgLabPlan, Option.map_eq_none_iff, ← planOrder_iff]
    cases planOrder p <;> simp

/-- C119: a complete plan is hinted with the operators of exactly its nodes, as far as pg_lab has a name for them, on the
tables of the nodes. -/
theorem C119_plan {p : Plan} {b : Block} (h : pgLabPlan p = some b) (name : String) (T : Finset Nat) :
    (∃ w, .op name T w ∈ b.lines) ↔ ∃ x o, QPProps.Node x p ∧ x.info.op = some o ∧ pgLabName o = some name ∧ T = x.tables := by
  simp only [pgLabPlan, Option.map_eq_some_iff] at h
  obtain ⟨o, ho, rfl⟩ := h
  have hn : ∀ x, nodeName x = some name ↔ ∃ o, x.info.op = some o ∧ pgLabName o = some name := by
    intro x; simp [nodeName, Option.bind_eq_some_iff]
  simp only [List.mem_cons, reduceCtorEq, false_or]
  constructor
  · rintro ⟨w, h⟩
    rcases fold_lines _ _ _ h with h | ⟨_, h, _⟩ | ⟨x, hx, nm, w', hnm, h, _⟩ | ⟨_, _, _, _, _, h⟩
    · simp at h
    · cases h
    · cases h
      obtain ⟨o, h1, h2⟩ := (hn x).1 hnm
      exact ⟨x, o, ((C123_bfs p).2.2 x).1 hx, h1, h2, rfl⟩
    · cases h
  · rintro ⟨x, o, hx, h1, h2, rfl⟩
    exact (fold_has _ _ x (((C123_bfs p).2.2 x).2 hx) name ((hn x).2 ⟨o, h1, h2⟩)).1

/-- C120: a complete plan leads to at most one line for parallel workers, and its number of workers is the one of a node
of the plan. -/
theorem C120_plan {p : Plan} {b : Block} (h : pgLabPlan p = some b) :
    (b.lines.filter IsParallel).length ≤ 1 ∧
    (∀ w, .result w ∈ b.lines → ∃ x, QPProps.Node x p ∧ x.info.workers = w) ∧
    ∀ name T w, .op name T (some w) ∈ b.lines → ∃ x, QPProps.Node x p ∧ x.info.workers = w := by
  simp only [pgLabPlan, Option.map_eq_some_iff] at h
  obtain ⟨o, ho, rfl⟩ := h
  refine ⟨?_, ?_, ?_⟩
  · have := fold_count (bfs p) ⟨false, true, none, []⟩ (by simp)
    simp only [List.filter_cons, IsParallel]
    simp only [Bool.false_eq_true, if_false, this]
    split <;> omega
  · intro w h
    simp only [List.mem_cons, reduceCtorEq, false_or] at h
    rcases fold_lines _ _ _ h with h | ⟨w', e, h | ⟨x, hx, h⟩⟩ | ⟨_, _, _, _, _, h, _⟩ | ⟨_, _, _, _, _, h⟩
    · simp at h
    · simp at h
    · cases e; exact ⟨x, ((C123_bfs p).2.2 x).1 hx, h⟩
    all_goals cases h
  · intro name T w h
    simp only [List.mem_cons, reduceCtorEq, false_or] at h
    rcases fold_lines _ _ _ h with h | ⟨w', e, _⟩ | ⟨_, _, _, _, _, e, h⟩ | ⟨_, _, _, _, _, e⟩
    · simp at h
    · cases e
    · cases e
      rcases h w rfl with h | ⟨y, hy, h⟩
      · simp at h
      · exact ⟨y, ((C123_bfs p).2.2 y).1 hy, h⟩
    · cases e

/-- C121: a complete plan is hinted with the cardinalities of exactly its nodes (as far as pg_lab has a name for their
operators): the actual cardinality if it is known, the estimate otherwise. -/
theorem C121_plan {p : Plan} {b : Block} (h : pgLabPlan p = some b) (T : Finset Nat) (v : Int) :
    .card T v ∈ b.lines ↔
      ∃ x o name, QPProps.Node x p ∧ x.info.op = some o ∧ pgLabName o = some name ∧ T = x.tables ∧
        ((x.info.actCard.valid = true ∧ x.info.actCard.value = v) ∨
         (x.info.actCard.valid = false ∧ x.info.estCard.valid = true ∧ x.info.estCard.value = v)) := by
  simp only [pgLabPlan, Option.map_eq_some_iff] at h
  obtain ⟨o, ho, rfl⟩ := h
  simp only [List.mem_cons, reduceCtorEq, false_or]
  constructor
  · intro h
    rcases fold_lines _ _ _ h with h | ⟨_, h, _⟩ | ⟨_, _, _, _, _, h, _⟩ | ⟨x, hx, hn, v', hv, h⟩
    · simp at h
    · cases h
    · cases h
    · cases h
      obtain ⟨name, hn⟩ := Option.ne_none_iff_exists'.1 hn
      unfold nodeName at hn
      obtain ⟨o, h1, h2⟩ := Option.bind_eq_some_iff.1 hn
      exact ⟨x, o, name, ((C123_bfs p).2.2 x).1 hx, h1, h2, rfl, hv⟩
  · rintro ⟨x, o, name, hx, h1, h2, rfl, hv⟩
    exact (fold_has _ _ x (((C123_bfs p).2.2 x).2 hx) name (by simp [nodeName, h1, h2])).2 v hv

/-- An inner node without operator. -/
def plainInfo (op : Option PhysOp) (base : Option Nat) (workers : Nat) : Info :=
  ⟨"", op, base, ∅, ∅, workers, Card.unknown, .nan, Card.unknown, .nan, none, none⟩

/-- A hash join of a parallel scan of table 0 below a gather node with two workers, and a sequential scan of table 1. -/
def gatherPlan : Plan :=
  .node (plainInfo (some (.join .hash)) none 0)
    [.node (plainInfo none none 2) [.node (plainInfo (some (.scan .seqScan)) (some 0) 0) [] none] none,
     .node (plainInfo (some (.scan .seqScan)) (some 1) 0) [] none] none

/-- C120 violated: the workers of a gather node go to the next node of the breadth-first traversal, which need not be below
the gather node: here the workers for the scan of table 0 are hinted for the scan of table 1. -/
theorem C120_plan_violated :
    (pgLabPlan gatherPlan).map Block.lines = some [.planMode "full", .order (.pair (.table 0) (.table 1)),
      .op "HashJoin" {0, 1} none, .op "SeqScan" {1} (some 2), .op "SeqScan" {0} none] := by
  have hc : Card.unknown.valid = false := by decide
  simp [pgLabPlan, gatherPlan, plainInfo, planOrder, Info.isScan, Info.isJoin, bfs, planSize, bfsLoop, Plan.children,
    Full.step, Full.enter, Full.emit, planCard, Plan.info, labName, joinName, labScan, Plan.tables, Info.ownTables, optSet,
    setUnion, hc]
  try decide

/-! ### The Postgres service -/

/-- C122: the hint service of Postgres needs a backend; a complete plan excludes all other parts. With pg_lab a complete
plan is hinted as such, with pg_hint_plan it is hinted by its join order, operators and parameters. -/
theorem C122_postgres (enum : Finset Nat → List Nat) (geqo n : Nat) (b : Backend) (order : Option (JT.Tree Card))
    (ops : Option OpAssign) (params : Option Params) :
    (pgGenerate enum geqo n .pgHintPlan none order ops params = pgHintPlan enum geqo n order ops params) ∧
    (pgGenerate enum geqo n .pgLab none order ops params = pgLab order ops params) ∧
    (∀ p, pgGenerate enum geqo n .pgLab (some p) none none none = pgLabPlan p) ∧
    (∀ p t a, p.jointree .estimated = some t → p.ops false = some a →
      pgGenerate enum geqo n .pgHintPlan (some p) none none none =
        pgHintPlan enum geqo n (some t) (some a) (some (p.params .actualOrEstimated))) ∧
    (∀ p, p.jointree .estimated = none ∨ p.ops false = none →
      pgGenerate enum geqo n .pgHintPlan (some p) none none none = none) ∧
    (∀ p, (order ≠ none ∨ ops ≠ none ∨ params ≠ none) → pgGenerate enum geqo n b (some p) order ops params = none) ∧
    (∀ plan, b = .none ∨ b = .other → pgGenerate enum geqo n b plan order ops params = none) := by
  refine ⟨rfl, rfl, fun p => rfl, ?_, ?_, ?_, ?_⟩
  · intro p t a h1 h2
    simp [pgGenerate, h1, h2]
  · rintro p (h | h)
    · simp [pgGenerate, h]
    · simp only [pgGenerate, h]
      cases p.jointree .estimated <;> simp
  · intro p h
    have : order.isSome = true ∨ ops.isSome = true ∨ params.isSome = true := by
      rcases h with h | h | h
      · exact .inl (Option.isSome_iff_ne_none.2 h)
      · exact .inr (.inl (Option.isSome_iff_ne_none.2 h))
      · exact .inr (.inr (Option.isSome_iff_ne_none.2 h))
    simp only [pgGenerate, this, if_true]
    split <;> rfl
  · rintro plan (rfl | rfl)
    · rfl
    · cases plan with
      | none => rfl
      | some p => simp [pgGenerate]

/-! ### quack_lab -/

/-- The operators are stored under their tables. -/
def Keyed (a : OpAssign) : Prop := (∀ e ∈ a.scans, e.2.table = e.1) ∧ ∀ e ∈ a.joins, e.2.join = e.1

theorem mem_set {κ ν : Type} [DecidableEq κ] (d : Dict κ ν) (k : κ) (v : ν) (e : κ × ν) (h : e ∈ d.set k v) :
    e = (k, v) ∨ e ∈ d := by
  induction d with
  | nil => simp only [Dict.set, List.mem_singleton] at h; exact .inl h
  | cons x d ih =>
    obtain ⟨k', v'⟩ := x
    simp only [Dict.set] at h
    split at h
    · rcases List.mem_cons.1 h with h | h
      · rename_i hk; exact .inl (by first | exact h | (rw [h]; simp_all))
      · exact .inr (by simp [h])
    · rcases List.mem_cons.1 h with h | h
      · exact .inr (by simp [h])
      · rcases ih h with h | h
        · exact .inl h
        · exact .inr (by simp [h])

/-- Every history of calls leads to such an assignment. -/
theorem keyed_run (calls : List HintOp) : Keyed (OpAssign.empty.run calls) := by
  induction calls using List.reverseRecOn with
  | nil => exact ⟨by simp [OpAssign.run, OpAssign.empty], by simp [OpAssign.run, OpAssign.empty]⟩
  | append_singleton l c ih =>
    have e : OpAssign.empty.run (l ++ [c]) = (OpAssign.empty.run l).step c := by simp [OpAssign.run, List.foldl_append]
    rw [e]
    generalize OpAssign.empty.run l = a at ih
    cases c with
    | scan s =>
      refine ⟨?_, ih.2⟩
      intro e he
      rcases mem_set _ _ _ _ he with rfl | he
      · rfl
      · exact ih.1 e he
    | join j =>
      refine ⟨ih.1, ?_⟩
      intro e he
      rcases mem_set _ _ _ _ he with rfl | he
      · rfl
      · exact ih.2 e he
    | inter o T => exact ih
    | global o v w =>
      simp only [OpAssign.step, OpAssign.setGlobal]
      split
      · exact ih
      · cases o with
        | scan o => exact ⟨fun e he => ih.1 e (List.mem_filter.1 he).1, ih.2⟩
        | join o => exact ⟨ih.1, fun e he => ih.2 e (List.mem_filter.1 he).1⟩
        | inter o => exact ih

/-- The settings of quack_lab that enable or disable an operator. -/
def quackSettingName : PhysOp → Option String
  | .scan .seqScan => some "enable_seqscan"
  | .scan .idxScan => some "enable_indexscan"
  | .join .nlj => some "enable_nestloop"
  | .join .hash => some "enable_hashjoin"
  | .join .merge => some "enable_mergejoin"
  | _ => none

theorem merge_mem (a b : Block) (l : Line) (hl : l ≠ .blank) : l ∈ (a.merge b).lines ↔ l ∈ a.lines ∨ l ∈ b.lines := by
  simp only [Block.merge, List.mem_append, List.mem_singleton, hl, or_false, List.mem_filter, decide_eq_true_eq]
  by_cases h : l ∈ a.lines <;> simp [h]

theorem merge_prep (a b : Block) (x : String × String) : x ∈ (a.merge b).prep ↔ x ∈ a.prep ∨ x ∈ b.prep := by
  simp only [Block.merge, List.mem_append, List.mem_filter, decide_eq_true_eq]
  by_cases h : x ∈ a.prep <;> simp [h]

theorem quackOps_mem {a : OpAssign} {ls : List Line} (h : quackOps a = some ls) (hk : Keyed a) (l : Line) :
    l ∈ ls ↔ (∃ o T v name, Requested a o T v ∧ quackName o = some name ∧ l = .op name T none) ∨
      ∃ o v name, (o, v) ∈ a.globals ∧ quackSettingName o = some name ∧ l = .set name v := by
  simp only [quackOps, Option.bind_eq_some_iff] at h
  obtain ⟨ss, hss, js, hjs, h⟩ := h
  split at h
  · rename_i hi
    simp only [List.isEmpty_iff] at hi
    simp only [Option.map_eq_some_iff] at h
    obtain ⟨gs, hgs, rfl⟩ := h
    simp only [List.mem_append, mapAll_mem hss, mapAll_mem hjs, mapAll_mem hgs, Option.map_eq_some_iff]
    have n1 : ∀ o, quackName (.scan o) = quackScan o := by intro o; cases o <;> rfl
    have n2 : ∀ o, quackName (.join o) = joinName o := by intro o; cases o <;> rfl
    have n3 : ∀ o, quackSettingName o = quackSetting o := by rintro (o | o | o) <;> cases o <;> rfl
    have hv : ∀ {κ ν : Type} (d : Dict κ ν) (v : ν), v ∈ d.values ↔ ∃ k, (k, v) ∈ d := by
      intro κ ν d v; simp [Dict.values]
    constructor
    · rintro ((⟨e, he, n, hn, rfl⟩ | ⟨e, he, n, hn, rfl⟩) | ⟨e, he, n, hn, rfl⟩)
      · refine .inl ⟨.scan e.2.op, {e.1}, e.2.workers, n, .inl ⟨e.2, (hv _ _).2 ⟨e.1, he⟩, rfl, ?_, rfl⟩, by rw [n1]; exact hn, rfl⟩
        rw [hk.1 e he]
      · refine .inl ⟨.join e.2.op, e.1, e.2.workers, n, .inr (.inl ⟨e.2, (hv _ _).2 ⟨e.1, he⟩, rfl, ?_, rfl⟩), by rw [n2]; exact hn, rfl⟩
        rw [hk.2 e he]
      · exact .inr ⟨e.1, e.2, n, he, by rw [n3]; exact hn, rfl⟩
    · rintro (⟨o, T, v, n, hr, hn, rfl⟩ | ⟨o, v, n, ho, hn, rfl⟩)
      · rcases hr with ⟨s, hs, rfl, rfl, rfl⟩ | ⟨j, hj, rfl, rfl, rfl⟩ | ⟨e, he, rfl, rfl, rfl⟩
        · obtain ⟨k, hs⟩ := (hv _ _).1 hs
          refine .inl (.inl ⟨(k, s), hs, n, by rw [← n1]; exact hn, ?_⟩)
          have := hk.1 _ hs
          simp only at this
          rw [this]
        · obtain ⟨k, hj⟩ := (hv _ _).1 hj
          refine .inl (.inr ⟨(k, j), hj, n, by rw [← n2]; exact hn, ?_⟩)
          have := hk.2 _ hj
          simp only at this
          rw [this]
        · rw [hi] at he; simp at he
      · exact .inr ⟨(o, v), ho, n, by rw [← n3]; exact hn, rfl⟩
  · simp at h

/-- The lines and statements of quack_lab. -/
theorem quack_all {order : Option (JT.Tree A)} {ops : Option OpAssign} {params : Option Params} {b : Block}
    (h : quackParts order ops params = some b) (hk : ∀ a, ops = some a → Keyed a) :
    (∀ l, l ≠ .blank → (l ∈ b.lines ↔
      (∃ t m, order = some t ∧ 3 ≤ t.tables.card ∧ Reads t m ∧ l = .order m) ∨
      (∃ a, ops = some a ∧ ((∃ o T v name, Requested a o T v ∧ quackName o = some name ∧ l = .op name T none) ∨
        ∃ o v name, (o, v) ∈ a.globals ∧ quackSettingName o = some name ∧ l = .set name v)) ∨
      ∃ p, params = some p ∧ ∃ e ∈ p.cards, e.2.nan = false ∧ e.2.inf = false ∧ l = .card e.1 e.2.value)) ∧
    ∀ x, x ∈ b.prep ↔ ∃ p, params = some p ∧ x ∈ p.settings := by
  simp only [quackParts, Option.bind_eq_some_iff] at h
  obtain ⟨ol, hol, b1, hb1, hb⟩ := h
  have h1 : (∀ l, l ≠ .blank → (l ∈ b1.lines ↔ l ∈ ol ∨
      (∃ a, ops = some a ∧ ((∃ o T v name, Requested a o T v ∧ quackName o = some name ∧ l = .op name T none) ∨
        ∃ o v name, (o, v) ∈ a.globals ∧ quackSettingName o = some name ∧ l = .set name v)))) ∧ b1.prep = [] := by
    cases ops with
    | none => simp only [quackOps?, Option.some.injEq] at hb1; subst hb1; simp
    | some a =>
      simp only [quackOps?] at hb1
      by_cases he : hasEntries a = true
      · rw [if_pos he] at hb1
        simp only [Option.map_eq_some_iff] at hb1
        obtain ⟨ls, hls, rfl⟩ := hb1
        constructor
        · intro l hl
          rw [merge_mem _ _ _ hl]
          simp only [quackOps_mem hls (hk a rfl), Option.some.injEq, exists_eq_left']
        · simp [Block.merge]
      · rw [if_neg he] at hb1
        simp only [Option.some.injEq] at hb1
        subst hb1
        refine ⟨?_, rfl⟩
        intro l hl
        simp only [hasEntries, Bool.or_eq_true, Bool.not_eq_true', not_or, Bool.not_eq_false, List.isEmpty_iff] at he
        simp [Requested, he, Dict.values]
  cases params with
  | none =>
    simp only [quackParams?, Option.some.injEq] at hb
    subst hb
    constructor
    · intro l hl
      rw [h1.1 l hl, orderLine_mem hol]; simp
    · simp [h1.2]
  | some p =>
    simp only [quackParams?, Option.map_eq_some_iff, quackParams] at hb
    obtain ⟨q, hq, rfl⟩ := hb
    split at hq
    · simp only [Option.some.injEq] at hq
      subst hq
      constructor
      · intro l hl
        rw [merge_mem _ _ _ hl, h1.1 l hl, orderLine_mem hol, cardLines_mem]
        simp only [Option.some.injEq, exists_eq_left', or_assoc]
      · intro x
        rw [merge_prep]
        simp [h1.2]
    · simp at hq

/-- C118: the join order hint of quack_lab has exactly the structure and the tables of the given join order. Join orders
of fewer than three tables are not hinted. -/
theorem C118_quack {order : Option (JT.Tree A)} {ops : Option OpAssign} {params : Option Params} {b : Block}
    (h : quackParts order ops params = some b) (hk : ∀ a, ops = some a → Keyed a) (m : JT.Nested) :
    .order m ∈ b.lines ↔ ∃ t, order = some t ∧ 3 ≤ t.tables.card ∧ Reads t m := by
  rw [(quack_all h hk).1 _ (by simp)]
  constructor
  · rintro (⟨t, m', h1, h2, h3, e⟩ | ⟨_, _, ⟨_, _, _, _, _, _, e⟩ | ⟨_, _, _, _, _, e⟩⟩ | ⟨_, _, _, _, _, _, e⟩)
    · cases e; exact ⟨t, h1, h2, h3⟩
    all_goals cases e
  · rintro ⟨t, h1, h2, h3⟩; exact .inl ⟨t, m, h1, h2, h3, rfl⟩

/-- C119: quack_lab gets a hint for exactly the requested operators. -/
theorem C119_quack {order : Option (JT.Tree A)} {ops : Option OpAssign} {params : Option Params} {b : Block}
    (h : quackParts order ops params = some b) (hk : ∀ a, ops = some a → Keyed a) (name : String) (T : Finset Nat)
    (w : Option Nat) :
    .op name T w ∈ b.lines ↔ w = none ∧ ∃ a o v, ops = some a ∧ Requested a o T v ∧ quackName o = some name := by
  rw [(quack_all h hk).1 _ (by simp)]
  constructor
  · rintro (⟨t, m', h1, h2, h3, e⟩ | ⟨a, ha, ⟨o, _, v, _, h1, h2, e⟩ | ⟨_, _, _, _, _, e⟩⟩ | ⟨_, _, _, _, _, _, e⟩)
    · cases e
    · cases e; exact ⟨rfl, a, o, v, ha, h1, h2⟩
    all_goals cases e
  · rintro ⟨rfl, a, o, v, ha, h1, h2⟩; exact .inr (.inl ⟨a, ha, .inl ⟨o, T, v, name, h1, h2, rfl⟩⟩)

/-- C121: quack_lab gets exactly the known and finite cardinalities. -/
theorem C121_quack {order : Option (JT.Tree A)} {ops : Option OpAssign} {params : Option Params} {b : Block}
    (h : quackParts order ops params = some b) (hk : ∀ a, ops = some a → Keyed a) (T : Finset Nat) (v : Int) :
    .card T v ∈ b.lines ↔ ∃ p c, params = some p ∧ (T, c) ∈ p.cards ∧ c.nan = false ∧ c.inf = false ∧ c.value = v := by
  rw [(quack_all h hk).1 _ (by simp)]
  constructor
  · rintro (⟨t, m', h1, h2, h3, e⟩ | ⟨a, ha, ⟨o, _, v, _, h1, h2, e⟩ | ⟨_, _, _, _, _, e⟩⟩ | ⟨p, hp, e, he, h1, h2, e'⟩)
    · cases e
    · cases e
    · cases e
    · cases e'; exact ⟨p, e.2, hp, he, h1, h2, rfl⟩
  · rintro ⟨p, c, hp, hc, h1, h2, rfl⟩; exact .inr (.inr ⟨p, hp, (T, c), hc, h1, h2, rfl⟩)

/-- C122: quack_lab gets exactly the global settings of operators, and the system settings become statements that run before
the query. -/
theorem C122_quack {order : Option (JT.Tree A)} {ops : Option OpAssign} {params : Option Params} {b : Block}
    (h : quackParts order ops params = some b) (hk : ∀ a, ops = some a → Keyed a) :
    (∀ name v, .set name v ∈ b.lines ↔ ∃ a o, ops = some a ∧ (o, v) ∈ a.globals ∧ quackSettingName o = some name) ∧
    ∀ x, x ∈ b.prep ↔ ∃ p, params = some p ∧ x ∈ p.settings := by
  refine ⟨?_, (quack_all h hk).2⟩
  intro name v
  rw [(quack_all h hk).1 _ (by simp)]
  constructor
  · rintro (⟨t, m', h1, h2, h3, e⟩ | ⟨a, ha, ⟨o, _, v, _, h1, h2, e⟩ | ⟨o, v, n, h1, h2, e⟩⟩ | ⟨p, hp, e, he, h1, h2, e'⟩)
    · cases e
    · cases e
    · cases e; exact ⟨a, o, ha, h1, h2⟩
    · cases e'
  · rintro ⟨a, o, ha, h1, h2⟩; exact .inr (.inl ⟨a, ha, .inr ⟨o, v, name, h1, h2, rfl⟩⟩)

/-- C122: the generation for quack_lab fails exactly if the join order of at least three tables contains an empty join tree,
an operator without a name in quack_lab is requested or globally enabled or disabled, or worker counts are given. -/
theorem C122_quack_fails {order : Option (JT.Tree A)} {ops : Option OpAssign} {params : Option Params} :
    quackParts order ops params = none ↔
      (∃ t, order = some t ∧ 3 ≤ t.tables.card ∧ ∀ m, ¬ Reads t m) ∨
      (∃ a, ops = some a ∧ ((∃ o T v, Requested a o T v ∧ quackName o = none) ∨
        ∃ o v, (o, v) ∈ a.globals ∧ quackSettingName o = none)) ∨
      ∃ p, params = some p ∧ p.workers ≠ [] := by
  rw [← orderLine_none]
  have n1 : ∀ o, quackName (.scan o) = quackScan o := by intro o; cases o <;> rfl
  have n2 : ∀ o, quackName (.join o) = joinName o := by intro o; cases o <;> rfl
  have n3 : ∀ o, quackSettingName o = quackSetting o := by rintro (o | o | o) <;> cases o <;> rfl
  have hv : ∀ {κ ν : Type} (d : Dict κ ν) (v : ν), v ∈ d.values ↔ ∃ k, (k, v) ∈ d := by
    intro κ ν d v; simp [Dict.values]
  have hops : ∀ a, quackOps a = none ↔ (∃ o T v, Requested a o T v ∧ quackName o = none) ∨
        ∃ o v, (o, v) ∈ a.globals ∧ quackSettingName o = none := by
    intro a
    have e1 : mapAll (fun e : Nat × ScanAssign => (quackScan e.2.op).map fun n => Line.op n {e.1} none) a.scans = none ↔
        ∃ s ∈ a.scans.values, quackName (.scan s.op) = none := by
      rw [mapAll_none]
      simp only [Option.map_eq_none_iff, hv, n1]
      exact ⟨fun ⟨e, he, h⟩ => ⟨e.2, ⟨e.1, he⟩, h⟩, fun ⟨s, ⟨k, hs⟩, h⟩ => ⟨(k, s), hs, h⟩⟩
    have e2 : mapAll (fun e : Finset Nat × JoinAssign => (joinName e.2.op).map fun n => Line.op n e.1 none) a.joins = none ↔
        ∃ s ∈ a.joins.values, quackName (.join s.op) = none := by
      rw [mapAll_none]
      simp only [Option.map_eq_none_iff, hv, n2]
      exact ⟨fun ⟨e, he, h⟩ => ⟨e.2, ⟨e.1, he⟩, h⟩, fun ⟨s, ⟨k, hs⟩, h⟩ => ⟨(k, s), hs, h⟩⟩
    have e3 : mapAll (fun e : PhysOp × Bool => (quackSetting e.1).map fun n => Line.set n e.2) a.globals = none ↔
        ∃ o v, (o, v) ∈ a.globals ∧ quackSettingName o = none := by
      rw [mapAll_none]
      simp only [Option.map_eq_none_iff, n3]
      exact ⟨fun ⟨e, he, h⟩ => ⟨e.1, e.2, he, h⟩, fun ⟨o, v, hs, h⟩ => ⟨(o, v), hs, h⟩⟩
    have er : (∃ o T v, Requested a o T v ∧ quackName o = none) ↔
        (∃ s ∈ a.scans.values, quackName (.scan s.op) = none) ∨ (∃ s ∈ a.joins.values, quackName (.join s.op) = none) ∨
        a.inters ≠ [] := by
      constructor
      · rintro ⟨o, T, v, ⟨s, hs, rfl, _⟩ | ⟨j, hj, rfl, _⟩ | ⟨e, he, _⟩, hn⟩
        · exact .inl ⟨s, hs, hn⟩
        · exact .inr (.inl ⟨j, hj, hn⟩)
        · exact .inr (.inr (List.ne_nil_of_mem he))
      · rintro (⟨s, hs, hn⟩ | ⟨j, hj, hn⟩ | h)
        · exact ⟨_, _, _, .inl ⟨s, hs, rfl, rfl, rfl⟩, hn⟩
        · exact ⟨_, _, _, .inr (.inl ⟨j, hj, rfl, rfl, rfl⟩), hn⟩
        · obtain ⟨e, he⟩ := List.exists_mem_of_ne_nil _ h
          exact ⟨_, _, _, .inr (.inr ⟨e, he, rfl, rfl, rfl⟩), by cases e.2 <;> rfl⟩
    rw [er, ← e1, ← e2, ← e3]
    unfold quackOps
    cases mapAll (fun e : Nat × ScanAssign => (quackScan e.2.op).map fun n => Line.op n {e.1} none) a.scans with
    | none => simp
    | some ss =>
      cases mapAll (fun e : Finset Nat × JoinAssign => (joinName e.2.op).map fun n => Line.op n e.1 none) a.joins with
      | none => simp
      | some js =>
        simp only [Option.bind_some, reduceCtorEq, false_or]
        by_cases hi : a.inters = []
        · simp [hi]
        · simp [hi]
  have ho? : ∀ ol, quackOps? ol ops = none ↔ ∃ a, ops = some a ∧ ((∃ o T v, Requested a o T v ∧ quackName o = none) ∨
        ∃ o v, (o, v) ∈ a.globals ∧ quackSettingName o = none) := by
    intro ol
    cases ops with
    | none => simp [quackOps?]
    | some a =>
      simp only [quackOps?, Option.some.injEq, exists_eq_left', ← hops]
      by_cases he : hasEntries a = true
      · rw [if_pos he, Option.map_eq_none_iff]
      · rw [if_neg he]
        simp only [hasEntries, Bool.or_eq_true, Bool.not_eq_true', not_or, Bool.not_eq_false, List.isEmpty_iff] at he
        simp [quackOps, he, mapAll]
  have hp? : ∀ b, quackParams? b params = none ↔ ∃ p, params = some p ∧ p.workers ≠ [] := by
    intro b
    cases params with
    | none => simp [quackParams?]
    | some p =>
      simp only [quackParams?, quackParams, Option.map_eq_none_iff, Option.some.injEq, exists_eq_left']
      by_cases hw : p.workers = []
      · simp [hw]
      · simp [hw]
  simp only [quackParts]
  cases hol : orderLine 3 order with
  | none => simp
  | some ol =>
    simp only [Option.bind_some, reduceCtorEq, false_or]
    rw [← ho? ol]
    cases hq : quackOps? ol ops with
    | none => simp
    | some b1 => rw [← hp? b1]; simp

/-! ### MySQL -/

/-- The tables of a join tree from left to right. -/
inductive Leaves : JT.Tree A → List Nat → Prop
  | empty (c : JT.Cls) : Leaves (.empty c) []
  | scan (c : JT.Cls) (t : Nat) (a : Option A) : Leaves (.scan c t a) [t]
  | join (c : JT.Cls) (o i : JT.Tree A) (a : Option A) (x y : List Nat) :
    Leaves o x → Leaves i y → Leaves (.join c o i a) (x ++ y)

/-- Every inner input is a base table. -/
inductive LeftDeep : JT.Tree A → Prop
  | scan (c : JT.Cls) (t : Nat) (a : Option A) : LeftDeep (.scan c t a)
  | join (c c' : JT.Cls) (o : JT.Tree A) (t : Nat) (a' a : Option A) : LeftDeep o → LeftDeep (.join c o (.scan c' t a') a)

theorem leaves_iff (t : JT.Tree A) (l : List Nat) : Leaves t l ↔ t.itertables = l := by
  induction t generalizing l with
  | empty c => exact ⟨fun h => by cases h; rfl, fun h => by rw [← h]; exact .empty _⟩
  | scan c t a => exact ⟨fun h => by cases h; rfl, fun h => by rw [← h]; exact .scan _ _ _⟩
  | join c o i a iho ihi =>
    constructor
    · intro h
      cases h with
      | join _ _ _ _ x y hx hy => simp only [JT.Tree.itertables, (iho x).1 hx, (ihi y).1 hy]
    · intro h
      rw [← h]
      exact .join _ _ _ _ _ _ ((iho _).2 rfl) ((ihi _).2 rfl)

theorem my_lines {order : Option (JT.Tree A)} {ops : Option OpAssign} {params : Option Params} {b : Block}
    (h : myParts order ops params = some (some b)) :
    ∃ os, myOps? ops = some os ∧ myPrep ops params = some b.prep ∧ b.lines = myOrder order ++ os := by
  simp only [myParts, Option.bind_eq_some_iff, Option.map_eq_some_iff] at h
  obtain ⟨os, hos, pr, hpr, h⟩ := h
  split at h
  · simp at h
  · simp only [Option.some.injEq] at h
    subst h
    exact ⟨os, hos, hpr, rfl⟩

theorem myOps_mem {a : OpAssign} {ls : List Line} (h : myOps a = some ls) (hk : Keyed a) (l : Line) :
    l ∈ ls ↔ ∃ o T v name, Requested a o T v ∧ mysqlName o = some name ∧ l = .op name T none := by
  simp only [myOps, Option.map_eq_some_iff] at h
  obtain ⟨js, hjs, rfl⟩ := h
  have n1 : ∀ o, mysqlName (.scan o) = some (myScan o) := by intro o; cases o <;> rfl
  have n2 : ∀ o, mysqlName (.join o) = myJoin o := by intro o; cases o <;> rfl
  have hv : ∀ {κ ν : Type} (d : Dict κ ν) (v : ν), v ∈ d.values ↔ ∃ k, (k, v) ∈ d := by
    intro κ ν d v; simp [Dict.values]
  simp only [List.mem_append, List.mem_map, mapAll_mem hjs, Option.map_eq_some_iff]
  constructor
  · rintro (⟨e, he, rfl⟩ | ⟨e, he, n, hn, rfl⟩)
    · refine ⟨.scan e.2.op, {e.1}, e.2.workers, _, .inl ⟨e.2, (hv _ _).2 ⟨e.1, he⟩, rfl, ?_, rfl⟩, n1 _, rfl⟩
      rw [hk.1 e he]
    · refine ⟨.join e.2.op, e.1, e.2.workers, n, .inr (.inl ⟨e.2, (hv _ _).2 ⟨e.1, he⟩, rfl, ?_, rfl⟩), by rw [n2]; exact hn, rfl⟩
      rw [hk.2 e he]
  · rintro ⟨o, T, v, n, hr, hn, rfl⟩
    rcases hr with ⟨s, hs, rfl, rfl, rfl⟩ | ⟨j, hj, rfl, rfl, rfl⟩ | ⟨e, he, rfl, rfl, rfl⟩
    · obtain ⟨k, hs⟩ := (hv _ _).1 hs
      rw [n1] at hn
      refine .inl ⟨(k, s), hs, ?_⟩
      have := hk.1 _ hs
      simp only at this
      rw [this, Option.some.inj hn]
    · obtain ⟨k, hj⟩ := (hv _ _).1 hj
      refine .inr ⟨(k, j), hj, n, by rw [← n2]; exact hn, ?_⟩
      have := hk.2 _ hj
      simp only at this
      rw [this]
    · cases e.2 <;> simp [mysqlName] at hn

/-- C118 partial: the hint of MySQL lists the tables of the join order from left to right. For left-deep join orders, this
list determines the structure of the join order. Missing: other join orders, see `C118_mysql_violated`. -/
theorem C118_mysql_partial {order : Option (JT.Tree A)} {ops : Option OpAssign} {params : Option Params} {b : Block}
    (h : myParts order ops params = some (some b)) (hk : ∀ a, ops = some a → Keyed a) :
    (∀ ts, .orderList ts ∈ b.lines ↔ ∃ t, order = some t ∧ (∀ c, t ≠ .empty c) ∧ Leaves t ts) ∧
    ∀ (t t' : JT.Tree A) ts m, LeftDeep t → LeftDeep t' → Leaves t ts → Leaves t' ts → Reads t m → Reads t' m := by
  constructor
  · intro ts
    obtain ⟨os, hos, -, hl⟩ := my_lines h
    rw [hl, List.mem_append]
    have hno : Line.orderList ts ∉ os := by
      cases ops with
      | none => simp only [myOps?, Option.some.injEq] at hos; subst hos; simp
      | some a =>
        intro h
        obtain ⟨_, _, _, _, _, _, e⟩ := (myOps_mem hos (hk a rfl) _).1 h
        cases e
    simp only [hno, or_false]
    cases order with
    | none => simp [myOrder]
    | some t =>
      simp only [myOrder, Option.some.injEq, exists_eq_left', leaves_iff]
      cases t <;> simp [JT.Tree.isEmpty, eq_comm]
  · intro t t' ts m hd hd' hl hl' hr
    induction hd generalizing t' ts m with
    | scan c u a =>
      cases hl
      cases hr
      cases hd' with
      | scan c' u' a' => cases hl'; exact .scan _ _ _
      | join c c' o u' a' a ho =>
        exfalso
        rw [leaves_iff] at hl'
        simp only [JT.Tree.itertables] at hl'
        have : o.itertables ≠ [] := by
          cases ho <;> simp [JT.Tree.itertables]
        cases hoi : o.itertables with
        | nil => exact this hoi
        | cons x xs => rw [hoi] at hl'; simp at hl'
    | join c c' o u a' a ho ih =>
      rw [leaves_iff] at hl hl'
      simp only [JT.Tree.itertables] at hl
      have hne : o.itertables ≠ [] := by cases ho <;> simp [JT.Tree.itertables]
      cases hr with
      | join _ _ _ _ x y hx hy =>
        cases hd' with
        | scan c' u' a' =>
          exfalso
          simp only [JT.Tree.itertables] at hl'
          rw [← hl'] at hl
          cases hoi : o.itertables with
          | nil => exact hne hoi
          | cons x xs => rw [hoi] at hl; simp at hl
        | join d d' o' u' b' b ho' =>
          simp only [JT.Tree.itertables] at hl'
          rw [← hl'] at hl
          have e := List.append_inj' hl rfl
          have e2 : u = u' := by simpa using e.2
          subst e2
          cases hy
          exact .join _ _ _ _ _ _ (ih o' o.itertables x ho' ((leaves_iff _ _).2 rfl) ((leaves_iff _ _).2 e.1.symm) hx)
            (.scan _ _ _)

/-- C118 violated: MySQL accepts right-deep join orders, but hints them like the left-deep order of the same tables. -/
theorem C118_mysql_violated (r s t : Nat) (ops : Option OpAssign) (params : Option Params) :
    myGenerate none (some (.join .generic (.scan .generic r none) (.join .generic (.scan .generic s none)
        (.scan .generic t none) none) none)) ops params =
      myGenerate none (some (.join .generic (.join .generic (.scan .generic r none) (.scan .generic s none) none)
        (.scan .generic t none) none)) ops params := by
  simp [myGenerate, myParts, myOrder, JT.Tree.isLinear, JT.Tree.isScan, JT.Tree.isEmpty, JT.Tree.itertables]

/-- C119: MySQL gets a hint for exactly the requested operators. -/
theorem C119_mysql {order : Option (JT.Tree A)} {ops : Option OpAssign} {params : Option Params} {b : Block}
    (h : myParts order ops params = some (some b)) (hk : ∀ a, ops = some a → Keyed a) (name : String) (T : Finset Nat)
    (w : Option Nat) :
    .op name T w ∈ b.lines ↔ w = none ∧ ∃ a o v, ops = some a ∧ Requested a o T v ∧ mysqlName o = some name := by
  obtain ⟨os, hos, -, hl⟩ := my_lines h
  rw [hl, List.mem_append]
  have hno : Line.op name T w ∉ myOrder order := by
    cases order with
    | none => simp [myOrder]
    | some t => simp only [myOrder]; split <;> simp
  simp only [hno, false_or]
  cases ops with
  | none => simp only [myOps?, Option.some.injEq] at hos; subst hos; simp
  | some a =>
    rw [myOps_mem hos (hk a rfl)]
    constructor
    · rintro ⟨o, _, v, _, h1, h2, e⟩; cases e; exact ⟨rfl, a, o, v, rfl, h1, h2⟩
    · rintro ⟨rfl, a', o, v, e, h1, h2⟩; cases e; exact ⟨o, T, v, name, h1, h2, rfl⟩

/-- C122 partial: if a hint block is generated for MySQL, the statements that run before the query are exactly the switch for
hash joins and the system settings. Missing: settings without other hints, see `C122_mysql_violated`. -/
theorem C122_mysql_partial {order : Option (JT.Tree A)} {ops : Option OpAssign} {params : Option Params} {b : Block}
    (h : myParts order ops params = some (some b)) (x : String × String) :
    x ∈ b.prep ↔ (∃ a v, ops = some a ∧ (PhysOp.join .hash, v) ∈ a.globals ∧
        x = ("block_nested_loop", if v = true then "on" else "off")) ∨ ∃ p, params = some p ∧ x ∈ p.settings := by
  obtain ⟨os, -, hp, -⟩ := my_lines h
  simp only [myPrep, Option.map_eq_some_iff] at hp
  obtain ⟨sw, hsw, e⟩ := hp
  rw [← e, List.mem_append]
  refine or_congr ?_ (by cases params <;> simp [settings?])
  cases ops with
  | none => simp only [mySwitches, Option.some.injEq] at hsw; subst hsw; simp
  | some a =>
    rw [mapAll_mem hsw]
    simp only [Option.map_eq_some_iff, Option.some.injEq, exists_and_left, exists_eq_left']
    constructor
    · rintro ⟨⟨o, v⟩, he, n, hn, rfl⟩
      have : o = .join .hash ∧ n = "block_nested_loop" := by
        rcases o with (o | o | o) <;> cases o <;> simp [mySwitch] at hn ⊢
        exact hn.symm
      obtain ⟨rfl, rfl⟩ := this
      exact ⟨v, he, rfl⟩
    · rintro ⟨v, he, rfl⟩
      exact ⟨(.join .hash, v), he, "block_nested_loop", rfl, rfl⟩

/-- C122 violated: without join order and operators, the settings for MySQL are dropped silently. -/
theorem C122_mysql_violated (p : Params) : myGenerate none none none (some p) = some none := by
  simp [myGenerate, myParts, myOps?, myPrep, mySwitches, myOrder]

/-- C122: for given parts, the generation for MySQL fails exactly if the join order is neither a single table nor has a table
as one of its two inputs, a join other than a hash or a nested-loop join is requested, or an operator other than the hash join
is globally enabled or disabled. -/
theorem C122_mysql_fails (order : Option (JT.Tree Card)) (ops : Option OpAssign) (params : Option Params) :
    myGenerate none order ops params = none ↔
      (∃ c o i a, order = some (.join c o i a) ∧ (∀ c t a, o ≠ .scan c t a) ∧ ∀ c t a, i ≠ .scan c t a) ∨
      ∃ a, ops = some a ∧ ((∃ o T v, Requested a (.join o) T v ∧ o ≠ .hash ∧ o ≠ .nlj) ∨
        ∃ o v, (o, v) ∈ a.globals ∧ o ≠ .join .hash) := by
  have hs : ∀ t : JT.Tree Card, t.isScan = false ↔ ∀ c u a, t ≠ .scan c u a := by
    intro t; cases t <;> simp [JT.Tree.isScan]
  have hlin : (order.bind fun t => t.isLinear) = some false ↔
      ∃ c o i a, order = some (.join c o i a) ∧ (∀ c t a, o ≠ .scan c t a) ∧ ∀ c t a, i ≠ .scan c t a := by
    cases order with
    | none => simp
    | some t =>
      cases t with
      | empty c => simp [JT.Tree.isLinear]
      | scan c t a => simp [JT.Tree.isLinear]
      | join c o i a =>
        simp only [Option.bind_some, JT.Tree.isLinear, Option.some.injEq, Bool.or_eq_false_iff, hs]
        constructor
        · intro h; exact ⟨c, o, i, a, rfl, h⟩
        · rintro ⟨_, _, _, _, e, h⟩; cases e; exact h
  have hv : ∀ {κ ν : Type} (d : Dict κ ν) (v : ν), v ∈ d.values ↔ ∃ k, (k, v) ∈ d := by
    intro κ ν d v; simp [Dict.values]
  have hp : myParts order ops params = none ↔
      ∃ a, ops = some a ∧ ((∃ o T v, Requested a (.join o) T v ∧ o ≠ .hash ∧ o ≠ .nlj) ∨
        ∃ o v, (o, v) ∈ a.globals ∧ o ≠ .join .hash) := by
    cases ops with
    | none => simp [myParts, myOps?, myPrep, mySwitches]
    | some a =>
      have e1 : myOps a = none ↔ ∃ o T v, Requested a (.join o) T v ∧ o ≠ .hash ∧ o ≠ .nlj := by
        simp only [myOps, Option.map_eq_none_iff, mapAll_none]
        have hj : ∀ o, myJoin o = none ↔ o ≠ .hash ∧ o ≠ .nlj := by intro o; cases o <;> simp [myJoin]
        simp only [hj]
        constructor
        · rintro ⟨e, he, h⟩
          exact ⟨e.2.op, e.2.join, e.2.workers, .inr (.inl ⟨e.2, (hv _ _).2 ⟨e.1, he⟩, rfl, rfl, rfl⟩), h⟩
        · rintro ⟨o, T, v, ⟨_, _, h, _⟩ | ⟨j, hj, h, _⟩ | ⟨_, _, h, _⟩, hn⟩
          · cases h
          · cases h
            obtain ⟨k, hj⟩ := (hv _ _).1 hj
            exact ⟨(k, j), hj, hn⟩
          · cases h
      have e2 : mySwitches (some a) = none ↔ ∃ o v, (o, v) ∈ a.globals ∧ o ≠ .join .hash := by
        simp only [mySwitches, mapAll_none, Option.map_eq_none_iff]
        have hw : ∀ o, mySwitch o = none ↔ o ≠ .join .hash := by
          rintro (o | o | o) <;> cases o <;> simp [mySwitch]
        simp only [hw]
        exact ⟨fun ⟨e, he, h⟩ => ⟨e.1, e.2, he, h⟩, fun ⟨o, v, he, h⟩ => ⟨(o, v), he, h⟩⟩
      simp only [Option.some.injEq, exists_eq_left', ← e1, ← e2, myParts, myOps?, myPrep]
      cases myOps a <;> cases mySwitches (some a) <;> simp
  rw [← hlin, ← hp]
  simp only [myGenerate]
  by_cases h : (order.bind fun t => t.isLinear) = some false
  · simp [h]
  · rw [if_neg h]; simp [h]

/-! ### The hypotheses can be met -/

/-- Two scans, a parallel hash join, a memoized intermediate and a global setting. -/
def sampleOps : OpAssign := OpAssign.empty.run
  [.scan ⟨.seqScan, 0, none⟩, .scan ⟨.bitmapScan, 1, some 4⟩, .join ⟨.hash, {0, 1}, some 1, none⟩, .inter .memoize {0},
   .global (.join .merge) false false]

/-- Parameters with a cardinality, a worker count and a setting. -/
def sampleParams : Params := ⟨[({0, 1}, Card.ofInt 10), ({0}, Card.unknown)], [({0, 1}, 3)], [("work_mem", "4MB")], some "sequential"⟩

/-- A join order of three tables. -/
def sampleOrder : JT.Tree Nat :=
  .join .generic (.join .generic (.scan .generic 0 none) (.scan .generic 1 none) none) (.scan .generic 2 none) none

example : (pgHintPlan (fun T => [0, 1]) 12 13 (some sampleOrder) (some sampleOps) (some sampleParams)).map Block.lines =
    some [.geqoOff, .order (.pair (.pair (.table 0) (.table 1)) (.table 2)), .op "SeqScan" {0} none,
      .op "BitmapScan" {1} none, .parallel {1} 4, .op "HashJoin" {0, 1} none, .op "Memoize" {0} none,
      .set "enable_mergejoin" false, .card {0, 1} 10] := by decide +kernel
example : (pgLab (some sampleOrder) (some sampleOps) (some { sampleParams with workers := [] })).map Block.lines =
    some [.planMode "anchored", .order (.pair (.pair (.table 0) (.table 1)) (.table 2)), .op "SeqScan" {0} none,
      .op "BitmapScan" {1} (some 4), .op "HashJoin" {0, 1} none, .op "Memo" {0} none, .set "enable_mergejoin" false,
      .card {0, 1} 10, .setting "work_mem" "4MB", .execMode "sequential"] := by decide +kernel
example : Effective (some sampleOps) (some { sampleParams with workers := [] }) (some sampleOps) := .both _ _ _ rfl
example : OneParallel sampleOps := by unfold OneParallel; decide +kernel
example : ∀ s ∈ sampleOps.scans.values, s.op ≠ .idxScan := by decide +kernel
example : ∀ j ∈ sampleOps.joins.values, many j.workers = none := by decide +kernel
example : Keyed sampleOps := keyed_run _
example : (quackParts (some sampleOrder) (some (OpAssign.empty.run [.scan ⟨.seqScan, 0, none⟩, .global (.join .merge) false false]))
    (some { sampleParams with workers := [] })).map (fun b => (b.prep, b.lines)) =
    some ([("work_mem", "4MB")], [.order (.pair (.pair (.table 0) (.table 1)) (.table 2)), .blank, .op "SeqScan" {0} none,
      .set "enable_mergejoin" false, .blank, .card {0, 1} 10]) := by decide +kernel
example : (myParts (some sampleOrder) (some (OpAssign.empty.run [.scan ⟨.seqScan, 0, none⟩, .global (.join .hash) false false]))
    (some sampleParams)).map (fun b => b.map fun b => (b.prep, b.lines)) =
    some (some ([("block_nested_loop", "off"), ("work_mem", "4MB")], [.orderList [0, 1, 2], .op "NO_INDEX" {0} none])) := by
  decide +kernel
example : LeftDeep sampleOrder ∧ Leaves sampleOrder [0, 1, 2] :=
  ⟨.join _ _ _ _ _ _ (.join _ _ _ _ _ _ (.scan _ _ _)), (leaves_iff _ _).2 rfl⟩
example : Clean (fun t => List.replicate (t + 1) 'a') ∧ Function.Injective (fun t => List.replicate (t + 1) 'a') := by
  refine ⟨fun t => ⟨by simp, by simp, by simp, by simp⟩, fun a b h => ?_⟩
  have := congrArg List.length h
  simpa using this
example : ∃ b, pgLabPlan gatherPlan = some b := by
  have h := C120_plan_violated
  simp only [Option.map_eq_some_iff] at h
  exact ⟨h.choose, h.choose_spec.1⟩

end PB.DbHintsProps
