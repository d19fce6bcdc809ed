import Verif.Model.QueryPlan
import Mathlib.Tactic.Tauto
import Mathlib.Data.Finset.Lattice.Basic
import Mathlib.Data.Finset.Card
import Mathlib.Data.List.Basic

set_option linter.unusedSimpArgs false
set_option linter.unusedVariables false

/-! Properties C23-C26, C61, C63, C77-C80 (query plans). -/

namespace PB.QPProps
open PB PB.Hints PB.QP

/-- Induction over plans. -/
theorem Plan.ind {P : Plan → Prop}
    (h : ∀ i cs s, (∀ c ∈ cs, P c) → (∀ r, s = some r → P r) → P (.node i cs s)) : ∀ p, P p
  | .node i cs s => h i cs s (fun c _ => Plan.ind h c) (fun r _ => Plan.ind h r)

/-! ### Specification -/

/-- Specification: `x` is a node of `p`, reached through children. -/
inductive Node : Plan → Plan → Prop
  | refl (p) : Node p p
  | child {x c i cs s} : c ∈ cs → Node x c → Node x (.node i cs s)

/-- Specification: `x` is a node of `p`, reached through children and subplans. -/
inductive NodeS : Plan → Plan → Prop
  | refl (p) : NodeS p p
  | child {x c i cs s} : c ∈ cs → NodeS x c → NodeS x (.node i cs s)
  | sub {x r i cs} : NodeS x r → NodeS x (.node i cs (some r))

theorem node_nodeS {x p : Plan} (h : Node x p) : NodeS x p := by
  induction h with
  | refl => exact .refl _
  | child hc _ ih => exact .child hc ih

theorem mem_setUnion (l : List (Finset Nat)) (x : Nat) : x ∈ setUnion l ↔ ∃ s ∈ l, x ∈ s := by
  unfold setUnion
  have : ∀ (l : List (Finset Nat)) (acc : Finset Nat),
      x ∈ l.foldl (fun acc s => acc ∪ s) acc ↔ x ∈ acc ∨ ∃ s ∈ l, x ∈ s := by
    intro l
    induction l with
    | nil => simp
    | cons a l ih => intro acc; simp [ih, or_assoc]
  simp [this]

/-- Specification: the table `t` is mentioned somewhere in the plan. -/
def Mentions (p : Plan) (t : Nat) : Prop :=
  ∃ x, NodeS x p ∧ (x.info.base = some t ∨ t ∈ x.info.filterTables ∨ t ∈ x.info.lookupTables ∨
    (x.subplan ≠ none ∧ x.info.subTarget = some t))

theorem mem_optSet (o : Option Nat) (t : Nat) : t ∈ optSet o ↔ o = some t := by
  cases o <;> simp [optSet, eq_comm]

theorem tables_node (i : Info) (cs : List Plan) (s : Option Plan) (t : Nat) :
    t ∈ (Plan.node i cs s).tables ↔ t ∈ i.ownTables ∨ (∃ c ∈ cs, t ∈ c.tables) ∨
      (∃ r, s = some r ∧ (t ∈ r.tables ∨ i.subTarget = some t)) := by
  cases s with
  | none => simp [Plan.tables, mem_setUnion]
  | some r =>
    simp only [Plan.tables, Finset.mem_union, mem_setUnion, List.mem_map, or_assoc]
    simp [mem_optSet]

theorem mem_ownTables (i : Info) (t : Nat) :
    t ∈ i.ownTables ↔ i.base = some t ∨ t ∈ i.filterTables ∨ t ∈ i.lookupTables := by
  simp [Info.ownTables, mem_optSet, or_assoc]

/-- C79: `tables()` are exactly the tables mentioned in the plan, including its subplans. -/
theorem C79_tables (p : Plan) (t : Nat) : t ∈ p.tables ↔ Mentions p t := by
  induction p using Plan.ind with
  | h i cs s ihc ihs =>
    rw [tables_node, mem_ownTables]
    constructor
    · rintro (h | ⟨c, hc, h⟩ | ⟨r, rfl, h | h⟩)
      · exact ⟨_, .refl _, by tauto⟩
      · obtain ⟨x, hx, h⟩ := (ihc c hc).1 h
        exact ⟨x, .child hc hx, h⟩
      · obtain ⟨x, hx, h⟩ := (ihs r rfl).1 h
        exact ⟨x, .sub hx, h⟩
      · exact ⟨_, .refl _, .inr (.inr (.inr ⟨by simp [Plan.subplan], h⟩))⟩
    · rintro ⟨x, hx, h⟩
      cases hx with
      | refl =>
        rcases h with h | h | h | ⟨h, h'⟩
        · exact .inl (.inl h)
        · exact .inl (.inr (.inl h))
        · exact .inl (.inr (.inr h))
        · cases s with
          | none => simp [Plan.subplan] at h
          | some r => exact .inr (.inr ⟨r, rfl, .inr h'⟩)
      | child hc hx => exact .inr (.inl ⟨_, hc, (ihc _ hc).2 ⟨x, hx, h⟩⟩)
      | sub hx => exact .inr (.inr ⟨_, rfl, .inl ((ihs _ rfl).2 ⟨x, hx, h⟩)⟩)

theorem iter_node (i : Info) (cs : List Plan) (s : Option Plan) :
    (Plan.node i cs s).iter = .node i cs s :: ((cs.map Plan.iter).flatten ++ (s.toList.map Plan.iter).flatten) := by
  cases s <;> simp [Plan.iter]

/-! ### C26 -/

/-- C26: iterating over a plan yields exactly its nodes. -/
theorem C26_iter (p x : Plan) : x ∈ p.iter ↔ NodeS x p := by
  induction p using Plan.ind with
  | h i cs s ihc ihs =>
    rw [iter_node]
    simp only [List.mem_cons, List.mem_append, List.mem_flatten, List.mem_map, Option.mem_toList]
    constructor
    · rintro (rfl | ⟨_, ⟨c, hc, rfl⟩, h⟩ | ⟨_, ⟨r, hr, rfl⟩, h⟩)
      · exact .refl _
      · exact .child hc ((ihc c hc).1 h)
      · cases hr; exact .sub ((ihs _ rfl).1 h)
    · intro h
      cases h with
      | refl => exact .inl rfl
      | child hc h => exact .inr (.inl ⟨_, ⟨_, hc, rfl⟩, (ihc _ hc).2 h⟩)
      | sub h => exact .inr (.inr ⟨_, ⟨_, rfl, rfl⟩, (ihs _ rfl).2 h⟩)

/-- C26: `find_all_nodes` returns exactly the matching nodes, in the order of iteration. -/
theorem C26_findAll (f : Plan → Bool) (p : Plan) :
    p.findAll f = p.iter.filter f ∧ ∀ x, x ∈ p.findAll f ↔ NodeS x p ∧ f x = true := by
  have h1 : p.findAll f = p.iter.filter f := by
    induction p using Plan.ind with
    | h i cs s ihc ihs =>
      have e : (cs.map fun c => c.findAll f).flatten = ((cs.map Plan.iter).flatten).filter f := by
        clear ihs
        induction cs with
        | nil => rfl
        | cons c cs ih =>
          simp only [List.map_cons, List.flatten_cons, List.filter_append]
          rw [ihc c (by simp), ih (fun c hc => ihc c (by simp [hc]))]
      rw [iter_node]
      cases s with
      | none =>
        simp only [Plan.findAll, e, Option.toList, List.map_nil, List.flatten_nil, List.append_nil, List.filter_cons]
        split <;> simp
      | some r =>
        simp only [Plan.findAll, e, Option.toList, List.map_cons, List.map_nil, List.flatten_cons, List.flatten_nil,
          List.append_nil, List.filter_cons, List.filter_append, ihs r rfl]
        split <;> simp
  refine ⟨h1, fun x => ?_⟩
  rw [h1, List.mem_filter, C26_iter]

/-- The children are at most two, and only nodes with two children carry subplans, throughout the plan. -/
def Binary (p : Plan) : Prop :=
  ∀ x, NodeS x p → x.children.length ≤ 2 ∧ (x.subplan ≠ none → x.children.length = 2)

theorem Binary.child {i cs s c} (h : Binary (.node i cs s)) (hc : c ∈ cs) : Binary c :=
  fun x hx => h x (.child hc hx)

theorem Binary.sub {i cs r} (h : Binary (.node i cs (some r))) : Binary r := fun x hx => h x (.sub hx)

/-- C26 partial: with at most two children per node, and subplans only at nodes with two children, `find_first_node`
returns the first matching node in iteration order, i.e. finds one iff there is one. Missing: other plans, see below. -/
theorem C26_findFirst_partial (f : Plan → Bool) (p : Plan) (hb : Binary p) :
    p.findFirst f true = some (p.iter.filter f).head? := by
  induction p using Plan.ind with
  | h i cs s ihc ihs =>
    rw [iter_node]
    have hroot := hb _ (.refl _)
    simp only [Plan.children, Plan.subplan] at hroot
    unfold Plan.findFirst
    rw [List.filter_cons]
    by_cases hp : f (.node i cs s) = true
    · simp [hp]
    · simp only [hp, if_false, Bool.false_eq_true]
      match cs, hroot, ihc, hb with
      | [], hroot, ihc, hb =>
        have hs : s = none := by
          by_contra hs
          have := hroot.2 hs
          simp at this
        simp [hs]
      | [a], hroot, ihc, hb =>
        have hs : s = none := by
          by_contra hs
          have := hroot.2 hs
          simp at this
        have := ihc a (by simp) (hb.child (by simp))
        simp [hs, this]
      | [a, b], hroot, ihc, hb =>
        have ha := ihc a (by simp) (hb.child (by simp))
        have hb' := ihc b (by simp) (hb.child (by simp))
        simp only [List.map_cons, List.map_nil, if_true, ha, hb', List.flatten_cons, List.flatten_nil, List.append_nil,
          List.filter_append]
        cases h1 : (List.filter f a.iter) with
        | cons m l => simp
        | nil =>
          cases h2 : (List.filter f b.iter) with
          | cons m l => simp
          | nil =>
            cases s with
            | none => simp
            | some r =>
              have hr := ihs r rfl hb.sub
              simp [hr]
      | a :: b :: c :: l, hroot, _, _ => simp at hroot

/-- C26: whatever `find_first_node` returns is a matching node of the plan, in either direction. -/
theorem C26_findFirst_sound (f : Plan → Bool) (d : Bool) (p x : Plan) (h : p.findFirst f d = some (some x)) :
    NodeS x p ∧ f x = true := by
  induction p using Plan.ind with
  | h i cs s ihc ihs =>
    unfold Plan.findFirst at h
    by_cases hp : f (.node i cs s) = true
    · simp only [hp, if_true, Option.some.injEq] at h
      subst h
      exact ⟨.refl _, hp⟩
    · simp only [hp, if_false, Bool.false_eq_true] at h
      match cs, ihc, h with
      | [], _, h => simp at h
      | [a], ihc, h =>
        simp only [List.map_cons, List.map_nil] at h
        obtain ⟨h1, h2⟩ := ihc a (by simp) h
        exact ⟨.child (by simp) h1, h2⟩
      | [a, b], ihc, h =>
        simp only [List.map_cons, List.map_nil] at h
        have key : a.findFirst f d = some (some x) ∨ b.findFirst f d = some (some x) ∨
            ∃ r, s = some r ∧ r.findFirst f d = some (some x) := by
          cases d
          · simp only [Bool.false_eq_true, if_false] at h
            cases hb : b.findFirst f false with
            | none => simp [hb] at h
            | some rb =>
              cases rb with
              | some m => simp only [hb] at h; exact .inr (.inl h)
              | none =>
                simp only [hb] at h
                cases ha : a.findFirst f false with
                | none => simp [ha] at h
                | some ra =>
                  cases ra with
                  | some m => simp only [ha] at h; exact .inl h
                  | none =>
                    simp only [ha] at h
                    cases s with
                    | none => simp at h
                    | some r => exact .inr (.inr ⟨r, rfl, h⟩)
          · simp only [if_true] at h
            cases ha : a.findFirst f true with
            | none => simp [ha] at h
            | some ra =>
              cases ra with
              | some m => simp only [ha] at h; exact .inl h
              | none =>
                simp only [ha] at h
                cases hb : b.findFirst f true with
                | none => simp [hb] at h
                | some rb =>
                  cases rb with
                  | some m => simp only [hb] at h; exact .inr (.inl h)
                  | none =>
                    simp only [hb] at h
                    cases s with
                    | none => simp at h
                    | some r => exact .inr (.inr ⟨r, rfl, h⟩)
        rcases key with hk | hk | ⟨r, rfl, hk⟩
        · obtain ⟨h1, h2⟩ := ihc a (by simp) hk
          exact ⟨.child (by simp) h1, h2⟩
        · obtain ⟨h1, h2⟩ := ihc b (by simp) hk
          exact ⟨.child (by simp) h1, h2⟩
        · obtain ⟨h1, h2⟩ := ihs r rfl hk
          exact ⟨.sub h1, h2⟩
      | a :: b :: c :: l, _, h => simp at h

/-! Example nodes. -/

/-- A scan of table `t`. -/
def scanInfo (t : Nat) : Info := { opInfo "Seq. Scan" (.scan .seqScan) (Card.ofInt 10) with base := some t }
/-- A hash join. -/
def joinInfo : Info := opInfo "Hash Join" (.join .hash) (Card.ofInt 100)
/-- A node without known operator. -/
def auxInfo : Info := { opInfo "Aggregate" (.scan .seqScan) (Card.ofInt 1) with op := none }
/-- Scan plan. -/
def scanP (t : Nat) : Plan := .node (scanInfo t) [] none
/-- Aggregate over (1 ⋈ 2). -/
def ex2 : Plan := .node auxInfo [.node joinInfo [scanP 1, scanP 2] none] none

theorem nodeS_scanP {x : Plan} {t : Nat} (h : NodeS x (scanP t)) : x = scanP t := by
  cases h with
  | refl => rfl
  | child h _ => simp at h

example : Binary ex2 := by
  intro x hx
  cases hx with
  | refl => simp [ex2, Plan.children, Plan.subplan]
  | child hc hx =>
    simp only [List.mem_singleton] at hc
    subst hc
    cases hx with
    | refl => simp [Plan.children, Plan.subplan]
    | child hc hx =>
      simp only [List.mem_cons, List.not_mem_nil, or_false] at hc
      rcases hc with rfl | rfl <;>
      · rw [nodeS_scanP hx]; simp [scanP, Plan.children, Plan.subplan]

/-- C26 violated: a matching node inside the subplan of a scan is not found. -/
theorem C26_subplan_violated :
    ∃ p x, NodeS x p ∧ x.info.base = some 2 ∧ p.findFirst (fun n => n.info.base == some 2) true = some none := by
  refine ⟨.node (scanInfo 1) [] (some (scanP 2)), scanP 2, .sub (.refl _), rfl, ?_⟩
  simp [Plan.findFirst, Plan.info, scanInfo]

/-- C26 violated: for a node with three children that does not match itself, `find_first_node` raises an exception. -/
theorem C26_threeChildren_violated (f : Plan → Bool) (i : Info) (a b c : Plan) (l : List Plan) (s : Option Plan)
    (h : f (.node i (a :: b :: c :: l) s) = false) (d : Bool) :
    (Plan.node i (a :: b :: c :: l) s).findFirst f d = none := by
  unfold Plan.findFirst
  rw [h]
  simp

/-! ### C79 lookup, iteration over child nodes -/

/-- C79: `iternodes()` yields exactly the nodes reachable through children. -/
theorem C79_iternodes (p x : Plan) : x ∈ p.iternodes ↔ Node x p := by
  induction p using Plan.ind with
  | h i cs s ihc ihs =>
    simp only [Plan.iternodes, List.mem_append, List.mem_flatten, List.mem_map, List.mem_singleton]
    constructor
    · rintro (⟨_, ⟨c, hc, rfl⟩, h⟩ | rfl)
      · exact .child hc ((ihc c hc).1 h)
      · exact .refl _
    · intro h
      cases h with
      | refl => exact .inr rfl
      | child hc h => exact .inl ⟨_, ⟨_, hc, rfl⟩, (ihc _ hc).2 h⟩

theorem node_tables {x p : Plan} (h : Node x p) : x.tables ⊆ p.tables := by
  induction h with
  | refl => exact Finset.Subset.refl _
  | child hc _ ih => intro t ht; rw [tables_node]; exact .inr (.inl ⟨_, hc, ih ht⟩)

/-- C79: a lookup returns a node over exactly the requested tables. -/
theorem C79_lookup_sound (p x : Plan) (n : Finset Nat) (h : p.lookup n = some x) : Node x p ∧ x.tables = n := by
  induction p using Plan.ind with
  | h i cs s ihc ihs =>
    unfold Plan.lookup at h
    split at h
    · rename_i he
      cases h; exact ⟨.refl _, he.symm⟩
    · split at h
      · cases h
      · rw [List.findSome?_eq_some_iff] at h
        obtain ⟨l1, a, l2, h1, h2, h3⟩ := h
        have : a ∈ (cs.map fun c => c.lookup n) := by rw [h1]; simp
        obtain ⟨c, hc, rfl⟩ := List.mem_map.1 this
        obtain ⟨h4, h5⟩ := ihc c hc h2
        exact ⟨.child hc h4, h5⟩

/-- C79: a lookup succeeds iff some node (reached through children) has exactly the requested tables. -/
theorem C79_lookup_complete (p : Plan) (n : Finset Nat) :
    (∃ x, p.lookup n = some x) ↔ ∃ x, Node x p ∧ x.tables = n := by
  constructor
  · rintro ⟨x, h⟩; exact ⟨x, C79_lookup_sound p x n h⟩
  · rintro ⟨x, hx, rfl⟩
    induction p using Plan.ind with
    | h i cs s ihc ihs =>
      unfold Plan.lookup
      split
      · exact ⟨_, rfl⟩
      · rename_i hne
        rw [if_neg (by simpa using node_tables hx)]
        cases hx with
        | refl => simp at hne
        | child hc hx =>
          rename_i c
          obtain ⟨r, hr⟩ := ihc c hc hx
          cases hl : (cs.map fun c => c.lookup x.tables).findSome? id with
          | some y => exact ⟨y, rfl⟩
          | none =>
            rw [List.findSome?_eq_none_iff] at hl
            have := hl (c.lookup x.tables) (List.mem_map.2 ⟨c, hc, rfl⟩)
            rw [hr] at this
            simp at this

/-- C79: `plan_depth()` bounds the depth of all chains of child nodes and is reached. -/
theorem C79_depth (p : Plan) :
    (∀ c ∈ p.children, c.depth < p.depth) ∧
    (p.children = [] → p.depth = 1) ∧ (p.children ≠ [] → ∃ c ∈ p.children, p.depth = c.depth + 1) := by
  obtain ⟨i, cs, s⟩ := p
  have le : ∀ (l : List Nat) (a : Nat), a ≤ l.foldl max a ∧ (∀ x ∈ l, x ≤ l.foldl max a) ∧
      (l.foldl max a = a ∨ l.foldl max a ∈ l) := by
    intro l
    induction l with
    | nil => intro a; simp
    | cons x l ih =>
      intro a
      obtain ⟨h1, h2, h3⟩ := ih (max a x)
      simp only [List.foldl_cons, List.mem_cons, forall_eq_or_imp]
      refine ⟨by omega, ⟨by omega, h2⟩, ?_⟩
      rcases h3 with h3 | h3
      · rw [h3]
        rcases le_total a x with h | h
        · right; left; omega
        · left; omega
      · exact .inr (.inr h3)
  obtain ⟨h1, h2, h3⟩ := le (cs.map fun c => c.depth) 0
  simp only [Plan.children, Plan.depth]
  refine ⟨?_, ?_, ?_⟩
  · intro c hc
    have := h2 c.depth (List.mem_map.2 ⟨c, hc, rfl⟩)
    omega
  · rintro rfl; simp
  · intro hne
    have pos : ∀ p : Plan, 1 ≤ p.depth := by rintro ⟨i, cs, s⟩; simp [Plan.depth]
    rcases h3 with h3 | h3
    · obtain ⟨c, l, rfl⟩ := List.exists_cons_of_ne_nil hne
      have := h2 c.depth (by simp)
      have := pos c
      omega
    · obtain ⟨c, hc, he⟩ := List.mem_map.1 h3
      exact ⟨c, hc, by omega⟩

/-! ### C25 -/

theorem allSome_eq {α : Type} (l : List (Option α)) (r : List α) : allSome l = some r ↔ l = r.map some := by
  induction l generalizing r with
  | nil => cases r <;> simp [allSome]
  | cons a l ih =>
    cases a with
    | none => cases r <;> simp [allSome]
    | some a =>
      cases r with
      | nil => simp [allSome]
      | cons b r =>
        simp only [allSome, Option.map_eq_some_iff, List.cons.injEq, List.map_cons, Option.some.injEq]
        constructor
        · rintro ⟨l', h1, h2, h3⟩
          subst h2; subst h3
          exact ⟨rfl, (ih _).1 h1⟩
        · rintro ⟨rfl, h⟩
          exact ⟨r, (ih r).2 h, rfl, rfl⟩

/-- The canonical form of an optional subplan. -/
def canonSub : Option Plan → Option (Option Plan)
  | none => some none
  | some r => r.canonical.map some

theorem canonical_node (i : Info) (cs : List Plan) (s : Option Plan) :
    (Plan.node i cs s).canonical =
      match canonSub s with
      | none => none
      | some s' =>
        if i.isScan then some (.node i [] s')
        else if i.isJoin then (allSome (cs.map Plan.canonical)).map fun cs' => .node i cs' s'
        else match cs.map Plan.canonical with
          | [r] => r
          | _ => none := by
  cases s with
  | none => simp only [Plan.canonical, canonSub]; rfl
  | some r => simp only [Plan.canonical, canonSub]; rfl

/-- Inversion of `canonical`. -/
theorem canonical_inv {i : Info} {cs : List Plan} {s : Option Plan} {q : Plan}
    (h : (Plan.node i cs s).canonical = some q) :
    (i.isScan = true ∧ ∃ s', canonSub s = some s' ∧ q = .node i [] s') ∨
    (i.isScan = false ∧ i.isJoin = true ∧ ∃ s' cs', canonSub s = some s' ∧ cs.map Plan.canonical = cs'.map some ∧
      q = .node i cs' s') ∨
    (i.isScan = false ∧ i.isJoin = false ∧ ∃ c, cs = [c] ∧ c.canonical = some q) := by
  rw [canonical_node] at h
  cases hs : canonSub s with
  | none => simp [hs] at h
  | some s' =>
    simp only [hs] at h
    by_cases h1 : i.isScan = true
    · simp only [h1, if_true, Option.some.injEq] at h
      exact .inl ⟨h1, s', rfl, h.symm⟩
    · rw [if_neg h1] at h
      by_cases h2 : i.isJoin = true
      · simp only [h2, if_true, Option.map_eq_some_iff] at h
        obtain ⟨cs', h3, h4⟩ := h
        exact .inr (.inl ⟨by simpa using h1, h2, s', cs', rfl, (allSome_eq _ _).1 h3, h4.symm⟩)
      · rw [if_neg h2] at h
        match cs, h with
        | [], h => simp at h
        | [c], h => exact .inr (.inr ⟨by simpa using h1, by simpa using h2, c, rfl, h⟩)
        | a :: b :: l, h => simp at h

/-- Specification: a plan made of scans and joins only (including its subplans). -/
def OnlyScansAndJoins (p : Plan) : Prop := ∀ x, NodeS x p → x.info.isScan = true ∨ x.info.isJoin = true

theorem canonSub_some {s : Option Plan} {r : Plan} (h : canonSub s = some (some r)) :
    ∃ r0, s = some r0 ∧ r0.canonical = some r := by
  cases s with
  | none => simp [canonSub] at h
  | some r0 => exact ⟨r0, rfl, by simpa [canonSub] using h⟩

/-- C25: the canonical plan consists of scans and joins only. -/
theorem C25_only (p q : Plan) (h : p.canonical = some q) : OnlyScansAndJoins q := by
  induction p using Plan.ind generalizing q with
  | h i cs s ihc ihs =>
    rcases canonical_inv h with ⟨h1, s', hs, rfl⟩ | ⟨h1, h2, s', cs', hs, hc, rfl⟩ | ⟨h1, h2, c, rfl, hq⟩
    · intro x hx
      cases hx with
      | refl => exact .inl h1
      | child hc _ => simp at hc
      | sub hx =>
        obtain ⟨r0, rfl, hr⟩ := canonSub_some hs
        exact ihs r0 rfl _ hr x hx
    · intro x hx
      cases hx with
      | refl => exact .inr h2
      | child hm hx =>
        rename_i c'
        have : some c' ∈ cs.map Plan.canonical := by rw [hc]; exact List.mem_map.2 ⟨_, hm, rfl⟩
        obtain ⟨c, hcm, hce⟩ := List.mem_map.1 this
        exact ihc c hcm _ hce x hx
      | sub hx =>
        obtain ⟨r0, rfl, hr⟩ := canonSub_some hs
        exact ihs r0 rfl _ hr x hx
    · exact ihc c (by simp) q hq

/-- C25: canonicalising twice is the same as once. -/
theorem C25_idempotent (p q : Plan) (h : p.canonical = some q) : q.canonical = some q := by
  induction p using Plan.ind generalizing q with
  | h i cs s ihc ihs =>
    have hsub : ∀ s', canonSub s = some s' → canonSub s' = some s' := by
      intro s' hs
      cases s' with
      | none => rfl
      | some r =>
        obtain ⟨r0, rfl, hr⟩ := canonSub_some hs
        simp [canonSub, ihs r0 rfl r hr]
    rcases canonical_inv h with ⟨h1, s', hs, rfl⟩ | ⟨h1, h2, s', cs', hs, hc, rfl⟩ | ⟨h1, h2, c, rfl, hq⟩
    · rw [canonical_node, hsub s' hs]; simp [h1]
    · rw [canonical_node, hsub s' hs]
      have : cs'.map Plan.canonical = cs'.map some := by
        apply List.map_congr_left
        intro c' hm
        have : some c' ∈ cs.map Plan.canonical := by rw [hc]; exact List.mem_map.2 ⟨_, hm, rfl⟩
        obtain ⟨c, hcm, hce⟩ := List.mem_map.1 this
        exact ihc c hcm _ hce
      simp only [h1, h2, if_true, Bool.false_eq_true, if_false]
      rw [(allSome_eq _ _).2 this]
      rfl
    · exact ihc c (by simp) q hq

/-- Every auxiliary node has exactly one input. -/
def Shaped (p : Plan) : Prop := ∀ x, NodeS x p → x.info.isAux = true → x.children.length = 1

/-- C25: canonicalising never fails if every auxiliary node has exactly one input. -/
theorem C25_total (p : Plan) (h : Shaped p) : ∃ q, p.canonical = some q := by
  induction p using Plan.ind with
  | h i cs s ihc ihs =>
    have hs : ∃ s', canonSub s = some s' := by
      cases s with
      | none => exact ⟨none, rfl⟩
      | some r =>
        obtain ⟨q, hq⟩ := ihs r rfl (fun x hx => h x (.sub hx))
        exact ⟨some q, by simp [canonSub, hq]⟩
    obtain ⟨s', hs⟩ := hs
    have hcs : ∀ c ∈ cs, ∃ q, c.canonical = some q := fun c hc => ihc c hc (fun x hx => h x (.child hc hx))
    rw [canonical_node, hs]
    by_cases h1 : i.isScan = true
    · simp [h1]
    · by_cases h2 : i.isJoin = true
      · have : ∃ cs' : List Plan, cs.map Plan.canonical = cs'.map some := by
          clear h ihc ihs hs
          induction cs with
          | nil => exact ⟨[], rfl⟩
          | cons c cs ih =>
            obtain ⟨q, hq⟩ := hcs c (by simp)
            obtain ⟨cs', hcs'⟩ := ih (fun c hc => hcs c (by simp [hc]))
            exact ⟨q :: cs', by simp [hq, hcs']⟩
        obtain ⟨cs', hc⟩ := this
        simp only [h1, h2, if_true, if_false]
        rw [(allSome_eq _ _).2 hc]
        exact ⟨_, rfl⟩
      · have := h _ (.refl _) (by simp [Plan.info, Info.isAux, h1, h2])
        simp only [Plan.children] at this
        match cs, this with
        | [c], _ =>
          obtain ⟨q, hq⟩ := hcs c (by simp)
          exact ⟨q, by simp [h1, h2, hq]⟩

theorem jointree_node (src : CardSource) (i : Info) (cs : List Plan) (s : Option Plan) :
    (Plan.node i cs s).jointree src =
      if i.isScan then
        match i.base with
        | some t => some (.scan .generic t (some (i.card src)))
        | none => some (.empty .generic)
      else if i.isJoin then
        match cs.map (Plan.jointree src) with
        | [o, n] => do
          let o' ← o
          let n' ← n
          some (.join .generic o' n' (some (i.card src)))
        | _ => none
      else match cs.map (Plan.jointree src) with
        | [r] => r
        | _ => none := by
  rw [Plan.jointree]; rfl

/-- C25: canonicalising keeps the joins and scans, their nesting and their cardinalities: the join tree of the plan is
unchanged. -/
theorem C25_jointree (src : CardSource) (p q : Plan) (h : p.canonical = some q) :
    q.jointree src = p.jointree src := by
  induction p using Plan.ind generalizing q with
  | h i cs s ihc ihs =>
    rcases canonical_inv h with ⟨h1, s', hs, rfl⟩ | ⟨h1, h2, s', cs', hs, hc, rfl⟩ | ⟨h1, h2, c, rfl, hq⟩
    · rw [jointree_node, jointree_node]; simp [h1]
    · have e : cs'.map (Plan.jointree src) = cs.map (Plan.jointree src) := by
        clear h ihs hs
        induction cs' generalizing cs with
        | nil => cases cs <;> simp_all
        | cons c' cs' ih =>
          cases cs with
          | nil => simp at hc
          | cons c cs =>
            simp only [List.map_cons, List.cons.injEq] at hc ⊢
            exact ⟨ihc c (by simp) c' hc.1, ih (cs := cs) (fun c hc => ihc c (by simp [hc])) hc.2⟩
      rw [jointree_node, jointree_node, e]
    · rw [ihc c (by simp) q hq, jointree_node _ i]
      simp [h1, h2]

/-- C25: every scan and join kept by canonicalisation comes from the plan, with the same operator, base table, estimates
and measures. -/
theorem C25_nodes (p q : Plan) (h : p.canonical = some q) (x : Plan) (hx : NodeS x q) :
    ∃ y, NodeS y p ∧ y.info = x.info := by
  induction p using Plan.ind generalizing q x with
  | h i cs s ihc ihs =>
    rcases canonical_inv h with ⟨h1, s', hs, rfl⟩ | ⟨h1, h2, s', cs', hs, hc, rfl⟩ | ⟨h1, h2, c, rfl, hq⟩
    · cases hx with
      | refl => exact ⟨_, .refl _, rfl⟩
      | child hc _ => simp at hc
      | sub hx =>
        obtain ⟨r0, rfl, hr⟩ := canonSub_some hs
        obtain ⟨y, hy, he⟩ := ihs r0 rfl _ hr x hx
        exact ⟨y, .sub hy, he⟩
    · cases hx with
      | refl => exact ⟨_, .refl _, rfl⟩
      | child hm hx =>
        rename_i c'
        have : some c' ∈ cs.map Plan.canonical := by rw [hc]; exact List.mem_map.2 ⟨_, hm, rfl⟩
        obtain ⟨c, hcm, hce⟩ := List.mem_map.1 this
        obtain ⟨y, hy, he⟩ := ihc c hcm _ hce x hx
        exact ⟨y, .child hcm hy, he⟩
      | sub hx =>
        obtain ⟨r0, rfl, hr⟩ := canonSub_some hs
        obtain ⟨y, hy, he⟩ := ihs r0 rfl _ hr x hx
        exact ⟨y, .sub hy, he⟩
    · obtain ⟨y, hy, he⟩ := ihc c (by simp) q hq x hx
      exact ⟨y, .child (by simp) hy, he⟩

/-- C25 violated: the subplan of an auxiliary node is dropped, together with its tables. -/
theorem C25_subplan_violated :
    ∃ p q : Plan, p.canonical = some q ∧ 2 ∈ p.tables ∧ 2 ∉ q.tables := by
  refine ⟨.node auxInfo [scanP 1] (some (scanP 2)), scanP 1, ?_, ?_, ?_⟩
  · simp [Plan.canonical, scanP, auxInfo, scanInfo, opInfo, Info.isScan, Info.isJoin]
  · rw [tables_node]
    refine .inr (.inr ⟨_, rfl, .inl ?_⟩)
    rw [scanP, tables_node, mem_ownTables]; simp [scanInfo]
  · rw [scanP, tables_node, mem_ownTables]; simp [scanInfo, opInfo]

/-- The scans have no inputs and the auxiliary nodes mention no table of their own and have no subplan. -/
def Plain (p : Plan) : Prop := ∀ x, NodeS x p →
  (x.info.isScan = true → x.children = []) ∧
  (x.info.isAux = true → x.children.length = 1 ∧ x.subplan = none ∧
    ∀ t ∈ x.info.ownTables, ∃ c ∈ x.children, t ∈ c.tables)

/-- C25 partial: the tables are kept if auxiliary nodes mention only tables of their input and have no subplan, and
scans have no inputs. Missing: plans with subplans at auxiliary nodes. -/
theorem C25_tables_partial (p q : Plan) (hp : Plain p) (h : p.canonical = some q) : q.tables = p.tables := by
  induction p using Plan.ind generalizing q with
  | h i cs s ihc ihs =>
    have hsub : ∀ s', canonSub s = some s' → ∀ t, (∃ r', s' = some r' ∧ (t ∈ r'.tables ∨ i.subTarget = some t)) ↔
          (∃ r, s = some r ∧ (t ∈ r.tables ∨ i.subTarget = some t)) := by
      intro s' hs
      cases s' with
      | none => cases s <;> simp_all [canonSub]
      | some r' =>
        obtain ⟨r0, rfl, hr⟩ := canonSub_some hs
        have := ihs r0 rfl r' (fun x hx => hp x (.sub hx)) hr
        simp [this]
    have hroot := hp _ (.refl _)
    simp only [Plan.info, Plan.children, Plan.subplan] at hroot
    rcases canonical_inv h with ⟨h1, s', hs, rfl⟩ | ⟨h1, h2, s', cs', hs, hc, rfl⟩ | ⟨h1, h2, c, rfl, hq⟩
    · ext t
      rw [tables_node, tables_node, hsub s' hs t, hroot.1 h1]
    · ext t
      rw [tables_node, tables_node, hsub s' hs t]
      have : (∃ c ∈ cs', t ∈ c.tables) ↔ ∃ c ∈ cs, t ∈ c.tables := by
        constructor
        · rintro ⟨c', hm, ht⟩
          have : some c' ∈ cs.map Plan.canonical := by rw [hc]; exact List.mem_map.2 ⟨_, hm, rfl⟩
          obtain ⟨c, hcm, hce⟩ := List.mem_map.1 this
          rw [ihc c hcm c' (fun x hx => hp x (.child hcm hx)) hce] at ht
          exact ⟨c, hcm, ht⟩
        · rintro ⟨c, hm, ht⟩
          have : c.canonical ∈ cs'.map some := by rw [← hc]; exact List.mem_map.2 ⟨_, hm, rfl⟩
          obtain ⟨c', hcm, hce⟩ := List.mem_map.1 this
          rw [← ihc c hm c' (fun x hx => hp x (.child hm hx)) hce.symm] at ht
          exact ⟨c', hcm, ht⟩
      rw [this]
    · obtain ⟨g1, g2, g3⟩ := hroot.2 (by simp [Info.isAux, h1, h2])
      subst g2
      rw [ihc c (by simp) q (fun x hx => hp x (.child (by simp) hx)) hq]
      ext t
      rw [tables_node]
      constructor
      · intro ht; exact .inr (.inl ⟨c, by simp, ht⟩)
      · rintro (ht | ⟨c', hc', ht⟩ | ⟨r, hr, _⟩)
        · obtain ⟨c', hc', ht⟩ := g3 t ht
          simp at hc'; subst hc'; exact ht
        · simp at hc'; subst hc'; exact ht
        · simp at hr

theorem nodeS_ex2 {x : Plan} (h : NodeS x ex2) : x = ex2 ∨ x = .node joinInfo [scanP 1, scanP 2] none ∨ x = scanP 1 ∨ x = scanP 2 := by
  cases h with
  | refl => exact .inl rfl
  | child hc hx =>
    simp only [List.mem_singleton] at hc
    subst hc
    cases hx with
    | refl => exact .inr (.inl rfl)
    | child hc hx =>
      simp only [List.mem_cons, List.not_mem_nil, or_false] at hc
      rcases hc with rfl | rfl
      · exact .inr (.inr (.inl (nodeS_scanP hx)))
      · exact .inr (.inr (.inr (nodeS_scanP hx)))

/-- The hypotheses of the theorems on canonical plans are met: the plan has a canonical form. -/
example : Shaped ex2 ∧ Plain ex2 ∧ ∃ q, ex2.canonical = some q := by
  have hs : Shaped ex2 := by
    intro x hx h
    rcases nodeS_ex2 hx with rfl | rfl | rfl | rfl
    · rfl
    all_goals (revert h; decide)
  refine ⟨hs, ?_, C25_total ex2 hs⟩
  intro x hx
  rcases nodeS_ex2 hx with rfl | rfl | rfl | rfl
  · refine ⟨fun h => by revert h; decide, fun _ => ⟨rfl, rfl, fun t ht => ?_⟩⟩
    have h0 : ex2.info.ownTables = ∅ := by decide +kernel
    rw [h0] at ht; simp at ht
  · exact ⟨fun h => by revert h; decide, fun h => by revert h; decide⟩
  · exact ⟨fun _ => rfl, fun h => by revert h; decide⟩
  · exact ⟨fun _ => rfl, fun h => by revert h; decide⟩

/-- The hypotheses of the theorems on searches are met: the root is found by its tables, and the first scan is found. -/
example : ex2.lookup ex2.tables = some ex2 ∧ ex2.findFirst (fun p => p.info.isScan) true = some (some (scanP 1)) := by
  constructor
  · unfold ex2 Plan.lookup; simp
  · simp [ex2, Plan.findFirst, Plan.info, auxInfo, joinInfo, scanP, scanInfo, opInfo, Info.isScan]

end PB.QPProps
