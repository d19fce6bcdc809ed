import Verif.Props.PlanExtract
import Verif.Props.Cardinality

set_option linter.unusedSimpArgs false
set_option linter.unusedVariables false

/-! Properties C61 (comparison of plans), C77 (q-error), C78 (updating estimates), C80 (plan equality) and C81 (shape of
plans). -/

namespace PB.QPProps
open PB PB.Hints PB.QP PB.CardProps

/-! ### C80 -/

/-- Specification: two plans have the same skeleton, i.e. the same node types and base tables in the same positions. -/
inductive SameSkeleton : Plan → Plan → Prop
  | node {i i' cs cs' s s'} : i.nodeType = i'.nodeType → i.base = i'.base → List.Forall₂ SameSkeleton cs cs' →
      SameSkeleton (.node i cs s) (.node i' cs' s')

theorem pyEq_node (i i' : Info) (cs cs' : List Plan) (s s' : Option Plan) :
    (Plan.node i cs s).pyEq (.node i' cs' s') =
      (i.nodeType == i'.nodeType && i.base == i'.base && cs.length == cs'.length &&
        ((cs.map Plan.pyEq).zip cs').all fun e => e.1 e.2) := by
  rw [Plan.pyEq]

theorem zip_all (cs cs' : List Plan) :
    (cs.length = cs'.length ∧ ((cs.map Plan.pyEq).zip cs').all (fun e => e.1 e.2) = true) ↔
      List.Forall₂ (fun a b => a.pyEq b = true) cs cs' := by
  induction cs generalizing cs' with
  | nil => cases cs' <;> simp
  | cons a l ih =>
    cases cs' with
    | nil => simp
    | cons b l' =>
      simp only [List.length_cons, Nat.add_right_cancel_iff, List.map_cons, List.zip_cons_cons, List.all_cons,
        Bool.and_eq_true, List.forall₂_cons, ← ih l']
      tauto

/-- C80: two plans are equal exactly if they have the same skeleton. -/
theorem C80_eq (p q : Plan) : p.pyEq q = true ↔ SameSkeleton p q := by
  induction p using Plan.ind generalizing q with
  | h i cs s ihc ihs =>
    obtain ⟨i', cs', s'⟩ := q
    have key : List.Forall₂ (fun a b => a.pyEq b = true) cs cs' ↔ List.Forall₂ SameSkeleton cs cs' := by
      clear ihs
      induction cs generalizing cs' with
      | nil => cases cs' <;> simp
      | cons a l ih =>
        cases cs' with
        | nil => simp
        | cons b l' =>
          simp only [List.forall₂_cons]
          rw [ihc a (by simp) b, ih (fun c hc => ihc c (by simp [hc])) l']
    rw [pyEq_node]
    simp only [Bool.and_eq_true, beq_iff_eq]
    rw [and_assoc, zip_all, key]
    constructor
    · rintro ⟨⟨h1, h2⟩, h3⟩; exact .node h1 h2 h3
    · rintro ⟨h1, h2, h3⟩; exact ⟨⟨h1, h2⟩, h3⟩

theorem skeleton_hash (p q : Plan) : SameSkeleton p q ↔ p.hashKey = q.hashKey := by
  induction p using Plan.ind generalizing q with
  | h i cs s ihc ihs =>
    obtain ⟨i', cs', s'⟩ := q
    have hk : ∀ (i : Info) (cs : List Plan) (s : Option Plan),
        (Plan.node i cs s).hashKey = .mk i.nodeType i.base (cs.map Plan.hashKey) := by
      intro i cs s; rw [Plan.hashKey]
    have key : List.Forall₂ SameSkeleton cs cs' ↔ cs.map Plan.hashKey = cs'.map Plan.hashKey := by
      clear ihs
      induction cs generalizing cs' with
      | nil => cases cs' <;> simp
      | cons a l ih =>
        cases cs' with
        | nil => simp
        | cons b l' =>
          simp only [List.forall₂_cons, List.map_cons, List.cons.injEq]
          rw [ihc a (by simp) b, ih (fun c hc => ihc c (by simp [hc])) l']
    rw [hk, hk, HashKey.mk.injEq, ← key]
    constructor
    · rintro ⟨h1, h2, h3⟩; exact ⟨h1, h2, h3⟩
    · rintro ⟨h1, h2, h3⟩; exact .node h1 h2 h3

/-- C80: plan equality is an equivalence relation, and equal plans have equal hashes. -/
theorem C80_equivalence (p q r : Plan) :
    p.pyEq p = true ∧ (p.pyEq q = true → q.pyEq p = true) ∧
      (p.pyEq q = true → q.pyEq r = true → p.pyEq r = true) ∧ (p.pyEq q = true → p.hashKey = q.hashKey) := by
  simp only [C80_eq, skeleton_hash]
  exact ⟨trivial, fun h => h.symm, fun h1 h2 => h1.trans h2, id⟩

/-- Non-trivial instances: the operands' order matters, estimates do not. -/
example : (Plan.node joinInfo [scanP 1, scanP 2] none).pyEq (.node joinInfo [scanP 2, scanP 1] none) = false := by
  rw [pyEq_node]; simp [scanP, pyEq_node, scanInfo, opInfo]

example : ((scanP 1).withEstimates (some (Card.ofInt 7)) none false).pyEq (scanP 1) = true := by
  rw [scanP, Plan.withEstimates, pyEq_node]; simp

/-! ### C61 -/

theorem tables_ne_of_disjoint {a b : Plan} (ha : a.tables.Nonempty) (hd : Disjoint a.tables b.tables) :
    a.tables ≠ b.tables := by
  intro e
  obtain ⟨x, hx⟩ := ha
  exact Finset.disjoint_left.1 hd hx (e ▸ hx)

theorem compare_diff {a b : Plan} (h : a.tables ≠ b.tables) (l : List Change) (hc : comparePlans a b = some l) :
    l = [.treeStructure] := by
  match a with
  | .node i [] s => simp [comparePlans, h, Option.bind_eq_some_iff] at hc; exact hc.2.2.symm
  | .node i [x] s => simp [comparePlans, h, Option.bind_eq_some_iff] at hc; exact hc.2.2.symm
  | .node i [x, y] s => simp [comparePlans, h, Option.bind_eq_some_iff] at hc; exact hc.2.2.symm
  | .node i (x :: y :: z :: w) s => simp [comparePlans, h, Option.bind_eq_some_iff] at hc; exact hc.2.2.symm

/-- C61 violated: no join plan whose inputs have different tables is equal to itself: the comparison reports a
different tree structure (or fails). -/
theorem C61_self_violated (i : Info) (a b : Plan) (s : Option Plan) (hj : i.isJoin = true) (hd : a.tables ≠ b.tables)
    (l : List Change) (h : comparePlans (.node i [a, b] s) (.node i [a, b] s) = some l) : Change.treeStructure ∈ l := by
  simp only [comparePlans, hj, if_true, Plan.children, Plan.info, ne_eq, not_true_eq_false, if_false, hd.symm,
    Option.bind_eq_bind, Option.bind_eq_some_iff, Option.some.injEq] at h
  obtain ⟨_, _, _, _, own, _, x, hx, y, hy, rfl⟩ := h
  rw [compare_diff hd y hy]
  simp

theorem cardNe_self (e : ECard) : cardNe (mk e) (mk e) = some false := by
  cases e with
  | unknown => rfl
  | infinite => rfl
  | finite n =>
    simp only [cardNe, mk, ofInt_eq, Card.eq, Card.valueProp]
    simp [bind, Except.bind, pure, Except.pure]

theorem compareInfo_self (i : Info) (h1 : ∃ e, i.estCard = mk e) (h2 : ∃ e, i.actCard = mk e) :
    compareInfo i i = some [] := by
  obtain ⟨e1, h1⟩ := h1
  obtain ⟨e2, h2⟩ := h2
  have hc : (fltNe i.estCost i.estCost && !(i.estCost = .nan && i.estCost = .nan)) = false := by
    cases i.estCost <;> simp [fltNe]
  simp only [compareInfo, h1, h2, cardNe_self, Option.bind_eq_bind, Option.bind_some]
  simp only [Bool.decide_and, hc] at *
  simp [fltNe]

/-- C61 partial: a scan compared with itself has no differences (with properly constructed cardinalities). Missing: all
join plans, see `C61_self_violated`. -/
theorem C61_scan_partial (i : Info) (hs : i.isScan = true) (h1 : ∃ e, i.estCard = mk e)
    (h2 : ∃ e, i.actCard = mk e) : comparePlans (.node i [] none) (.node i [] none) = some [] := by
  have hj : i.isJoin = false := by
    cases h : i.isJoin with
    | false => rfl
    | true => rw [scan_not_join h] at hs; cases hs
  have haux : i.isAux = false := by simp [Info.isAux, hs]
  have hc : checkNoAux (.node i [] none) = some () := by
    simp [checkNoAux, Plan.findFirst, Plan.info, haux]
  simp [comparePlans, hc, Plan.info, compareInfo_self i h1 h2, hj]

example : ∃ i : Info, i.isScan = true ∧ (∃ e, i.estCard = mk e) ∧ (∃ e, i.actCard = mk e) :=
  ⟨scanInfo 1, rfl, ⟨.finite 10, rfl⟩, ⟨.unknown, rfl⟩⟩

/-- Two cardinalities are of the same kind: both known, both unknown or both infinite. -/
def SameKind (a b : ECard) : Prop := a = b ∨ ∃ m n, a = .finite m ∧ b = .finite n

theorem cardNe_mk (a b : ECard) (h : SameKind a b) : cardNe (mk a) (mk b) = some (decide (a ≠ b)) := by
  rcases h with rfl | ⟨m, n, rfl, rfl⟩
  · simpa using cardNe_self a
  · simp [cardNe, mk, ofInt_eq, Card.eq, Card.valueProp, bind, Except.bind, pure, Except.pure]

theorem mk_nan (a : ECard) : (mk a).nan = true ↔ a = .unknown := by
  cases a with
  | unknown => simp [mk, unknown_eq]
  | infinite => simp [mk, infinite_eq]
  | finite n => simp [mk, ofInt_eq]

/-- **C61**: the comparison of two scans reports exactly the differences between them: another table is a different tree structure, otherwise the differing
cardinalities, operators and costs are reported and nothing else. Missing: costs that are unknown in the first plan only, see
`C61_cost_violated`, and cardinalities that are known in one plan only, see `C61_known_violated`. -/
theorem C61_scan_diff_partial (i j : Info) (hi : i.isScan = true) (hj : j.isScan = true) (a b c d : ECard) (h1 : i.estCard = mk a) (h2 : j.estCard = mk b)
    (h3 : i.actCard = mk c) (h4 : j.actCard = mk d) (hab : SameKind a b) (hcd : SameKind c d) :
    ∃ l, comparePlans (.node i [] none) (.node j [] none) = some l ∧ (Change.treeStructure ∈ l ↔ (Plan.node i [] none).tables ≠ (Plan.node j [] none).tables) ∧
      ((Plan.node i [] none).tables ≠ (Plan.node j [] none).tables → l = [.treeStructure]) ∧
      ((Plan.node i [] none).tables = (Plan.node j [] none).tables → (Change.cardEst ∈ l ↔ a ≠ b) ∧ (Change.actualCard ∈ l ↔ c ≠ d) ∧
        (Change.physicalOp ∈ l ↔ i.nodeType ≠ j.nodeType) ∧ (i.estCost ≠ .nan → (Change.costEst ∈ l ↔ i.estCost ≠ j.estCost)) ∧ Change.joinDirection ∉ l ∧ l.Nodup) := by
  have hij : i.isJoin = false := by
    cases h : i.isJoin with
    | false => rfl
    | true => rw [scan_not_join h] at hi; cases hi
  have hca : ∀ k : Info, k.isScan = true → checkNoAux (.node k [] none) = some () := by
    intro k hk
    simp [checkNoAux, Plan.findFirst, Plan.info, Info.isAux, hk]
  by_cases ht : (Plan.node i [] none).tables = (Plan.node j [] none).tables
  · have hinfo : compareInfo i j = some ((if a ≠ b then [.cardEst] else []) ++ (if c ≠ d then [.actualCard] else []) ++
        (if fltNe i.estCost j.estCost && !(i.estCost = .nan && i.estCost = .nan) then [.costEst] else []) ++ (if i.nodeType ≠ j.nodeType then [.physicalOp] else [])) := by
      have key : ∀ x y : ECard, ((decide (x ≠ y) && !((mk x).nan && (mk y).nan)) = true) ↔ x ≠ y := by
        intro x y
        simp only [Bool.and_eq_true, Bool.not_eq_true', decide_eq_true_eq]
        constructor
        · exact fun h => h.1
        · intro h
          refine ⟨h, ?_⟩
          rw [Bool.and_eq_false_iff]
          by_contra hc
          simp only [not_or, Bool.not_eq_false, mk_nan] at hc
          exact h (hc.1.trans hc.2.symm)
      simp only [compareInfo, h1, h2, h3, h4, cardNe_mk a b hab, cardNe_mk c d hcd, Option.bind_eq_bind, Option.bind_some]
      simp only [key]
    refine ⟨_, by simp [comparePlans, hca, hi, hj, ht, hij, Plan.info, hinfo]; rfl, ?_, fun h => absurd ht h, fun _ => ?_⟩
    · simp only [ht, ne_eq, not_true_eq_false, iff_false]
      split <;> split <;> split <;> split <;> simp
    · refine ⟨?_, ?_, ?_, ?_, ?_, ?_⟩
      · split <;> split <;> split <;> split <;> simp_all
      · split <;> split <;> split <;> split <;> simp_all
      · split <;> split <;> split <;> split <;> simp_all
      · intro hn
        have hf : (fltNe i.estCost j.estCost && !(i.estCost = .nan && i.estCost = .nan)) = true ↔ i.estCost ≠ j.estCost := by
          cases h5 : i.estCost <;> cases h6 : j.estCost <;> simp_all [fltNe]
        split <;> split <;> split <;> split <;> simp_all
      · split <;> split <;> split <;> split <;> simp
      · split <;> split <;> split <;> split <;> simp
  · refine ⟨[.treeStructure], by simp [comparePlans, hca, hi, hj, ht], by simp [ht], fun _ => rfl, fun h => absurd h ht⟩

/-- **C61** (violated): if the cost of the first plan is not known, a different cost is not reported. -/
theorem C61_cost_violated : ∃ i j : Info, i.isScan = true ∧ j.isScan = true ∧ i.estCost ≠ j.estCost ∧ comparePlans (.node i [] none) (.node j [] none) = some [] ∧
    comparePlans (.node j [] none) (.node i [] none) = some [.costEst] := by
  have h : ∀ f, (⟨(scanInfo 1).nodeType, (scanInfo 1).op, (scanInfo 1).base, (scanInfo 1).filterTables, (scanInfo 1).lookupTables, (scanInfo 1).workers,
      (scanInfo 1).estCard, f, (scanInfo 1).actCard, (scanInfo 1).execTime, (scanInfo 1).hits, (scanInfo 1).subTarget⟩ : Info).isScan = true := fun _ => rfl
  have hca : ∀ k : Info, k.isScan = true → checkNoAux (.node k [] none) = some () := by
    intro k hk
    simp [checkNoAux, Plan.findFirst, Plan.info, Info.isAux, hk]
  have ht : ∀ f g : Flt, (Plan.node { scanInfo 1 with estCost := f } [] none).tables = (Plan.node { scanInfo 1 with estCost := g } [] none).tables := by
    intro f g; simp [Plan.tables, Info.ownTables]
  have hd : ∀ f g : Flt, compareInfo { scanInfo 1 with estCost := f } { scanInfo 1 with estCost := g } = some (if fltNe f g && !(f = .nan && f = .nan) then [.costEst] else []) := by
    intro f g
    have h1 : cardNe (scanInfo 1).estCard (scanInfo 1).estCard = some false := cardNe_self (.finite 10)
    have h2 : cardNe (scanInfo 1).actCard (scanInfo 1).actCard = some false := cardNe_self .unknown
    simp [compareInfo, h1, h2]
  refine ⟨{ scanInfo 1 with estCost := .nan }, { scanInfo 1 with estCost := .fin 5 }, rfl, rfl, by simp, ?_, ?_⟩
  · rw [comparePlans]
    · simp only [hca _ (h _), Plan.info, ht .nan (.fin 5), hd, Option.bind_eq_bind, Option.bind_some]
      simp [fltNe, Info.isJoin, scanInfo, opInfo]
    · simp
  · rw [comparePlans]
    · simp only [hca _ (h _), Plan.info, ht (.fin 5) .nan, hd, Option.bind_eq_bind, Option.bind_some]
      simp [fltNe, Info.isJoin, scanInfo, opInfo]
    · simp

/-- **C61** (violated): the comparison of two scans of the same table fails if a cardinality is known in one of the plans only. -/
theorem C61_known_violated (i j : Info) (a : ECard) (n : Int) (ha : ∀ m, a ≠ .finite m) (h1 : i.estCard = mk a) (h2 : j.estCard = Card.ofInt n)
    (ht : (Plan.node i [] none).tables = (Plan.node j [] none).tables) :
    comparePlans (.node i [] none) (.node j [] none) = none := by
  have hc : cardNe (mk a) (Card.ofInt n) = none := by
    cases a with
    | unknown => simp [cardNe, mk, ofInt_eq, unknown_eq, Card.eq, Card.valueProp, bind, Except.bind]
    | infinite => simp [cardNe, mk, ofInt_eq, infinite_eq, Card.eq, Card.valueProp, bind, Except.bind]
    | finite m => exact absurd rfl (ha m)
  have hi : compareInfo i j = none := by simp [compareInfo, h1, h2, hc]
  rw [comparePlans]
  · simp only [Plan.info, hi, ht, Option.bind_eq_bind, Option.bind_none, ne_eq, not_true_eq_false, if_false]
    cases checkNoAux (Plan.node i [] none) <;> cases checkNoAux (Plan.node j [] none) <;> rfl
  · simp

example : ∃ (i j : Info) (a b c d : ECard), i.isScan = true ∧ j.isScan = true ∧ i.estCard = mk a ∧ j.estCard = mk b ∧ i.actCard = mk c ∧ j.actCard = mk d ∧
    SameKind a b ∧ SameKind c d ∧ (Plan.node i [] none).tables = (Plan.node j [] none).tables ∧ i.estCost ≠ .nan ∧ a ≠ b :=
  ⟨{ scanInfo 1 with estCost := .fin 1 }, { scanInfo 1 with estCard := Card.ofInt 20 }, .finite 10, .finite 20, .unknown, .unknown, rfl, rfl, rfl, rfl, rfl, rfl,
    .inr ⟨_, _, rfl, rfl⟩, .inl rfl, by simp [Plan.tables, Info.ownTables], by simp, by simp⟩

/-! ### C77 -/

/-- C77 partial: for known, non-negative cardinalities the reported q-error of an executed node is the rounded quotient
`(max + 1) / (min + 1)`; it is at least 1. Missing: the exact quotient, see `C77_exact_violated`. -/
theorem C77_qerror_partial (i : Info) (m n : Int) (hm : 0 ≤ m) (hn : 0 ≤ n) (he : i.estCard = Card.ofInt m)
    (ha : i.actCard = Card.ofInt n) :
    ∃ v : Int, i.qerror = some (Card.ofInt v) ∧ 1 ≤ v ∧
      |(v : Rat) - ((max m n : Int) + 1 : Rat) / ((min m n : Int) + 1)| ≤ 1 / 2 := by
  have hana : i.isAnalyze = true := by simp [Info.isAnalyze, ha, ofInt_eq]
  have hl : (if i.actCard.gt i.estCard then i.actCard else i.estCard) = Card.ofInt (max m n) := by
    rw [he, ha]
    simp only [ofInt_eq, Card.gt]
    by_cases h : m < n
    · simp [h, max_eq_right h.le]
    · simp [h, max_eq_left (not_lt.1 h)]
  have hsm : (if i.actCard.lt i.estCard then i.actCard else i.estCard) = Card.ofInt (min m n) := by
    rw [he, ha]
    simp only [ofInt_eq, Card.lt]
    by_cases h : n < m
    · simp [h, min_eq_right h.le]
    · simp [h, min_eq_left (not_lt.1 h)]
  have hadd : ∀ k : Int, (Card.ofInt k).add (Card.ofInt 1) = Card.ofInt (k + 1) := by
    intro k
    have := C02_add (.finite k) (.finite 1)
    simpa [mk, specAdd] using this
  have hle : min m n ≤ max m n := min_le_max
  have h0 : 0 ≤ min m n := le_min hm hn
  generalize max m n = b at *
  generalize min m n = a at *
  have hpos : (0 : Rat) < (a : Rat) + 1 := by
    have : (0 : Rat) ≤ (a : Rat) := by exact_mod_cast h0
    linarith
  have hq : i.qerror = some (Card.ofFlt (.fin (((b : Rat) + 1) / ((a : Rat) + 1)))) := by
    simp only [Info.qerror, hana, Bool.not_true, Bool.false_eq_true, if_false, hl, hsm, hadd]
    have hne : ((a : Rat) + 1) ≠ 0 := hpos.ne'
    simp only [Card.truediv, ofInt_eq, Card.get, Bool.false_eq_true, if_false, Flt.div, Int.cast_add, Int.cast_one, hne,
      Option.map_some]
  refine ⟨roundHalfEven (((b : Rat) + 1) / ((a : Rat) + 1)), ?_, ?_, round_close _⟩
  · rw [hq, ofInt_eq]; rfl
  · have h1 : (1 : Rat) ≤ ((b : Rat) + 1) / ((a : Rat) + 1) := by
      rw [le_div_iff₀ hpos]
      have : (a : Rat) ≤ (b : Rat) := by exact_mod_cast hle
      linarith
    have h2 := round_close (((b : Rat) + 1) / ((a : Rat) + 1))
    rw [abs_le] at h2
    have h4 : (0 : Rat) < (roundHalfEven (((b : Rat) + 1) / ((a : Rat) + 1)) : Rat) := by
      linarith [h2.1]
    have h5 : (0 : Int) < roundHalfEven (((b : Rat) + 1) / ((a : Rat) + 1)) := by
      exact_mod_cast h4
    omega

/-- C77 violated: an estimate of 10 for 11 actual rows is reported as perfect although the q-error is 12/11. -/
theorem C77_exact_violated :
    ∃ i : Info, i.estCard = Card.ofInt 10 ∧ i.actCard = Card.ofInt 11 ∧ i.qerror = some (Card.ofInt 1) := by
  refine ⟨{ scanInfo 1 with actCard := Card.ofInt 11 }, rfl, rfl, ?_⟩
  decide +kernel

/-! ### C78 -/

/-- C78: `with_estimates` replaces exactly the given estimates (and drops the measurements unless told otherwise);
inputs, subplan, operator and parameters stay the same. -/
theorem C78_estimates (p : Plan) (card : Option Card) (cost : Option Flt) (keep : Bool) :
    let q := p.withEstimates card cost keep
    q.children = p.children ∧ q.subplan = p.subplan ∧ q.tables = p.tables ∧ q.info.op = p.info.op ∧
      (∀ c, card = some c → q.info.estCard = c) ∧ (card = none → q.info.estCard = p.info.estCard) ∧
      (∀ c, cost = some c → q.info.estCost = c) ∧ (cost = none → q.info.estCost = p.info.estCost) ∧
      (keep = true → q.info.actCard = p.info.actCard ∧ q.info.execTime = p.info.execTime ∧ q.info.hits = p.info.hits) ∧
      (keep = false → q.info.isAnalyze = false) := by
  obtain ⟨i, cs, s⟩ := p
  have ht : (Plan.withEstimates card cost keep (.node i cs s)).tables = (Plan.node i cs s).tables := by
    ext x
    rw [Plan.withEstimates, tables_node, tables_node]
    cases keep <;> simp [mem_ownTables]
  refine ⟨?_, ?_, ht, ?_⟩
  · simp [Plan.withEstimates, Plan.children]
  · simp [Plan.withEstimates, Plan.subplan]
  · cases keep <;> cases card <;> cases cost <;>
      simp [Plan.withEstimates, Plan.info, Info.isAnalyze, unknown_eq]

theorem withActual_node (cost : Option (Plan → Card → Flt)) (ign : Bool) (i : Info) (cs : List Plan) (s : Option Plan) :
    (Plan.node i cs s).withActual cost ign =
      .node (i.withActual (fun c => match cost with | some f => f (.node i cs s) c | none => .nan) ign)
        (cs.map (Plan.withActual cost ign)) (s.map (Plan.withActual cost ign)) := by
  cases s <;> simp only [Plan.withActual] <;> rfl

theorem node_withActual (cost : Option (Plan → Card → Flt)) (ign : Bool) (p y : Plan) :
    NodeS y (p.withActual cost ign) ↔ ∃ x, NodeS x p ∧ y = x.withActual cost ign := by
  induction p using Plan.ind generalizing y with
  | h i cs s ihc ihs =>
    constructor
    · intro h
      rw [withActual_node] at h
      generalize hr : s.map (Plan.withActual cost ign) = s' at h
      cases h with
      | refl => exact ⟨_, .refl _, by rw [withActual_node, hr]⟩
      | child hc hy =>
        obtain ⟨c, hc', rfl⟩ := List.mem_map.1 hc
        obtain ⟨x, hx, rfl⟩ := (ihc c hc' y).1 hy
        exact ⟨x, .child hc' hx, rfl⟩
      | sub hy =>
        cases s with
        | none => simp at hr
        | some r' =>
          simp only [Option.map_some, Option.some.injEq] at hr
          subst hr
          obtain ⟨x, hx, rfl⟩ := (ihs r' rfl y).1 hy
          exact ⟨x, .sub hx, rfl⟩
    · rintro ⟨x, hx, rfl⟩
      cases hx with
      | refl => exact .refl _
      | child hc hx =>
        rw [withActual_node]
        exact .child (List.mem_map_of_mem hc) ((ihc _ hc _).2 ⟨x, hx, rfl⟩)
      | sub hx =>
        rw [withActual_node]
        exact .sub ((ihs _ rfl _).2 ⟨x, hx, rfl⟩)

theorem withActual_info (cost : Option (Plan → Card → Flt)) (ign : Bool) (x : Plan) :
    (x.withActual cost ign).info.estCard =
        (if x.info.actCard.valid && !(ign && x.info.actCard.nan) then x.info.actCard else x.info.estCard) ∧
      (x.withActual cost ign).info.isAnalyze = false ∧ (x.withActual cost ign).info.op = x.info.op ∧
      (x.withActual cost ign).info.base = x.info.base ∧
      (x.withActual cost ign).children.length = x.children.length := by
  obtain ⟨i, cs, s⟩ := x
  rw [withActual_node]
  simp only [Plan.info, Info.withActual, Plan.children, List.length_map]
  by_cases h : i.actCard.valid = true
  · by_cases h2 : (ign && i.actCard.nan) = true <;> simp [h, h2, Info.isAnalyze, unknown_eq]
  · simp [h, Info.isAnalyze, unknown_eq]

/-- C78: after `with_actual_card` every node, including those in subplans, carries its actual cardinality as estimate
if that is a proper number, and its old estimate otherwise; no measurements are left. -/
theorem C78_actual (cost : Option (Plan → Card → Flt)) (ign : Bool) (p y : Plan) (h : NodeS y (p.withActual cost ign)) :
    ∃ x, NodeS x p ∧ y.info.op = x.info.op ∧ y.info.base = x.info.base ∧ y.children.length = x.children.length ∧
      y.info.isAnalyze = false ∧
      (∀ n, x.info.actCard = Card.ofInt n → y.info.estCard = Card.ofInt n) ∧
      ((x.info.actCard = Card.unknown ∨ x.info.actCard = Card.infinite) → y.info.estCard = x.info.estCard) := by
  obtain ⟨x, hx, rfl⟩ := (node_withActual cost ign p y).1 h
  obtain ⟨h1, h2, h3, h4, h5⟩ := withActual_info cost ign x
  refine ⟨x, hx, h3, h4, h5, h2, ?_, ?_⟩
  · intro n hn; rw [h1, hn, ofInt_eq]; simp
  · intro hn; rw [h1]; rcases hn with hn | hn <;> simp [hn, unknown_eq, infinite_eq]

/-- C78 violated: `ignore_nan=False` asks to take over unknown actual cardinalities as well, but the old estimates
stay, in every node of every plan; the flag has no effect. -/
theorem C78_ignoreNan_violated (cost : Option (Plan → Card → Flt)) (p : Plan)
    (hp : ∀ x, NodeS x p → ∃ e, x.info.actCard = mk e) : p.withActual cost false = p.withActual cost true := by
  induction p using Plan.ind with
  | h i cs s ihc ihs =>
    rw [withActual_node, withActual_node]
    have hi : ∀ f, i.withActual f false = i.withActual f true := by
      intro f
      obtain ⟨e, he⟩ := hp _ (.refl _)
      simp only [Plan.info] at he
      cases e <;> simp [Info.withActual, he, mk, unknown_eq, infinite_eq, ofInt_eq]
    have hc : cs.map (Plan.withActual cost false) = cs.map (Plan.withActual cost true) :=
      List.map_congr_left fun c hc => ihc c hc fun x hx => hp x (.child hc hx)
    have hs : s.map (Plan.withActual cost false) = s.map (Plan.withActual cost true) := by
      cases s with
      | none => rfl
      | some r => simp only [Option.map_some]; rw [ihs r rfl fun x hx => hp x (.sub hx)]
    rw [hi, hc, hs]

theorem scale_node (f : Flt) (k : ScaleKind) (r : Bool) (i : Info) (cs : List Plan) (s : Option Plan) :
    (Plan.node i cs s).scale f k r =
      .node (i.scale f k) (if r then cs.map (Plan.scale f k r) else cs) (s.map (Plan.scale f k r)) := by
  cases s <;> simp only [Plan.scale] <;> rfl

/-- C78: recursive scaling multiplies the estimates of all nodes by the factor (rounding to integers) and changes
nothing else. -/
theorem C78_scale (q : Rat) (p y : Plan) :
    NodeS y (p.scale (.fin q) .estimated true) ↔
      ∃ x, NodeS x p ∧ y = x.scale (.fin q) .estimated true := by
  induction p using Plan.ind generalizing y with
  | h i cs s ihc ihs =>
    constructor
    · intro h
      rw [scale_node, if_pos rfl] at h
      generalize hr : s.map (Plan.scale (.fin q) .estimated true) = s' at h
      cases h with
      | refl => exact ⟨_, .refl _, by rw [scale_node, if_pos rfl, hr]⟩
      | child hc hy =>
        obtain ⟨c, hc', rfl⟩ := List.mem_map.1 hc
        obtain ⟨x, hx, rfl⟩ := (ihc c hc' y).1 hy
        exact ⟨x, .child hc' hx, rfl⟩
      | sub hy =>
        cases s with
        | none => simp at hr
        | some r' =>
          simp only [Option.map_some, Option.some.injEq] at hr
          subst hr
          obtain ⟨x, hx, rfl⟩ := (ihs r' rfl y).1 hy
          exact ⟨x, .sub hx, rfl⟩
    · rintro ⟨x, hx, rfl⟩
      cases hx with
      | refl => exact .refl _
      | child hc hx =>
        rw [scale_node, if_pos rfl]
        exact .child (List.mem_map_of_mem hc) ((ihc _ hc _).2 ⟨x, hx, rfl⟩)
      | sub hx =>
        rw [scale_node, if_pos rfl]
        exact .sub ((ihs _ rfl _).2 ⟨x, hx, rfl⟩)

/-- C78: the scaled estimate is within 1/2 of the exact product; all other attributes of the node are unchanged. -/
theorem C78_scaleNode (q : Rat) (r : Bool) (x : Plan) (n : Int) (hx : x.info.estCard = Card.ofInt n) :
    ∃ v : Int, (x.scale (.fin q) .estimated r).info = { x.info with estCard := Card.ofInt v } ∧
      |(v : Rat) - q * n| ≤ 1 / 2 := by
  obtain ⟨i, cs, s⟩ := x
  refine ⟨roundHalfEven (q * n), ?_, round_close _⟩
  simp only [Plan.info] at hx
  rw [scale_node]
  simp [Plan.info, Info.scale, hx, ofInt_eq, Card.get, Flt.mul, Card.ofFlt]

/-- C78: without `recursive` the inputs of the node are unchanged. -/
theorem C78_scaleChildren (f : Flt) (k : ScaleKind) (x : Plan) : (x.scale f k false).children = x.children := by
  obtain ⟨i, cs, s⟩ := x
  rw [scale_node]; rfl

/-- C78 violated: scaling a single node (`recursive=False`) also scales the root of its subplan. -/
theorem C78_scaleSubplan_violated :
    ∃ x y y' : Plan, x.subplan = some y ∧ (x.scale (.fin 2) .estimated false).subplan = some y' ∧
      y.info.estCard = Card.ofInt 10 ∧ y'.info.estCard = Card.ofInt 20 := by
  refine ⟨.node (scanInfo 1) [] (some (scanP 2)), scanP 2, (scanP 2).scale (.fin 2) .estimated false, rfl, ?_, rfl, ?_⟩
  · rw [scale_node]; rfl
  · rw [scanP, scale_node]
    simp only [Plan.info]
    decide +kernel

/-- C78 violated: scaling the actual cardinality drops the cache counters of the node. -/
theorem C78_scaleHits_violated (f : Flt) (r : Bool) (x : Plan) : (x.scale f .actual r).info.hits = none := by
  obtain ⟨i, cs, s⟩ := x
  rw [scale_node]
  simp [Plan.info, Info.scale]

/-! ### C81 -/

/-- Specification: every join of the plan has an input without joins. -/
def LinearSpec (p : Plan) : Prop := ∀ i o n s, Node (.node i [o, n] s) p → i.isJoin = true →
  (∀ x, Node x o → x.info.isJoin = false) ∨ (∀ x, Node x n → x.info.isJoin = false)

/-- Specification: no join has a join below its inner input. -/
def LeftDeepSpec (p : Plan) : Prop := ∀ i o n s, Node (.node i [o, n] s) p → i.isJoin = true →
  ∀ x, Node x n → x.info.isJoin = false

/-- Specification: no join has a join below its outer input. -/
def RightDeepSpec (p : Plan) : Prop := ∀ i o n s, Node (.node i [o, n] s) p → i.isJoin = true →
  ∀ x, Node x o → x.info.isJoin = false

theorem clean_nodeS {p x : Plan} (h : Clean p) (hx : NodeS x p) : Node x p := by
  induction h with
  | scan h1 hb ho =>
    cases hx with
    | refl => exact .refl _
    | child hc _ => simp at hc
  | join h1 ho hd ha hb iha ihb =>
    cases hx with
    | refl => exact .refl _
    | child hc hx =>
      simp only [List.mem_cons, List.not_mem_nil, or_false] at hc
      rcases hc with rfl | rfl
      · exact .child (by simp) (iha hx)
      · exact .child (by simp) (ihb hx)
  | aux h1 ho hc ih =>
    cases hx with
    | refl => exact .refl _
    | child hc hx =>
      simp only [List.mem_singleton] at hc
      subst hc
      exact .child (by simp) (ih hx)

theorem clean_binary {p : Plan} (h : Clean p) : Binary p := by
  intro x hx
  have hc := clean_node h (clean_nodeS h hx)
  cases hc <;> simp [Plan.children, Plan.subplan]

theorem clean_findJoin {p : Plan} (h : Clean p) :
    ∃ r, p.findFirst (·.info.isJoin) true = some r ∧
      (r.isNone = true ↔ ∀ x, Node x p → x.info.isJoin = false) := by
  refine ⟨_, C26_findFirst_partial (·.info.isJoin) p (clean_binary h), ?_⟩
  simp only [Option.isNone_iff_eq_none, List.head?_eq_none_iff, List.filter_eq_nil_iff, C26_iter, Bool.not_eq_true]
  exact ⟨fun hh x hx => hh x (node_nodeS hx), fun hh x hx => hh x (clean_nodeS h hx)⟩

/-- C81 partial: for a well-formed plan rooted in a join the shape tests never fail and accept every plan of the tested
shape; a plan reported as bushy really is not linear. Missing: the converse, see `C81_linear_violated`; and plans with an
auxiliary root, see `C81_aux_violated`. -/
theorem C81_shape_partial (i : Info) (o n : Plan) (hp : Clean (.node i [o, n] none)) (hj : i.isJoin = true) :
    (∃ b, (Plan.node i [o, n] none).isLinear = some b ∧ (LinearSpec (.node i [o, n] none) → b = true)) ∧
      (∃ b, (Plan.node i [o, n] none).isBushy = some b ∧ (b = true → ¬ LinearSpec (.node i [o, n] none))) ∧
      (∃ b, (Plan.node i [o, n] none).isLeftDeep = some b ∧ (LeftDeepSpec (.node i [o, n] none) → b = true)) ∧
      (∃ b, (Plan.node i [o, n] none).isRightDeep = some b ∧ (RightDeepSpec (.node i [o, n] none) → b = true)) := by
  cases hp with
  | join h1 ho hd ha hb =>
    obtain ⟨ro, o1, o2⟩ := clean_findJoin ha
    obtain ⟨rn, n1, n2⟩ := clean_findJoin hb
    refine ⟨⟨ro.isNone || rn.isNone, ?_, ?_⟩, ⟨ro.isSome && rn.isSome, ?_, ?_⟩, ⟨rn.isNone, ?_, ?_⟩, ⟨ro.isNone, ?_, ?_⟩⟩
    · simp [Plan.isLinear, scan_not_join h1, o1, n1]
    · intro h
      rcases h i o n none (.refl _) hj with h | h
      · rw [o2.2 h]; rfl
      · rw [n2.2 h]; simp
    · simp [Plan.isBushy, scan_not_join h1, o1, n1]
    · intro h hl
      simp only [Bool.and_eq_true] at h
      rcases hl i o n none (.refl _) hj with hl | hl
      · have := o2.2 hl; cases ro <;> simp_all
      · have := n2.2 hl; cases rn <;> simp_all
    · simp [Plan.isLeftDeep, scan_not_join h1, n1]
    · intro h; exact n2.2 (h i o n none (.refl _) hj)
    · simp [Plan.isRightDeep, scan_not_join h1, o1]
    · intro h; exact o2.2 (h i o n none (.refl _) hj)

/-- **C81**: what the shape tests really tell about the root of a plan: a plan is reported as linear if one of the inputs of the root contains no join, as bushy if
both contain joins, as left-deep if the inner one and as right-deep if the outer one contains none. Missing: the joins below the root, see `C81_linear_violated`. -/
theorem C81_root_partial (i : Info) (o n : Plan) (hp : Clean (.node i [o, n] none)) (hj : i.isJoin = true) :
    ((Plan.node i [o, n] none).isLinear = some true ↔ (∀ x, Node x o → x.info.isJoin = false) ∨ ∀ x, Node x n → x.info.isJoin = false) ∧
    ((Plan.node i [o, n] none).isBushy = some true ↔ (∃ x, Node x o ∧ x.info.isJoin = true) ∧ ∃ x, Node x n ∧ x.info.isJoin = true) ∧
    ((Plan.node i [o, n] none).isLeftDeep = some true ↔ ∀ x, Node x n → x.info.isJoin = false) ∧
    ((Plan.node i [o, n] none).isRightDeep = some true ↔ ∀ x, Node x o → x.info.isJoin = false) := by
  cases hp with
  | join h1 ho hd ha hb =>
    obtain ⟨ro, o1, o2⟩ := clean_findJoin ha
    obtain ⟨rn, n1, n2⟩ := clean_findJoin hb
    have o3 : ro.isSome = true ↔ ∃ x, Node x o ∧ x.info.isJoin = true := by
      rw [← Option.not_isNone, Bool.not_eq_true', ← Bool.not_eq_true, o2]; simp
    have n3 : rn.isSome = true ↔ ∃ x, Node x n ∧ x.info.isJoin = true := by
      rw [← Option.not_isNone, Bool.not_eq_true', ← Bool.not_eq_true, n2]; simp
    refine ⟨?_, ?_, ?_, ?_⟩
    · rw [← o2, ← n2]; simp [Plan.isLinear, scan_not_join h1, o1, n1]
    · rw [← o3, ← n3]; simp [Plan.isBushy, scan_not_join h1, o1, n1]
    · rw [← n2]; simp [Plan.isLeftDeep, scan_not_join h1, n1]
    · rw [← o2]; simp [Plan.isRightDeep, scan_not_join h1, o1]

/-- The bushy plan (1 ⋈ 2) ⋈ (3 ⋈ 4) -/
def bushyP : Plan :=
  .node joinInfo [.node joinInfo [scanP 1, scanP 2] none, .node joinInfo [scanP 3, scanP 4] none] none

theorem find_scanP (t : Nat) : (scanP t).findFirst (·.info.isJoin) true = some none := by
  simp [scanP, Plan.findFirst, Plan.info, scanInfo, opInfo, Info.isJoin]

theorem find_bushyP : bushyP.findFirst (·.info.isJoin) true = some (some bushyP) := by
  simp [bushyP, Plan.findFirst, Plan.info, joinInfo, opInfo, Info.isJoin]

/-- C81 violated: joining the result of a bushy plan with one more table gives a plan that `is_linear` and
`is_left_deep` accept and that `is_bushy` rejects. Only the root is inspected. -/
theorem C81_linear_violated :
    ∃ p : Plan, p.isLinear = some true ∧ p.isLeftDeep = some true ∧ p.isBushy = some false ∧
      ¬ LinearSpec p ∧ ¬ LeftDeepSpec p := by
  refine ⟨.node joinInfo [bushyP, scanP 5] none, ?_, ?_, ?_, ?_, ?_⟩
  · simp [Plan.isLinear, joinInfo, opInfo, Info.isScan, find_scanP, find_bushyP]
  · simp [Plan.isLeftDeep, joinInfo, opInfo, Info.isScan, find_scanP]
  · simp [Plan.isBushy, joinInfo, opInfo, Info.isScan, find_scanP, find_bushyP]
  · intro h
    rcases h joinInfo (.node joinInfo [scanP 1, scanP 2] none) (.node joinInfo [scanP 3, scanP 4] none) none
      (.child (c := bushyP) (by simp) (.refl _)) rfl with h | h
    · exact absurd (h _ (.refl _)) (by simp [Plan.info, joinInfo, opInfo, Info.isJoin])
    · exact absurd (h _ (.refl _)) (by simp [Plan.info, joinInfo, opInfo, Info.isJoin])
  · intro h
    exact absurd (h joinInfo (.node joinInfo [scanP 1, scanP 2] none) (.node joinInfo [scanP 3, scanP 4] none) none
      (.child (c := bushyP) (by simp) (.refl _)) rfl _ (.refl _)) (by simp [Plan.info, joinInfo, opInfo, Info.isJoin])

/-- C81 violated: the shape tests fail for every plan with an auxiliary root with a single input. -/
theorem C81_aux_violated (i : Info) (c : Plan) (s : Option Plan) (h : i.isAux = true) :
    (Plan.node i [c] s).isLinear = none ∧ (Plan.node i [c] s).isBushy = none ∧
      (Plan.node i [c] s).isLeftDeep = none ∧ (Plan.node i [c] s).isRightDeep = none := by
  have hs : i.isScan = false := by simp [Info.isAux] at h; exact h.2
  simp [Plan.isLinear, Plan.isBushy, Plan.isLeftDeep, Plan.isRightDeep, hs]

/-- C81: in a well-formed plan the scan branches are exactly the plans without joins, i.e. over a single table, and
`fetch_base_table` returns this table. -/
theorem C81_scanBranch (p : Plan) (hp : Clean p) :
    (p.isScanBranch = true ↔ ∀ x, Node x p → x.info.isJoin = false) ∧
      (∀ t, p.fetchBase = some t ↔ p.tables = {t}) ∧ (p.isScanBranch = true ↔ ∃ t, p.tables = {t}) := by
  induction hp with
  | scan h1 hb ho =>
    rename_i i t
    have hj : i.isJoin = false := by
      cases h : i.isJoin with
      | false => rfl
      | true => rw [scan_not_join h] at h1; cases h1
    refine ⟨?_, ?_, ?_⟩
    · simp only [Plan.isScanBranch, h1, Bool.true_or, true_iff]
      intro x hx
      cases hx with
      | refl => exact hj
      | child hc _ => simp at hc
    · intro t'
      rw [tables_scan hb ho]
      simp only [Plan.fetchBase, h1, if_true, hb, Option.some.injEq, Finset.singleton_inj]
    · rw [tables_scan hb ho]
      simp only [Plan.isScanBranch, h1, Bool.true_or, true_iff]
      exact ⟨t, rfl⟩
  | join h1 ho hd ha hb iha ihb =>
    rename_i i a b
    have hs := scan_not_join h1
    have hnot : ∀ t, a.tables ∪ b.tables ≠ {t} := by
      intro t e
      obtain ⟨x, hx⟩ := clean_tables_nonempty ha
      obtain ⟨y, hy⟩ := clean_tables_nonempty hb
      have hx' : x ∈ a.tables ∪ b.tables := Finset.mem_union_left _ hx
      have hy' : y ∈ a.tables ∪ b.tables := Finset.mem_union_right _ hy
      rw [e, Finset.mem_singleton] at hx' hy'
      subst hx' hy'
      exact Finset.disjoint_left.1 hd hx hy
    refine ⟨?_, ?_, ?_⟩
    · simp only [Plan.isScanBranch, hs, Bool.false_or, List.map_cons, List.map_nil, Bool.false_eq_true, false_iff]
      intro h
      have := h _ (.refl _)
      simp only [Plan.info] at this
      rw [h1] at this; cases this
    · intro t
      rw [tables_join ho]
      simp [Plan.fetchBase, hs, h1, hnot t]
    · rw [tables_join ho]
      simp [Plan.isScanBranch, hs, hnot]
  | aux h1 ho hc ih =>
    rename_i i c
    have hs : i.isScan = false := by simp [Info.isAux] at h1; exact h1.2
    have hj : i.isJoin = false := by simp [Info.isAux] at h1; exact h1.1
    obtain ⟨ih1, ih2, ih3⟩ := ih
    rw [tables_aux ho]
    refine ⟨?_, ?_, ?_⟩
    · simp only [Plan.isScanBranch, hs, Bool.false_or, List.map_cons, List.map_nil, ih1]
      constructor
      · intro h x hx
        cases hx with
        | refl => exact hj
        | child hm hx => simp only [List.mem_singleton] at hm; subst hm; exact h x hx
      · intro h x hx; exact h x (.child (by simp) hx)
    · intro t; simp only [Plan.fetchBase, hs, hj, List.map_cons, List.map_nil, Bool.false_eq_true, if_false, ih2]
    · simp only [Plan.isScanBranch, hs, Bool.false_or, List.map_cons, List.map_nil, ih3]

/-- C81: in a well-formed plan the base joins are exactly the joins of two tables. -/
theorem C81_baseJoin (p : Plan) (hp : Clean p) :
    p.isBaseJoin = true ↔ p.info.isJoin = true ∧ p.tables.card = 2 := by
  unfold Plan.isBaseJoin
  rw [Bool.and_eq_true]
  refine and_congr_right fun hj => ?_
  cases hp with
  | scan h1 hb ho => simp only [Plan.info] at hj; rw [scan_not_join hj] at h1; cases h1
  | aux h1 ho hc => simp only [Plan.info] at hj; simp [Info.isAux, hj] at h1
  | join h1 ho hd ha hb =>
    rename_i i a b
    rw [tables_join ho, Finset.card_union_of_disjoint hd]
    simp only [Plan.children, List.all_cons, List.all_nil, Bool.and_true, Bool.and_eq_true, (C81_scanBranch a ha).2.2,
      (C81_scanBranch b hb).2.2, ← Finset.card_eq_one]
    have := Finset.card_pos.2 (clean_tables_nonempty ha)
    have := Finset.card_pos.2 (clean_tables_nonempty hb)
    omega

example : Clean (.node joinInfo [scanP 1, scanP 2] none) := clean_node clean_ex2 (.child (by simp [ex2]) (.refl _))

end PB.QPProps
