import Verif.Props.QueryPlan
import Verif.Props.JoinTree
import Verif.Props.Hints

set_option linter.unusedSimpArgs false
set_option linter.unusedVariables false

/-! Properties C23, C24, C63 (extraction of join trees, operators and parameters from plans). -/

namespace PB.QPProps
open PB PB.Hints PB.QP

/-! ### C23 -/

/-- Specification: deleting the auxiliary operators of the plan leaves this join tree. -/
inductive Strip (src : CardSource) : Plan → JT.Tree Card → Prop
  | scan {i cs s t} : i.isScan = true → i.base = some t →
      Strip src (.node i cs s) (.scan .generic t (some (i.card src)))
  | join {i a b s ta tb} : i.isJoin = true → Strip src a ta → Strip src b tb →
      Strip src (.node i [a, b] s) (.join .generic ta tb (some (i.card src)))
  | aux {i c s t} : i.isAux = true → Strip src c t → Strip src (.node i [c] s) t

/-- Every scan (through child nodes) has a base table. -/
def ScansHaveTables (p : Plan) : Prop := ∀ x, Node x p → x.info.isScan = true → x.info.base ≠ none

theorem scan_not_join {i : Info} (h : i.isJoin = true) : i.isScan = false := by
  unfold Info.isJoin at h
  unfold Info.isScan
  cases ho : i.op with
  | none => rfl
  | some o => cases o <;> simp_all

/-- C23: the extracted join tree is the plan without its auxiliary operators. -/
theorem C23_strip (src : CardSource) (p : Plan) (hp : ScansHaveTables p) (t : JT.Tree Card) :
    p.jointree src = some t ↔ Strip src p t := by
  induction p using Plan.ind generalizing t with
  | h i cs s ihc ihs =>
    have hch : ∀ c ∈ cs, ScansHaveTables c := fun c hc x hx => hp x (.child hc hx)
    rw [jointree_node]
    by_cases h1 : i.isScan = true
    · have hb := hp _ (.refl _) h1
      simp only [Plan.info] at hb
      obtain ⟨tb, hb⟩ := Option.ne_none_iff_exists'.1 hb
      simp only [h1, if_true, hb, Option.some.injEq]
      constructor
      · rintro rfl; exact .scan h1 hb
      · intro h
        cases h with
        | scan _ h => rw [hb] at h; cases h; rfl
        | join h => rw [scan_not_join h] at h1; cases h1
        | aux h => simp [Info.isAux, h1] at h
    · simp only [h1, if_false, Bool.false_eq_true]
      by_cases h2 : i.isJoin = true
      · simp only [h2, if_true]
        match cs, ihc, hch with
        | [], _, _ =>
          simp only [List.map_nil, reduceCtorEq, false_iff]
          intro h; cases h; exact h1 ‹_›
        | [a], _, _ =>
          simp only [List.map_cons, List.map_nil, reduceCtorEq, false_iff]
          intro h
          cases h with
          | scan h => exact h1 h
          | aux h => simp [Info.isAux, h2] at h
        | [a, b], ihc, hch =>
          simp only [List.map_cons, List.map_nil, Option.bind_eq_bind, Option.bind_eq_some_iff, Option.some.injEq]
          constructor
          · rintro ⟨ta, ha, tb, hb, rfl⟩
            exact .join h2 ((ihc a (by simp) (hch a (by simp)) ta).1 ha) ((ihc b (by simp) (hch b (by simp)) tb).1 hb)
          · intro h
            cases h with
            | scan h => exact absurd h h1
            | join _ ha hb =>
              exact ⟨_, (ihc a (by simp) (hch a (by simp)) _).2 ha, _, (ihc b (by simp) (hch b (by simp)) _).2 hb, rfl⟩
        | a :: b :: c :: l, _, _ =>
          simp only [List.map_cons, reduceCtorEq, false_iff]
          intro h
          cases h with
          | scan h => exact h1 h
      · simp only [h2, if_false, Bool.false_eq_true]
        have haux : i.isAux = true := by simp [Info.isAux, h1, h2]
        match cs, ihc, hch with
        | [], _, _ =>
          simp only [List.map_nil, reduceCtorEq, false_iff]
          intro h; cases h; exact h1 ‹_›
        | [a], ihc, hch =>
          simp only [List.map_cons, List.map_nil]
          rw [ihc a (by simp) (hch a (by simp)) t]
          constructor
          · exact .aux haux
          · intro h
            cases h with
            | scan h => exact absurd h h1
            | aux _ h => exact h
        | a :: b :: l, _, _ =>
          simp only [List.map_cons, reduceCtorEq, false_iff]
          intro h
          cases h with
          | scan h => exact h1 h
          | join h => exact h2 h

/-- Specification of well-formed plans without subplans: scans are leaves with a base table, joins have two inputs over
disjoint tables, auxiliary nodes have one input, and conditions only mention tables of the node's inputs. -/
inductive Clean : Plan → Prop
  | scan {i t} : i.isScan = true → i.base = some t → i.ownTables ⊆ {t} → Clean (.node i [] none)
  | join {i a b} : i.isJoin = true → i.ownTables ⊆ a.tables ∪ b.tables → Disjoint a.tables b.tables →
      Clean a → Clean b → Clean (.node i [a, b] none)
  | aux {i c} : i.isAux = true → i.ownTables ⊆ c.tables → Clean c → Clean (.node i [c] none)

theorem tables_scan {i : Info} {t : Nat} (hb : i.base = some t) (ho : i.ownTables ⊆ {t}) :
    (Plan.node i [] none).tables = {t} := by
  ext x
  rw [tables_node]
  constructor
  · rintro (h | ⟨c, hc, _⟩ | ⟨r, hr, _⟩)
    · exact ho h
    · simp at hc
    · simp at hr
  · intro h
    simp only [Finset.mem_singleton] at h
    subst h
    exact .inl ((mem_ownTables i x).2 (.inl hb))

theorem tables_join {i : Info} {a b : Plan} (ho : i.ownTables ⊆ a.tables ∪ b.tables) :
    (Plan.node i [a, b] none).tables = a.tables ∪ b.tables := by
  ext x
  rw [tables_node]
  simp only [List.mem_cons, List.not_mem_nil, or_false, exists_eq_or_imp, exists_eq_left, reduceCtorEq, false_and,
    exists_false, or_false, Finset.mem_union]
  constructor
  · rintro (h | h)
    · simpa using ho h
    · exact h
  · exact .inr

theorem tables_aux {i : Info} {c : Plan} (ho : i.ownTables ⊆ c.tables) :
    (Plan.node i [c] none).tables = c.tables := by
  ext x
  rw [tables_node]
  simp only [List.mem_cons, List.not_mem_nil, or_false, exists_eq_left, reduceCtorEq, false_and,
    exists_false, or_false]
  constructor
  · rintro (h | h)
    · exact ho h
    · exact h
  · exact .inr

/-- C23: for a well-formed plan the extraction succeeds; the join tree has exactly the plan's tables, and its leaves are
the base tables of the plan's scans in the order in which the plan lists them. -/
theorem C23_tables (src : CardSource) (p : Plan) (hp : Clean p) :
    ∃ t, p.jointree src = some t ∧ t.tables = p.tables ∧ JTProps.Solid t ∧ JTProps.NoRepeat t ∧
      t.itertables = (p.iternodes.filter fun x => x.info.isScan).filterMap fun x => x.info.base := by
  induction hp with
  | scan h1 hb ho =>
    rename_i i t
    refine ⟨.scan .generic t (some (i.card src)), ?_, ?_, trivial, trivial, ?_⟩
    · rw [jointree_node]; simp [h1, hb]
    · rw [tables_scan hb ho]; rfl
    · simp [Plan.iternodes, Plan.info, h1, hb, JT.Tree.itertables]
  | join h1 ho hd ha hb iha ihb =>
    rename_i i a b
    obtain ⟨ta, ea, ta1, ta2, ta3, ta4⟩ := iha
    obtain ⟨tb, eb, tb1, tb2, tb3, tb4⟩ := ihb
    refine ⟨.join .generic ta tb (some (i.card src)), ?_, ?_, ⟨ta2, tb2⟩, ⟨ta3, tb3, ?_⟩, ?_⟩
    · rw [jointree_node]; simp [h1, scan_not_join h1, ea, eb]
    · rw [tables_join ho, JT.Tree.tables, ta1, tb1]
    · intro x hx hx'
      rw [← JTProps.C20_tables] at hx hx'
      rw [ta1] at hx
      rw [tb1] at hx'
      exact Finset.disjoint_left.1 hd hx hx'
    · simp [Plan.iternodes, Plan.info, scan_not_join h1, JT.Tree.itertables, ta4, tb4]
  | aux h1 ho hc ih =>
    rename_i i c
    obtain ⟨t, e, t1, t2, t3, t4⟩ := ih
    have hs : i.isScan = false := by simp [Info.isAux] at h1; exact h1.2
    have hj : i.isJoin = false := by simp [Info.isAux] at h1; exact h1.1
    refine ⟨t, ?_, ?_, t2, t3, ?_⟩
    · rw [jointree_node]; simp [hs, hj, e]
    · rw [tables_aux ho, t1]
    · simp [Plan.iternodes, Plan.info, hs, t4]

theorem clean_scanP (t : Nat) : Clean (scanP t) :=
  .scan (t := t) rfl rfl (by intro x hx; rw [mem_ownTables] at hx; simpa [scanInfo, opInfo, eq_comm] using hx)

theorem clean_ex2 : Clean ex2 := by
  have ho : ∀ i : Info, i.base = none → i.filterTables = ∅ → i.lookupTables = ∅ → ∀ s, i.ownTables ⊆ s := by
    intro i h1 h2 h3 s x hx
    rw [mem_ownTables] at hx
    simp [h1, h2, h3] at hx
  refine .aux rfl (ho _ rfl rfl rfl _) (.join rfl (ho _ rfl rfl rfl _) ?_ (clean_scanP 1) (clean_scanP 2))
  rw [Finset.disjoint_left]
  intro x h1 h2
  rw [scanP, tables_node, mem_ownTables] at h1 h2
  simp [scanInfo, opInfo] at h1 h2
  omega

example : ∃ p, Clean p ∧ ScansHaveTables p := by
  refine ⟨ex2, clean_ex2, ?_⟩
  intro x hx hs
  cases hx with
  | refl => simp [ex2, Plan.info, auxInfo, Info.isScan] at hs
  | child hc hx =>
    simp only [List.mem_singleton] at hc
    subst hc
    cases hx with
    | refl => simp [Plan.info, joinInfo, opInfo, Info.isScan] at hs
    | child hc hx =>
      simp only [List.mem_cons, List.not_mem_nil, or_false] at hc
      rcases hc with rfl | rfl <;>
      · rw [nodeS_scanP (node_nodeS hx)]; simp [scanP, Plan.info, scanInfo]

/-! ### C24 -/

theorem clean_tables_nonempty {p : Plan} (h : Clean p) : p.tables.Nonempty := by
  induction h with
  | scan h1 hb ho => rw [tables_scan hb ho]; simp
  | join h1 ho hd ha hb iha ihb =>
    rw [tables_join ho]
    obtain ⟨x, hx⟩ := iha
    exact ⟨x, by simp [hx]⟩
  | aux h1 ho hc ih => rw [tables_aux ho]; exact ih

theorem clean_node {p x : Plan} (h : Clean p) (hx : Node x p) : Clean x := by
  induction h with
  | scan h1 hb ho =>
    cases hx with
    | refl => exact .scan h1 hb ho
    | child hc _ => simp at hc
  | join h1 ho hd ha hb iha ihb =>
    cases hx with
    | refl => exact .join h1 ho hd ha hb
    | child hc hx =>
      simp only [List.mem_cons, List.not_mem_nil, or_false] at hc
      rcases hc with rfl | rfl
      · exact iha hx
      · exact ihb hx
  | aux h1 ho hc ih =>
    cases hx with
    | refl => exact .aux h1 ho hc
    | child hc hx =>
      simp only [List.mem_singleton] at hc
      subst hc
      exact ih hx

theorem ops_node (w : Bool) (i : Info) (cs : List Plan) (s : Option Plan) :
    (Plan.node i cs s).ops w =
      match i.op, cs.map (Plan.ops false) with
      | none, [r] => r
      | _, _ => (cs.map (Plan.ops false)).foldl mergeOps
          (nodeOp i (Plan.node i cs s).tables (if w then some i.workers else none)) := by
  rw [Plan.ops]; rfl

/-- The scan entries of an assignment: exactly the scans of the plan. -/
def ScanEntries (p : Plan) (a : OpAssign) : Prop :=
  ∀ t v, a.scans.get? t = some v ↔
    ∃ x o, Node x p ∧ x.info.op = some (.scan o) ∧ x.info.base = some t ∧ v = ⟨o, t, none⟩

/-- The join entries of an assignment: exactly the joins of the plan. -/
def JoinEntries (p : Plan) (a : OpAssign) : Prop :=
  ∀ k v, a.joins.get? k = some v ↔
    ∃ x o, Node x p ∧ x.info.op = some (.join o) ∧ x.tables = k ∧ v = ⟨o, k, none, none⟩

theorem clean_base_mem {p : Plan} (h : Clean p) {x : Plan} (hx : Node x p) {t : Nat} (hb : x.info.base = some t) :
    t ∈ p.tables := by
  apply node_tables hx
  obtain ⟨i, cs, s⟩ := x
  rw [tables_node]
  exact .inl ((mem_ownTables i t).2 (.inl hb))

theorem isScan_op {i : Info} (h : i.isScan = true) : ∃ o, i.op = some (.scan o) := by
  unfold Info.isScan at h
  cases ho : i.op with
  | none => simp [ho] at h
  | some o => cases o <;> simp_all

theorem isJoin_op {i : Info} (h : i.isJoin = true) : ∃ o, i.op = some (.join o) := by
  unfold Info.isJoin at h
  cases ho : i.op with
  | none => simp [ho] at h
  | some o => cases o <;> simp_all

/-- The shape shared by both halves of C24: the assignment has exactly the plan's scans and joins. -/
theorem ops_clean (p : Plan) (hp : Clean p) :
    ∃ a, p.ops false = some a ∧ HintProps.WF a ∧ ScanEntries p a ∧ JoinEntries p a := by
  have wf0 : HintProps.WF OpAssign.empty := ⟨Dict.WF_nil, Dict.WF_nil, Dict.WF_nil, Dict.WF_nil⟩
  have wfm : ∀ a b : OpAssign, HintProps.WF a → HintProps.WF b → HintProps.WF (a.mergeWith b) := by
    intro a b ⟨a1, a2, a3, a4⟩ ⟨b1, b2, b3, b4⟩
    exact ⟨Dict.WF_update a1 b.globals, Dict.WF_update a2 b.joins, Dict.WF_update a3 b.inters, Dict.WF_update a4 b.scans⟩
  induction hp with
  | scan h1 hb ho =>
    rename_i i t
    obtain ⟨o, hop⟩ := isScan_op h1
    refine ⟨OpAssign.empty.setScan ⟨o, t, none⟩, ?_, ?_, ?_, ?_⟩
    · rw [ops_node]; simp [hop, nodeOp, hb]
    · exact ⟨wf0.1, wf0.2.1, wf0.2.2.1, Dict.WF_set wf0.2.2.2 _ _⟩
    · intro t' v
      simp only [OpAssign.setScan, OpAssign.empty, Dict.get?_set]
      constructor
      · intro h
        split at h
        · rename_i he; subst he
          simp only [Option.some.injEq] at h
          exact ⟨_, o, .refl _, hop, hb, h.symm⟩
        · simp [Dict.get?] at h
      · rintro ⟨x, o', hx, hxo, hxb, rfl⟩
        cases hx with
        | refl =>
          simp only [Plan.info] at hxo hxb
          rw [hop] at hxo; rw [hb] at hxb
          cases hxo; cases hxb; simp
        | child hc _ => simp at hc
    · intro k v
      simp only [OpAssign.setScan, OpAssign.empty, Dict.get?]
      constructor
      · intro h; simp at h
      · rintro ⟨x, o', hx, hxo, hxb, rfl⟩
        cases hx with
        | refl => simp only [Plan.info] at hxo; rw [hop] at hxo; cases hxo
        | child hc _ => simp at hc
  | join h1 ho hd ha hb iha ihb =>
    rename_i i a b
    obtain ⟨o, hop⟩ := isJoin_op h1
    obtain ⟨oa, ea, wa, sa, ja⟩ := iha
    obtain ⟨ob, eb, wb, sb, jb⟩ := ihb
    obtain ⟨xa, hxa⟩ := clean_tables_nonempty ha
    obtain ⟨xb, hxb⟩ := clean_tables_nonempty hb
    have hxab : xa ≠ xb := fun e => Finset.disjoint_left.1 hd hxa (e ▸ hxb)
    have hcard : ¬ (a.tables ∪ b.tables).card < 2 := by
      have : ({xa, xb} : Finset Nat).card ≤ (a.tables ∪ b.tables).card := by
        apply Finset.card_le_card
        intro y hy
        simp only [Finset.mem_insert, Finset.mem_singleton] at hy
        rcases hy with rfl | rfl
        · exact Finset.mem_union_left _ hxa
        · exact Finset.mem_union_right _ hxb
      rw [Finset.card_pair hxab] at this
      omega
    have wroot : HintProps.WF (OpAssign.empty.setJoin ⟨o, a.tables ∪ b.tables, none, none⟩) :=
      ⟨wf0.1, Dict.WF_set wf0.2.1 _ _, wf0.2.2.1, wf0.2.2.2⟩
    refine ⟨((OpAssign.empty.setJoin ⟨o, a.tables ∪ b.tables, none, none⟩).mergeWith oa).mergeWith ob, ?_,
      wfm _ _ (wfm _ _ wroot wa) wb, ?_, ?_⟩
    · rw [ops_node]
      simp [hop, nodeOp, tables_join ho, hcard, ea, eb, mergeOps]
    · intro t v
      rw [(HintProps.C17_merge _ ob wb).2.2.2, (HintProps.C17_merge _ oa wa).2.2.2]
      have : (OpAssign.empty.setJoin ⟨o, a.tables ∪ b.tables, none, none⟩).scans.get? t = none := rfl
      rw [this, Option.or_none]
      constructor
      · intro h
        rcases Option.or_eq_some_iff.1 h with h | ⟨_, h⟩
        · obtain ⟨x, o', hx, h⟩ := (sb t v).1 h
          exact ⟨x, o', .child (by simp) hx, h⟩
        · obtain ⟨x, o', hx, h⟩ := (sa t v).1 h
          exact ⟨x, o', .child (by simp) hx, h⟩
      · rintro ⟨x, o', hx, hxo, hxs, rfl⟩
        cases hx with
        | refl => simp only [Plan.info] at hxo; rw [hop] at hxo; cases hxo
        | child hc hx =>
          simp only [List.mem_cons, List.not_mem_nil, or_false] at hc
          rcases hc with rfl | rfl
          · have hs := (sa t ⟨o', t, none⟩).2 ⟨x, o', hx, hxo, hxs, rfl⟩
            have hn : ob.scans.get? t = none := by
              cases hh : ob.scans.get? t with
              | none => rfl
              | some v' =>
                obtain ⟨y, o'', hy, _, hyb, _⟩ := (sb t v').1 hh
                exact (Finset.disjoint_left.1 hd (clean_base_mem ha hx hxs) (clean_base_mem hb hy hyb)).elim
            rw [hn, Option.none_or, hs]
          · rw [(sb t ⟨o', t, none⟩).2 ⟨x, o', hx, hxo, hxs, rfl⟩]; rfl
    · intro k v
      rw [(HintProps.C17_merge _ ob wb).2.1, (HintProps.C17_merge _ oa wa).2.1]
      have hroot : (OpAssign.empty.setJoin ⟨o, a.tables ∪ b.tables, none, none⟩).joins.get? k =
          if a.tables ∪ b.tables = k then some ⟨o, a.tables ∪ b.tables, none, none⟩ else none := by
        simp [OpAssign.setJoin, OpAssign.empty, Dict.get?_set, Dict.get?]
      rw [hroot]
      have sub_ne : ∀ (c : Plan) (y : Plan), Clean c → Node y c → (c.tables = a.tables ∨ c.tables = b.tables) →
          a.tables ∪ b.tables ≠ y.tables := by
        intro c y hc hy hcc he
        have h1 : a.tables ∪ b.tables ⊆ c.tables := he ▸ node_tables hy
        rcases hcc with e | e
        · have := h1 (Finset.mem_union_right _ hxb); rw [e] at this
          exact Finset.disjoint_left.1 hd this hxb
        · have := h1 (Finset.mem_union_left _ hxa); rw [e] at this
          exact Finset.disjoint_left.1 hd hxa this
      constructor
      · intro h
        rcases Option.or_eq_some_iff.1 h with h | ⟨_, h⟩
        · obtain ⟨x, o', hx, h⟩ := (jb k v).1 h
          exact ⟨x, o', .child (by simp) hx, h⟩
        · rcases Option.or_eq_some_iff.1 h with h' | ⟨hz, h'⟩
          · obtain ⟨x, o', hx, h⟩ := (ja k v).1 h'
            exact ⟨x, o', .child (by simp) hx, h⟩
          · split at h'
            · rename_i he; subst he
              exact ⟨_, o, .refl _, hop, tables_join ho, (Option.some.inj h').symm⟩
            · cases h'
      · rintro ⟨x, o', hx, hxo, rfl, rfl⟩
        cases hx with
        | refl =>
          simp only [Plan.info] at hxo; rw [hop] at hxo; cases hxo
          have hn : ∀ (c : Plan) (oc : OpAssign), Clean c → JoinEntries c oc →
              (c.tables = a.tables ∨ c.tables = b.tables) → oc.joins.get? (a.tables ∪ b.tables) = none := by
            intro c oc hc jc hcc
            cases hh : oc.joins.get? (a.tables ∪ b.tables) with
            | none => rfl
            | some v' =>
              obtain ⟨y, o'', hy, _, hyt, _⟩ := (jc _ v').1 hh
              exact (sub_ne c y hc hy hcc hyt.symm).elim
          rw [tables_join ho, hn b ob hb jb (.inr rfl), hn a oa ha ja (.inl rfl)]
          simp
        | child hc hx =>
          simp only [List.mem_cons, List.not_mem_nil, or_false] at hc
          rcases hc with rfl | rfl
          · have hs := (ja x.tables ⟨o', x.tables, none, none⟩).2 ⟨x, o', hx, hxo, rfl, rfl⟩
            have hn : ob.joins.get? x.tables = none := by
              cases hh : ob.joins.get? x.tables with
              | none => rfl
              | some v' =>
                obtain ⟨y, o'', hy, _, hyt, _⟩ := (jb _ v').1 hh
                obtain ⟨z, hz⟩ := clean_tables_nonempty (clean_node ha hx)
                exact (Finset.disjoint_left.1 hd (node_tables hx hz) (node_tables hy (hyt ▸ hz))).elim
            rw [hn, Option.none_or, hs]; rfl
          · rw [(jb x.tables ⟨o', x.tables, none, none⟩).2 ⟨x, o', hx, hxo, rfl, rfl⟩]; rfl
  | aux h1 ho hc ih =>
    rename_i i c
    obtain ⟨oc, ec, wc, sc, jc⟩ := ih
    have hs : i.isScan = false := by simp [Info.isAux] at h1; exact h1.2
    have hj : i.isJoin = false := by simp [Info.isAux] at h1; exact h1.1
    have lift : ∀ (P : Plan → Prop) , (∀ s, P s → s.info.isScan = true ∨ s.info.isJoin = true) →
        ((∃ x, Node x (.node i [c] none) ∧ P x) ↔ ∃ x, Node x c ∧ P x) := by
      intro P hP
      constructor
      · rintro ⟨x, hx, h⟩
        cases hx with
        | refl => rcases hP _ h with h | h <;> simp [Plan.info, hs, hj] at h
        | child hm hx => simp only [List.mem_singleton] at hm; subst hm; exact ⟨x, hx, h⟩
      · rintro ⟨x, hx, h⟩; exact ⟨x, .child (by simp) hx, h⟩
    have hscan : ∀ (a : OpAssign), ScanEntries c a → ScanEntries (.node i [c] none) a := by
      intro a h t v
      rw [h t v]
      have := lift (fun x => ∃ o, x.info.op = some (.scan o) ∧ x.info.base = some t ∧ v = ⟨o, t, none⟩)
        (by rintro s ⟨o, ho, _⟩; left; simp [Info.isScan, ho])
      simp only [← exists_and_left] at this
      exact this.symm
    have hjoin : ∀ (a : OpAssign), JoinEntries c a → JoinEntries (.node i [c] none) a := by
      intro a h k v
      rw [h k v]
      have := lift (fun x => ∃ o, x.info.op = some (.join o) ∧ x.tables = k ∧ v = ⟨o, k, none, none⟩)
        (by rintro s ⟨o, ho, _⟩; right; simp [Info.isJoin, ho])
      simp only [← exists_and_left] at this
      exact this.symm
    cases hop : i.op with
    | none =>
      refine ⟨oc, ?_, wc, hscan _ sc, hjoin _ jc⟩
      rw [ops_node]; simp [hop, ec]
    | some o =>
      cases o with
      | scan o => simp [Info.isScan, hop] at hs
      | join o => simp [Info.isJoin, hop] at hj
      | inter o =>
        have wroot : HintProps.WF (OpAssign.empty.setInter o c.tables) :=
          ⟨wf0.1, wf0.2.1, Dict.WF_set wf0.2.2.1 _ _, wf0.2.2.2⟩
        refine ⟨(OpAssign.empty.setInter o c.tables).mergeWith oc, ?_, wfm _ _ wroot wc, hscan _ ?_, hjoin _ ?_⟩
        · rw [ops_node]; simp [hop, nodeOp, tables_aux ho, ec, mergeOps]
        · intro t v
          rw [(HintProps.C17_merge _ oc wc).2.2.2]
          have : (OpAssign.empty.setInter o c.tables).scans.get? t = none := rfl
          rw [this, Option.or_none]
          exact sc t v
        · intro t v
          rw [(HintProps.C17_merge _ oc wc).2.1]
          have : (OpAssign.empty.setInter o c.tables).joins.get? t = none := rfl
          rw [this, Option.or_none]
          exact jc t v

/-- C24 partial: for a well-formed plan `operators_from_plan` succeeds and the assignment looked up for a table (a set of
tables) is the operator of the scan of this table (the join of exactly these tables); there are no other assignments.
Missing: plans in which a condition mentions tables from outside the node's inputs, see `C24_parameterised_violated`. -/
theorem C24_operators_partial (p : Plan) (hp : Clean p) :
    ∃ a, p.ops false = some a ∧
      (∀ t v, a.scans.get? t = some v ↔
        ∃ x o, Node x p ∧ x.info.op = some (.scan o) ∧ x.info.base = some t ∧ v = ⟨o, t, none⟩) ∧
      (∀ k v, a.joins.get? k = some v ↔
        ∃ x o, Node x p ∧ x.info.op = some (.join o) ∧ x.tables = k ∧ v = ⟨o, k, none, none⟩) := by
  obtain ⟨a, h1, _, h2, h3⟩ := ops_clean p hp
  exact ⟨a, h1, h2, h3⟩

/-- C24 violated: a join whose inner input is itself a join with a condition on the outer table (a parameterised
path) covers the same tables as its inner input, so its operator is overwritten: the nested-loop join over {1,2,3} is
reported as a hash join. -/
theorem C24_parameterised_violated :
    ∃ (p : Plan) (a : OpAssign), p.info.op = some (.join .nlj) ∧ p.ops false = some a ∧
      (a.joins.get? p.tables).map (·.op) = some .hash := by
  let inner : Plan := .node { joinInfo with filterTables := {1} } [scanP 2, scanP 3] none
  let p : Plan := .node { joinInfo with op := some (.join .nlj) } [scanP 1, inner] none
  have ts : ∀ t, (scanP t).tables = {t} := fun t => tables_scan rfl (by
    intro x hx; rw [mem_ownTables] at hx; simpa [scanInfo, opInfo, eq_comm] using hx)
  have ti : inner.tables = {1, 2, 3} := by
    ext x
    simp only [inner, tables_node, mem_ownTables]
    simp [joinInfo, opInfo, ts]
  have tp : p.tables = {1, 2, 3} := by
    ext x
    simp only [p, tables_node, mem_ownTables]
    simp [joinInfo, opInfo, ts, ti]
  have os : ∀ t, (scanP t).ops false = some (OpAssign.empty.setScan ⟨.seqScan, t, none⟩) := by
    intro t; rw [scanP, ops_node]; simp [scanInfo, opInfo, nodeOp]
  have oi : inner.ops false = some (((OpAssign.empty.setJoin ⟨.hash, {1, 2, 3}, none, none⟩).mergeWith
      (OpAssign.empty.setScan ⟨.seqScan, 2, none⟩)).mergeWith (OpAssign.empty.setScan ⟨.seqScan, 3, none⟩)) := by
    simp only [inner] at ti ⊢
    rw [ops_node, ti]
    simp [joinInfo, opInfo, nodeOp, os, mergeOps]
  refine ⟨p, ((OpAssign.empty.setJoin ⟨.nlj, {1, 2, 3}, none, none⟩).mergeWith
      (OpAssign.empty.setScan ⟨.seqScan, 1, none⟩)).mergeWith (((OpAssign.empty.setJoin ⟨.hash, {1, 2, 3}, none, none⟩).mergeWith
      (OpAssign.empty.setScan ⟨.seqScan, 2, none⟩)).mergeWith (OpAssign.empty.setScan ⟨.seqScan, 3, none⟩)), rfl, ?_, ?_⟩
  · simp only [p] at tp ⊢
    rw [ops_node, tp]
    simp [joinInfo, opInfo, nodeOp, os, oi, mergeOps]
  · rw [tp]
    decide

/-- C24 violated: `include_workers` only reaches the root node. Here a scan with four workers below a
join is reported without workers. -/
theorem C24_workers_violated :
    ∃ (p : Plan) (a : OpAssign) (x : Plan), Clean p ∧ Node x p ∧ x.info.base = some 1 ∧ x.info.workers = 4 ∧
      p.ops true = some a ∧ (a.scans.get? 1).map (·.workers) = some none := by
  let x : Plan := .node { scanInfo 1 with workers := 4 } [] none
  have cx : Clean x := .scan (t := 1) rfl rfl (by
    intro y hy; rw [mem_ownTables] at hy; simpa [scanInfo, opInfo, eq_comm] using hy)
  have tx : x.tables = {1} := tables_scan rfl (by
    intro y hy; rw [mem_ownTables] at hy; simpa [scanInfo, opInfo, eq_comm] using hy)
  have t2 : (scanP 2).tables = {2} := tables_scan rfl (by
    intro y hy; rw [mem_ownTables] at hy; simpa [scanInfo, opInfo, eq_comm] using hy)
  have ho : joinInfo.ownTables ⊆ x.tables ∪ (scanP 2).tables := by
    intro y hy; rw [mem_ownTables] at hy; simp [joinInfo, opInfo] at hy
  have ox : x.ops false = some (OpAssign.empty.setScan ⟨.seqScan, 1, none⟩) := by
    simp only [x]; rw [ops_node]; simp [scanInfo, opInfo, nodeOp]
  have o2 : (scanP 2).ops false = some (OpAssign.empty.setScan ⟨.seqScan, 2, none⟩) := by
    rw [scanP, ops_node]; simp [scanInfo, opInfo, nodeOp]
  refine ⟨.node joinInfo [x, scanP 2] none, ((OpAssign.empty.setJoin ⟨.hash, {1, 2}, some 0, none⟩).mergeWith
      (OpAssign.empty.setScan ⟨.seqScan, 1, none⟩)).mergeWith (OpAssign.empty.setScan ⟨.seqScan, 2, none⟩), x,
    .join rfl ho (by rw [tx, t2]; decide) cx (clean_scanP 2), .child (by simp) (.refl _), rfl, rfl, ?_, by decide⟩
  rw [ops_node, tables_join ho, tx, t2]
  have : ({1} ∪ {2} : Finset Nat) = {1, 2} := by decide
  rw [this]
  simp [joinInfo, opInfo, nodeOp, ox, o2, mergeOps]

theorem params_node (src : CardSource) (i : Info) (cs : List Plan) (s : Option Plan) :
    (Plan.node i cs s).params src =
      (cs.map (Plan.params src)).foldl Params.mergeWith
        { cards := if (i.card src).nan then [] else [((Plan.node i cs s).tables, i.card src)]
          workers := if i.workers = 0 then [] else [((Plan.node i cs s).tables, i.workers)]
          settings := [], mode := none } := by
  rw [Plan.params]

/-- C24 partial: for a well-formed plan `parameters_from_plan` records the requested cardinality of every scan and join (unless it
is unknown), and records nothing but cardinalities of plan nodes under their tables. Missing: parameterised plans, as for the operators. -/
theorem C24_cardinalities_partial (src : CardSource) (p : Plan) (hp : Clean p) :
    (∀ x, Node x p → x.info.isAux = false → (x.info.card src).nan = false →
      (p.params src).cards.get? x.tables = some (x.info.card src)) ∧
    (∀ k c, (p.params src).cards.get? k = some c →
      ∃ x, Node x p ∧ x.tables = k ∧ x.info.card src = c ∧ c.nan = false) := by
  have main : (p.params src).cards.WF ∧ (∀ x, Node x p → x.info.isAux = false → (x.info.card src).nan = false →
      (p.params src).cards.get? x.tables = some (x.info.card src)) ∧
    (∀ k c, (p.params src).cards.get? k = some c →
      ∃ x, Node x p ∧ x.tables = k ∧ x.info.card src = c ∧ c.nan = false) := by
    have own : ∀ (i : Info) (T : Finset Nat) (k : Finset Nat),
        Dict.get? (if (i.card src).nan then [] else [(T, i.card src)]) k =
          if (i.card src).nan = false ∧ T = k then some (i.card src) else none := by
      intro i T k
      cases h : (i.card src).nan <;> simp [Dict.get?]
    have ownwf : ∀ (i : Info) (T : Finset Nat),
        Dict.WF (if (i.card src).nan then ([] : Dict (Finset Nat) Card) else [(T, i.card src)]) := by
      intro i T
      split <;> simp [Dict.WF, Dict.keys]
    induction hp with
    | scan h1 hb ho =>
      rename_i i t
      rw [params_node]
      simp only [List.map_nil, List.foldl_nil]
      refine ⟨ownwf _ _, ?_, ?_⟩
      · intro x hx _ hn
        cases hx with
        | refl => rw [own]; simp only [Plan.info] at hn ⊢; simp [hn]
        | child hc _ => simp at hc
      · intro k c h
        rw [own] at h
        split at h
        · rename_i hh
          simp only [Option.some.injEq] at h
          exact ⟨_, .refl _, hh.2, h, h ▸ hh.1⟩
        · simp at h
    | join h1 ho hd ha hb iha ihb =>
      rename_i i a b
      obtain ⟨wa, a1, a2⟩ := iha
      obtain ⟨wb, b1, b2⟩ := ihb
      obtain ⟨xa, hxa⟩ := clean_tables_nonempty ha
      obtain ⟨xb, hxb⟩ := clean_tables_nonempty hb
      rw [params_node]
      simp only [List.map_cons, List.map_nil, List.foldl_cons, List.foldl_nil, Params.mergeWith]
      have get : ∀ k, Dict.get? (Dict.update (Dict.update
          (if (i.card src).nan then [] else [((Plan.node i [a, b] none).tables, i.card src)]) (a.params src).cards)
          (b.params src).cards) k = ((b.params src).cards.get? k).or (((a.params src).cards.get? k).or
            (if (i.card src).nan = false ∧ (Plan.node i [a, b] none).tables = k then some (i.card src) else none)) := by
        intro k
        rw [Dict.get?_update _ wb, Dict.get?_update _ wa, own]
      refine ⟨Dict.WF_update (Dict.WF_update (ownwf _ _) _) _, ?_, ?_⟩
      · intro x hx hxa' hn
        rw [get]
        cases hx with
        | refl =>
          have hn' : ∀ c : Plan, (c = a ∨ c = b) → (c.params src).cards.get? (Plan.node i [a, b] none).tables = none := by
            intro c hc
            cases hh : (c.params src).cards.get? (Plan.node i [a, b] none).tables with
            | none => rfl
            | some v =>
              rcases hc with rfl | rfl
              · obtain ⟨y, hy, hyt, _⟩ := a2 _ v hh
                have := node_tables hy
                rw [hyt, tables_join ho] at this
                exact (Finset.disjoint_left.1 hd (this (Finset.mem_union_right _ hxb)) hxb).elim
              · obtain ⟨y, hy, hyt, _⟩ := b2 _ v hh
                have := node_tables hy
                rw [hyt, tables_join ho] at this
                exact (Finset.disjoint_left.1 hd hxa (this (Finset.mem_union_left _ hxa))).elim
          rw [hn' b (.inr rfl), hn' a (.inl rfl)]
          simp only [Plan.info] at hn ⊢
          simp [hn]
        | child hc hx =>
          simp only [List.mem_cons, List.not_mem_nil, or_false] at hc
          rcases hc with rfl | rfl
          · have hn' : (b.params src).cards.get? x.tables = none := by
              cases hh : (b.params src).cards.get? x.tables with
              | none => rfl
              | some v =>
                obtain ⟨y, hy, hyt, _⟩ := b2 _ v hh
                obtain ⟨z, hz⟩ := clean_tables_nonempty (clean_node ha hx)
                exact (Finset.disjoint_left.1 hd (node_tables hx hz) (node_tables hy (hyt ▸ hz))).elim
            rw [hn', a1 x hx hxa' hn]; rfl
          · rw [b1 x hx hxa' hn]; rfl
      · intro k c h
        rw [get] at h
        rcases Option.or_eq_some_iff.1 h with h | ⟨_, h⟩
        · obtain ⟨x, hx, h⟩ := b2 k c h
          exact ⟨x, .child (by simp) hx, h⟩
        · rcases Option.or_eq_some_iff.1 h with h | ⟨_, h⟩
          · obtain ⟨x, hx, h⟩ := a2 k c h
            exact ⟨x, .child (by simp) hx, h⟩
          · split at h
            · rename_i hh
              simp only [Option.some.injEq] at h
              exact ⟨_, .refl _, hh.2, h, h ▸ hh.1⟩
            · simp at h
    | aux h1 ho hc ih =>
      rename_i i c
      obtain ⟨wc, c1, c2⟩ := ih
      rw [params_node]
      simp only [List.map_cons, List.map_nil, List.foldl_cons, List.foldl_nil, Params.mergeWith]
      refine ⟨Dict.WF_update (ownwf _ _) _, ?_, ?_⟩
      · intro x hx hxa' hn
        rw [Dict.get?_update _ wc]
        cases hx with
        | refl => simp only [Plan.info] at hxa'; rw [h1] at hxa'; cases hxa'
        | child hm hx =>
          simp only [List.mem_singleton] at hm; subst hm
          rw [c1 x hx hxa' hn]; rfl
      · intro k v h
        rw [Dict.get?_update _ wc, own] at h
        rcases Option.or_eq_some_iff.1 h with h | ⟨_, h⟩
        · obtain ⟨x, hx, h⟩ := c2 k v h
          exact ⟨x, .child (by simp) hx, h⟩
        · split at h
          · rename_i hh
            simp only [Option.some.injEq] at h
            exact ⟨_, .refl _, hh.2, h, h ▸ hh.1⟩
          · simp at h
  exact main.2

/-! ### C63 -/

/-- C63 violated: converting a join tree to a plan forgets the tables; no tree with a table survives the round trip. -/
theorem C63_roundtrip_violated (so : ScanOp) (jo : JoinOp) (h : Finset Nat → Option Card) (src : CardSource)
    (t : JT.Tree Card) (p : Plan) (hp : simplePlan so jo h t = some p) :
    p.tables = ∅ ∧ ∃ t', p.jointree src = some t' ∧ t'.itertables = [] := by
  induction t generalizing p with
  | empty c => simp [simplePlan] at hp
  | scan c x a =>
    simp only [simplePlan, Option.some.injEq] at hp
    subst hp
    constructor
    · ext y; rw [tables_node, mem_ownTables]; simp [opInfo]
    · exact ⟨.empty .generic, by rw [jointree_node]; simp [opInfo, Info.isScan], rfl⟩
  | join c o i a iho ihi =>
    simp only [simplePlan, Option.bind_eq_bind] at hp
    split at hp
    · simp at hp
    · cases ho : simplePlan so jo h o with
      | none => simp [ho] at hp
      | some po =>
        cases hi : simplePlan so jo h i with
        | none => simp [ho, hi] at hp
        | some pi =>
          simp only [ho, hi, Option.bind_some, Option.some.injEq] at hp
          subst hp
          obtain ⟨h1, t1, h2, h3⟩ := iho po ho
          obtain ⟨h4, t2, h5, h6⟩ := ihi pi hi
          constructor
          · ext y; rw [tables_node, mem_ownTables]; simp [opInfo, h1, h4]
          · refine ⟨.join .generic t1 t2 (some ((opInfo "join" (.join jo) (simpleCard c a (h (o.tables ∪ i.tables)))).card src)), ?_, ?_⟩
            · rw [jointree_node]
              simp [opInfo, Info.isScan, Info.isJoin, h2, h5]
            · simp [JT.Tree.itertables, h3, h6]

/-- Specification: same shape (ignoring tables and annotations). -/
inductive SameShape : JT.Tree Card → JT.Tree Card → Prop
  | leaf {c t a c'} : SameShape (.scan c t a) (.empty c')
  | join {c c' o i o' i' a b} : SameShape o o' → SameShape i i' → SameShape (.join c o i a) (.join c' o' i' b)

/-- C63 partial: the conversion succeeds for every tree without empty subtrees and keeps the shape of the tree, i.e. the
nesting of the joins. Missing: the tables. -/
theorem C63_shape_partial (so : ScanOp) (jo : JoinOp) (h : Finset Nat → Option Card) (src : CardSource)
    (t : JT.Tree Card) (ht : JTProps.Solid t) :
    ∃ p t', simplePlan so jo h t = some p ∧ p.jointree src = some t' ∧ SameShape t t' := by
  induction t with
  | empty c => exact ht.elim
  | scan c x a =>
    exact ⟨_, .empty .generic, rfl, by rw [jointree_node]; simp [opInfo, Info.isScan], .leaf⟩
  | join c o i a iho ihi =>
    obtain ⟨po, t1, h1, h2, h3⟩ := iho ht.1
    obtain ⟨pi, t2, h4, h5, h6⟩ := ihi ht.2
    have e1 : o.isEmpty = false := by cases o <;> first | rfl | exact ht.1.elim
    have e2 : i.isEmpty = false := by cases i <;> first | rfl | exact ht.2.elim
    refine ⟨.node (opInfo "join" (.join jo) (simpleCard c a (h (o.tables ∪ i.tables)))) [po, pi] none,
      .join .generic t1 t2 (some ((opInfo "join" (.join jo) (simpleCard c a (h (o.tables ∪ i.tables)))).card src)),
      ?_, ?_, .join h3 h6⟩
    · simp [simplePlan, h1, h4, e1, e2]
    · rw [jointree_node]
      simp [opInfo, Info.isScan, Info.isJoin, h2, h5]

example : JTProps.Solid (.join .generic (.scan .generic 1 none) (.scan .generic 2 none) none : JT.Tree Card) :=
  ⟨trivial, trivial⟩

end PB.QPProps
