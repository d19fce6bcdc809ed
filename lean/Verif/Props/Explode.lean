import Verif.Model.Explode
import Verif.Props.PlanOps

set_option linter.unusedSimpArgs false
set_option linter.unusedVariables false

/-! Property C271 (parts of query plans). -/

namespace PB.ExplodeProps
open PB PB.Hints PB.QP PB.QPProps PB.Explode

/-- Specification: the annotation of a join tree. -/
def ann : JT.Tree Card → Option Card
  | .empty _ => none
  | .scan _ _ a => a
  | .join _ _ _ a => a

/-- Every subtree of an extracted tree belongs to a scan or join of the plan with the same tables, and has its cardinality. -/
theorem sub_node (src : CardSource) (p : Plan) (hp : Clean p) : ∃ t, p.jointree src = some t ∧ t.tables = p.tables ∧
    ∀ x, JTProps.Sub x t → ∃ n, Node n p ∧ n.info.isAux = false ∧ n.tables = x.tables ∧ ann x = some (n.info.card src) := by
  induction hp with
  | scan h1 hb ho =>
    rename_i i t
    refine ⟨.scan .generic t (some (i.card src)), by rw [jointree_node]; simp [h1, hb], by rw [tables_scan hb ho]; rfl, ?_⟩
    intro x hx
    cases hx
    exact ⟨_, .refl _, by simp [Plan.info, Info.isAux, h1], by rw [tables_scan hb ho]; rfl, rfl⟩
  | join h1 ho hd ha hb iha ihb =>
    rename_i i a b
    obtain ⟨ta, ea, ta1, ta2⟩ := iha
    obtain ⟨tb, eb, tb1, tb2⟩ := ihb
    have ht : (JT.Tree.join .generic ta tb (some (i.card src))).tables = (Plan.node i [a, b] none).tables := by
      rw [tables_join ho, JT.Tree.tables, ta1, tb1]
    refine ⟨.join .generic ta tb (some (i.card src)), by rw [jointree_node]; simp [h1, scan_not_join h1, ea, eb], ht, ?_⟩
    intro x hx
    cases hx with
    | refl => exact ⟨_, .refl _, by simp [Plan.info, Info.isAux, h1], ht.symm, rfl⟩
    | outer hx =>
      obtain ⟨n, h1, h2⟩ := ta2 x hx
      exact ⟨n, .child (by simp) h1, h2⟩
    | inner hx =>
      obtain ⟨n, h1, h2⟩ := tb2 x hx
      exact ⟨n, .child (by simp) h1, h2⟩
  | aux h1 ho hc ih =>
    rename_i i c
    obtain ⟨t, e, t1, t2⟩ := ih
    have hs : i.isScan = false := by simp [Info.isAux] at h1; exact h1.2
    have hj : i.isJoin = false := by simp [Info.isAux] at h1; exact h1.1
    refine ⟨t, by rw [jointree_node]; simp [hs, hj, e], by rw [tables_aux ho, t1], ?_⟩
    intro x hx
    obtain ⟨n, h1, h2⟩ := t2 x hx
    exact ⟨n, .child (by simp) h1, h2⟩

/-- Every well-formed plan can be exploded. -/
theorem explode_some (s : String) (p : Plan) (hp : Clean p) : ∃ t o, p.jointree (treeSource s) = some t ∧ p.ops false = some o ∧
    explode s p = some (t, o, p.params (paramSource s)) := by
  obtain ⟨t, ht, _⟩ := sub_node (treeSource s) p hp
  obtain ⟨o, ho, _⟩ := C24_operators_partial p hp
  exact ⟨t, o, ht, ho, by simp [explode, ht, ho]⟩

/-- **C271** (partial): exploding a well-formed plan with its actual cardinalities gives a join tree over the plan's tables. Each
subtree is annotated with the actual cardinality of a scan or join of the plan over the same tables, and if this is known, the plan
parameters have the same cardinality for these tables. The operators are those of the plan's scans and joins. Missing: the
default source, see `C271_default_violated`. -/
theorem C271_actual_partial (p : Plan) (hp : Clean p) : ∃ t o ps, explode "actual" p = some (t, o, ps) ∧ t.tables = p.tables ∧
    (∀ x, JTProps.Sub x t → ∃ n, Node n p ∧ n.info.isAux = false ∧ n.tables = x.tables ∧ ann x = some n.info.actCard ∧
      (n.info.actCard.nan = false → ps.cards.get? x.tables = some n.info.actCard)) ∧
    (∀ k c, ps.cards.get? k = some c → ∃ n, Node n p ∧ n.tables = k ∧ n.info.actCard = c) ∧
    (∀ b v, o.scans.get? b = some v ↔
      ∃ n q, Node n p ∧ n.info.op = some (.scan q) ∧ n.info.base = some b ∧ v = ⟨q, b, none⟩) ∧
    (∀ k v, o.joins.get? k = some v ↔
      ∃ n q, Node n p ∧ n.info.op = some (.join q) ∧ n.tables = k ∧ v = ⟨q, k, none, none⟩) := by
  obtain ⟨t, o, ht, ho, he⟩ := explode_some "actual" p hp
  have h1 : treeSource "actual" = .actual := by decide
  have h2 : paramSource "actual" = .actual := by decide
  rw [h1] at ht
  rw [h2] at he
  obtain ⟨t', ht', htt, hsub⟩ := sub_node .actual p hp
  obtain rfl : t' = t := Option.some.inj (ht'.symm.trans ht)
  obtain ⟨o', ho', hos, hoj⟩ := C24_operators_partial p hp
  obtain rfl : o' = o := Option.some.inj (ho'.symm.trans ho)
  obtain ⟨hc1, hc2⟩ := C24_cardinalities_partial .actual p hp
  refine ⟨t', o', _, he, htt, ?_, ?_, hos, hoj⟩
  · intro x hx
    obtain ⟨n, n1, n2, n3, n4⟩ := hsub x hx
    exact ⟨n, n1, n2, n3, n4, fun hn => by rw [← n3]; exact hc1 n n1 n2 hn⟩
  · intro k c hk
    obtain ⟨n, n1, n2, n3, _⟩ := hc2 k c hk
    exact ⟨n, n1, n2, n3⟩

/-- **C271** (partial): for both sources the plan parameters have the cardinalities of this source, for every scan and join of which
it is known. Missing: the join tree of the default source, see `C271_default_violated`. -/
theorem C271_params_partial (p : Plan) (hp : Clean p) (s : String) (card : Info → Card)
    (hs : (s = "estimated" ∧ card = Info.estCard) ∨ (s = "actual" ∧ card = Info.actCard)) :
    ∃ t o ps, explode s p = some (t, o, ps) ∧
      (∀ n, Node n p → n.info.isAux = false → (card n.info).nan = false → ps.cards.get? n.tables = some (card n.info)) ∧
      (∀ k c, ps.cards.get? k = some c → ∃ n, Node n p ∧ n.tables = k ∧ card n.info = c) := by
  obtain ⟨t, o, _, _, he⟩ := explode_some s p hp
  rcases hs with ⟨rfl, rfl⟩ | ⟨rfl, rfl⟩
  · have h2 : paramSource "estimated" = .estimated := by decide
    rw [h2] at he
    obtain ⟨hc1, hc2⟩ := C24_cardinalities_partial .estimated p hp
    refine ⟨t, o, _, he, hc1, fun k c hk => ?_⟩
    obtain ⟨n, n1, n2, n3, _⟩ := hc2 k c hk
    exact ⟨n, n1, n2, n3⟩
  · have h2 : paramSource "actual" = .actual := by decide
    rw [h2] at he
    obtain ⟨hc1, hc2⟩ := C24_cardinalities_partial .actual p hp
    refine ⟨t, o, _, he, hc1, fun k c hk => ?_⟩
    obtain ⟨n, n1, n2, n3, _⟩ := hc2 k c hk
    exact ⟨n, n1, n2, n3⟩

/-- **C271** (violated): with the default source, which asks for the estimated cardinalities, the join tree has the actual ones
instead. Only the plan parameters have the estimates. -/
theorem C271_default_violated (p : Plan) (hp : Clean p) : ∃ t o ps, explode defaultSource p = some (t, o, ps) ∧
    (∀ x, JTProps.Sub x t → ∃ n, Node n p ∧ n.info.isAux = false ∧ n.tables = x.tables ∧ ann x = some n.info.actCard) ∧
    (∀ n, Node n p → n.info.isAux = false → n.info.estCard.nan = false → ps.cards.get? n.tables = some n.info.estCard) ∧
    (p.info.isAux = false → ann t = some p.info.actCard) := by
  obtain ⟨t, o, ht, ho, he⟩ := explode_some defaultSource p hp
  have h1 : treeSource defaultSource = .actual := by decide
  have h2 : paramSource defaultSource = .estimated := by decide
  rw [h1] at ht
  rw [h2] at he
  obtain ⟨t', ht', htt, hsub⟩ := sub_node .actual p hp
  obtain rfl : t' = t := Option.some.inj (ht'.symm.trans ht)
  refine ⟨t', o, _, he, hsub, (C24_cardinalities_partial .estimated p hp).1, ?_⟩
  intro ha
  cases hp with
  | scan h1 hb ho =>
    rw [jointree_node] at ht
    simp [h1, hb] at ht
    subst ht
    rfl
  | join h1 _ _ ca cb =>
    obtain ⟨ta, ea, _⟩ := sub_node .actual _ ca
    obtain ⟨tb, eb, _⟩ := sub_node .actual _ cb
    rw [jointree_node] at ht
    simp [h1, scan_not_join h1, ea, eb] at ht
    subst ht
    rfl
  | aux h1 => simp [Plan.info, h1] at ha

/-- A plan whose estimate (10 rows) is known and whose actual cardinality is not. -/
example : Clean (scanP 1) ∧ (scanP 1).info.isAux = false ∧ (scanP 1).info.actCard ≠ (scanP 1).info.estCard :=
  ⟨clean_scanP 1, rfl, by decide⟩

/-- An aggregate over a join. -/
example : Clean ex2 := clean_ex2

end PB.ExplodeProps
