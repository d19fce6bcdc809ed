import Verif.Model.Hints
import Mathlib.Tactic.Tauto

set_option linter.unusedSimpArgs false
set_option linter.unusedVariables false

/-! Properties C16-C19, C72-C74 (operator assignments and plan parameters). -/

namespace PB.HintProps
open PB PB.Hints

/-! ### C16 -/

/-- Specification: the scan assignment for table `t` that a call makes. -/
def scanOf (t : Nat) : HintOp → Option ScanAssign
  | .scan s => if s.table = t then some s else none
  | _ => none

/-- Specification: the join assignment for the table set `k` that a call makes. -/
def joinOf (k : Finset Nat) : HintOp → Option JoinAssign
  | .join j => if j.join = k then some j else none
  | _ => none

/-- Specification: the most recent scan assignment for table `t` in a history. -/
def lastScan (t : Nat) : List HintOp → Option ScanAssign
  | [] => none
  | op :: ops => (lastScan t ops).or (scanOf t op)

/-- Specification: the most recent join assignment for the table set `k` in a history. -/
def lastJoin (k : Finset Nat) : List HintOp → Option JoinAssign
  | [] => none
  | op :: ops => (lastJoin k ops).or (joinOf k op)

theorem filter_true {α : Type} (l : List α) : l.filter (fun _ => true) = l := by simp

theorem scans_step (a : OpAssign) (op : HintOp) (t : Nat) :
    (a.step op).scans.get? t = (scanOf t op).or (a.scans.get? t) := by
  cases op with
  | scan s =>
    simp only [OpAssign.step, OpAssign.setScan, Dict.get?_set]
    split <;> simp_all [scanOf, joinOf]
  | join j => simp [OpAssign.step, OpAssign.setJoin, scanOf, joinOf]
  | inter o t => simp [OpAssign.step, OpAssign.setInter, scanOf, joinOf]
  | global o e w =>
    simp only [OpAssign.step, OpAssign.setGlobal]
    split
    · simp [scanOf, joinOf]
    · cases o <;> simp [scanOf, joinOf]

theorem joins_step (a : OpAssign) (op : HintOp) (k : Finset Nat) :
    (a.step op).joins.get? k = (joinOf k op).or (a.joins.get? k) := by
  cases op with
  | scan s => simp [OpAssign.step, OpAssign.setScan, scanOf, joinOf]
  | join j =>
    simp only [OpAssign.step, OpAssign.setJoin, Dict.get?_set]
    split <;> simp_all [scanOf, joinOf]
  | inter o t => simp [OpAssign.step, OpAssign.setInter, scanOf, joinOf]
  | global o e w =>
    simp only [OpAssign.step, OpAssign.setGlobal]
    split
    · simp [scanOf, joinOf]
    · cases o <;> simp [scanOf, joinOf]

theorem run_scans (a : OpAssign) (ops : List HintOp) (t : Nat) :
    (a.run ops).scans.get? t = (lastScan t ops).or (a.scans.get? t) := by
  induction ops generalizing a with
  | nil => simp [OpAssign.run, lastScan]
  | cons op ops ih =>
    have : a.run (op :: ops) = (a.step op).run ops := rfl
    rw [this, ih, scans_step, lastScan]
    cases lastScan t ops <;> simp

theorem run_joins (a : OpAssign) (ops : List HintOp) (k : Finset Nat) :
    (a.run ops).joins.get? k = (lastJoin k ops).or (a.joins.get? k) := by
  induction ops generalizing a with
  | nil => simp [OpAssign.run, lastJoin]
  | cons op ops ih =>
    have : a.run (op :: ops) = (a.step op).run ops := rfl
    rw [this, ih, joins_step, lastJoin]
    cases lastJoin k ops <;> simp

/-- C16 partial: after any history, the lookup of a table returns the last scan assignment for it. -/
theorem C16_table_partial (ops : List HintOp) (t : Nat) :
    (OpAssign.empty.run ops).getTable t = (lastScan t ops).map .scan := by
  unfold OpAssign.getTable
  rw [run_scans]
  simp [OpAssign.empty, Dict.get?]

/-- C16 partial: after any history, the lookup of a set of at least two tables returns the last join assignment
for exactly this set. Missing: singleton sets, see `C16_singleton_violated`. -/
theorem C16_set_partial (ops : List HintOp) (k : Finset Nat) (hk : k.card ≠ 1) :
    (OpAssign.empty.run ops).getSet k = (lastJoin k ops).map .join ∧
    (OpAssign.empty.run ops).getItemSet k = (lastJoin k ops).map .join := by
  unfold OpAssign.getSet OpAssign.getItemSet
  rw [run_joins, if_neg hk]
  simp [OpAssign.empty, Dict.get?]

example : ({1, 2} : Finset Nat).card ≠ 1 := by decide

/-- C16 violated: the scan operator set for a table is not found when asking for the one-element set of that table,
and this holds for every assignment. -/
theorem C16_singleton_violated (s : ScanAssign) (a : OpAssign) :
    ((a.step (.scan s)).getTable s.table = some (.scan s)) ∧ (a.step (.scan s)).getSet {s.table} = none := by
  constructor
  · unfold OpAssign.getTable; rw [scans_step]; simp [scanOf]
  · simp [OpAssign.getSet]

/-! ### C17 -/

/-- All dictionaries have unique keys. -/
def WF (a : OpAssign) : Prop := a.globals.WF ∧ a.joins.WF ∧ a.inters.WF ∧ a.scans.WF

/-- Every history produces such an object. -/
theorem run_wf (a : OpAssign) (h : WF a) (ops : List HintOp) : WF (a.run ops) := by
  induction ops generalizing a with
  | nil => exact h
  | cons op ops ih =>
    apply ih
    obtain ⟨h1, h2, h3, h4⟩ := h
    cases op with
    | scan s => exact ⟨h1, h2, h3, Dict.WF_set h4 _ _⟩
    | join j => exact ⟨h1, Dict.WF_set h2 _ _, h3, h4⟩
    | inter o t => exact ⟨h1, h2, Dict.WF_set h3 _ _, h4⟩
    | global o e w =>
      simp only [OpAssign.step, OpAssign.setGlobal]
      split
      · exact ⟨Dict.WF_set h1 _ _, h2, h3, h4⟩
      · cases o with
        | scan o => exact ⟨Dict.WF_set h1 _ _, h2, h3, Dict.WF_filter h4 _⟩
        | join o => exact ⟨Dict.WF_set h1 _ _, Dict.WF_filter h2 _, h3, h4⟩
        | inter o => exact ⟨Dict.WF_set h1 _ _, h2, Dict.WF_filter h3 _, h4⟩

example (ops : List HintOp) : WF (OpAssign.empty.run ops) :=
  run_wf _ ⟨Dict.WF_nil, Dict.WF_nil, Dict.WF_nil, Dict.WF_nil⟩ ops

/-- C17: merging is right-biased for each of the four dictionaries. -/
theorem C17_merge (a b : OpAssign) (hb : WF b) :
    (∀ o, (a.mergeWith b).globals.get? o = (b.globals.get? o).or (a.globals.get? o)) ∧
    (∀ k, (a.mergeWith b).joins.get? k = (b.joins.get? k).or (a.joins.get? k)) ∧
    (∀ k, (a.mergeWith b).inters.get? k = (b.inters.get? k).or (a.inters.get? k)) ∧
    (∀ t, (a.mergeWith b).scans.get? t = (b.scans.get? t).or (a.scans.get? t)) := by
  obtain ⟨h1, h2, h3, h4⟩ := hb
  exact ⟨Dict.get?_update _ h1, Dict.get?_update _ h2, Dict.get?_update _ h3, Dict.get?_update _ h4⟩

/-- Two objects share no dictionary, and all their dictionaries are allocated. -/
def Separate (h : Heap) (a b : Obj) : Prop :=
  a.g ≠ b.g ∧ a.j ≠ b.j ∧ a.i ≠ b.i ∧ a.s ≠ b.s ∧
  (a.g < h.next ∧ a.j < h.next ∧ a.i < h.next ∧ a.s < h.next) ∧
  (b.g < h.next ∧ b.j < h.next ∧ b.i < h.next ∧ b.s < h.next)

theorem Separate.symm {h : Heap} {a b : Obj} (s : Separate h a b) : Separate h b a := by
  obtain ⟨h1, h2, h3, h4, h5, h6⟩ := s
  exact ⟨h1.symm, h2.symm, h3.symm, h4.symm, h6, h5⟩

/-- One call acts on its object as the functional model and leaves a separate object alone. -/
theorem heap_step (h : Heap) (a b : Obj) (op : HintOp) (hs : Separate h a b) :
    (h.step a op).1.view (h.step a op).2 = (h.view a).step op ∧
    (h.step a op).1.view b = h.view b ∧ Separate (h.step a op).1 (h.step a op).2 b := by
  obtain ⟨h1, h2, h3, h4, ⟨h5, h6, h7, h8⟩, h9, h10, h11, h12⟩ := hs
  cases op with
  | scan s =>
    refine ⟨?_, ?_, ⟨h1, h2, h3, h4, ⟨h5, h6, h7, h8⟩, h9, h10, h11, h12⟩⟩
    · simp [Heap.step, Heap.view, upd, OpAssign.step, OpAssign.setScan]
    · simp [Heap.step, Heap.view, upd, Ne.symm h4]
  | join j =>
    refine ⟨?_, ?_, ⟨h1, h2, h3, h4, ⟨h5, h6, h7, h8⟩, h9, h10, h11, h12⟩⟩
    · simp [Heap.step, Heap.view, upd, OpAssign.step, OpAssign.setJoin]
    · simp [Heap.step, Heap.view, upd, Ne.symm h2]
  | inter o t =>
    refine ⟨?_, ?_, ⟨h1, h2, h3, h4, ⟨h5, h6, h7, h8⟩, h9, h10, h11, h12⟩⟩
    · simp [Heap.step, Heap.view, upd, OpAssign.step, OpAssign.setInter]
    · simp [Heap.step, Heap.view, upd, Ne.symm h3]
  | global p e w =>
    simp only [Heap.step, OpAssign.step, OpAssign.setGlobal]
    split
    · refine ⟨?_, ?_, ⟨h1, h2, h3, h4, ⟨h5, h6, h7, h8⟩, h9, h10, h11, h12⟩⟩
      · simp [Heap.view, upd]
      · simp [Heap.view, upd, Ne.symm h1]
    · cases p with
      | scan o =>
        refine ⟨?_, ?_, ⟨h1, h2, h3, ?_, ?_, ?_⟩⟩
        · simp [Heap.view, upd]
        · simp [Heap.view, upd, Ne.symm h1]
          intro e; omega
        · simp only [ne_eq]; omega
        · simp only; omega
        · simp only; omega
      | join o =>
        refine ⟨?_, ?_, ⟨h1, ?_, h3, h4, ?_, ?_⟩⟩
        · simp [Heap.view, upd]
        · simp [Heap.view, upd, Ne.symm h1]
          intro e; omega
        · simp only [ne_eq]; omega
        · simp only; omega
        · simp only; omega
      | inter o =>
        refine ⟨?_, ?_, ⟨h1, h2, ?_, h4, ?_, ?_⟩⟩
        · simp [Heap.view, upd]
        · simp [Heap.view, upd, Ne.symm h1]
          intro e; omega
        · simp only [ne_eq]; omega
        · simp only; omega
        · simp only; omega

/-- C17: a clone starts with the same content as the original, and afterwards the two are independent: in every
history of calls on the two objects each of them ends with exactly the effect of the calls made on it. -/
theorem C17_clone_independent (h : Heap) (a : Obj)
    (ha : a.g < h.next ∧ a.j < h.next ∧ a.i < h.next ∧ a.s < h.next) (ops : List (Bool × HintOp)) :
    let c := h.clone a
    let r := c.1.run a c.2 ops
    c.1.view c.2 = h.view a ∧
    r.1.view r.2.1 = (h.view a).run ((ops.filter (fun o => o.1)).map Prod.snd) ∧
    r.1.view r.2.2 = (h.view a).run ((ops.filter (fun o => !o.1)).map Prod.snd) := by
  intro c r
  have hv : c.1.view c.2 = h.view a := by simp [c, Heap.clone, Heap.view, upd]
  have hva : c.1.view a = h.view a := by
    have e1 : a.g ≠ h.next := by omega
    have e2 : a.j ≠ h.next := by omega
    have e3 : a.i ≠ h.next := by omega
    have e4 : a.s ≠ h.next := by omega
    simp [c, Heap.clone, Heap.view, upd, e1, e2, e3, e4]
  have hs : Separate c.1 a c.2 := by
    simp only [Separate, c, Heap.clone, ne_eq]; omega
  have gen : ∀ (ops : List (Bool × HintOp)) (h : Heap) (a b : Obj), Separate h a b →
      (h.run a b ops).1.view (h.run a b ops).2.1 = (h.view a).run ((ops.filter (fun o => o.1)).map Prod.snd) ∧
      (h.run a b ops).1.view (h.run a b ops).2.2 = (h.view b).run ((ops.filter (fun o => !o.1)).map Prod.snd) := by
    intro ops
    induction ops with
    | nil => intro h a b _; exact ⟨rfl, rfl⟩
    | cons o ops ih =>
      intro h a b hs
      obtain ⟨w, op⟩ := o
      cases w with
      | true =>
        obtain ⟨s1, s2, s3⟩ := heap_step h a b op hs
        obtain ⟨i1, i2⟩ := ih _ _ _ s3
        simp only [Heap.run, List.filter_cons, if_true, List.map_cons, Bool.not_true, Bool.false_eq_true, if_false]
        rw [s1] at i1
        rw [s2] at i2
        exact ⟨i1, i2⟩
      | false =>
        obtain ⟨s1, s2, s3⟩ := heap_step h b a op hs.symm
        obtain ⟨i1, i2⟩ := ih _ _ _ s3.symm
        simp only [Heap.run, List.filter_cons, if_true, List.map_cons, Bool.not_false, Bool.false_eq_true, if_false]
        rw [s2] at i1
        rw [s1] at i2
        exact ⟨i1, i2⟩
  obtain ⟨g1, g2⟩ := gen ops c.1 a c.2 hs
  rw [hva] at g1
  rw [hv] at g2
  exact ⟨hv, g1, g2⟩

example : ∃ (h : Heap) (a : Obj), a.g < h.next ∧ a.j < h.next ∧ a.i < h.next ∧ a.s < h.next :=
  ⟨⟨4, fun _ => [], fun _ => [], fun _ => [], fun _ => []⟩, ⟨0, 1, 2, 3⟩, by decide⟩

/-! ### C18 -/

theorem mem_allOps (o : PhysOp) : o ∈ allOps := by
  cases o with
  | scan o => cases o <;> decide
  | join o => cases o <;> decide
  | inter o => cases o <;> decide

theorem mem_enabled (a : OpAssign) (d : Bool) (o : PhysOp) :
    o ∈ a.enabled d ↔ (a.globals.get? o).getD d = true := by
  simp [OpAssign.enabled, mem_allOps]

/-- C18: afterwards the operator is globally enabled iff requested; all other operators are as before, whatever the
default. -/
theorem C18_enabled (a : OpAssign) (o : PhysOp) (e w d : Bool) (o' : PhysOp) :
    o' ∈ (a.setGlobal o e w).enabled d ↔ if o' = o then e = true else o' ∈ a.enabled d := by
  rw [mem_enabled, mem_enabled]
  have : (a.setGlobal o e w).globals = a.globals.set o e := by
    unfold OpAssign.setGlobal
    simp only
    split
    · rfl
    · cases o <;> rfl
  rw [this, Dict.get?_set]
  by_cases h : o' = o
  · subst h; simp
  · simp [h, Ne.symm h]

/-- C18 violated: disabling with overwriting keeps the scan assignments that use the operator. -/
theorem C18_scan_violated :
    let a := (OpAssign.empty.setScan ⟨.seqScan, 1, none⟩).setGlobal (.scan .seqScan) false true
    a.getTable 1 = some (.scan ⟨.seqScan, 1, none⟩) := by
  decide

/-- C18 violated: disabling with overwriting keeps the join assignments that use the operator. -/
theorem C18_join_violated :
    let a := (OpAssign.empty.setJoin ⟨.hash, {1, 2}, none, none⟩).setGlobal (.join .hash) false true
    a.getSet {1, 2} = some (.join ⟨.hash, {1, 2}, none, none⟩) := by
  decide

/-- C18 partial: overwriting works for intermediate operators: exactly the assignments of the disabled operator
disappear. Missing: scan and join operators. -/
theorem C18_inter_partial (a : OpAssign) (o : InterOp) (ha : a.inters.WF) (k : Finset Nat) :
    (a.setGlobal (.inter o) false true).inters.get? k =
      (a.inters.get? k).filter (fun x => x ≠ o) := by
  simp only [OpAssign.setGlobal, Bool.not_true, Bool.or_self, Bool.false_eq_true, if_false]
  have hw := Dict.WF_filter ha (fun e => decide (e.2 ≠ o))
  cases h : (a.inters.get? k) with
  | none =>
    rw [Option.filter_none, Dict.get?_eq_none]
    rw [Dict.get?_eq_none] at h
    intro hm
    apply h
    simp only [Dict.keys, List.mem_map, List.mem_filter] at hm ⊢
    obtain ⟨e, he, rfl⟩ := hm
    exact ⟨e, he.1, rfl⟩
  | some x =>
    by_cases hx : x = o
    · subst hx
      have : (some x).filter (fun y => decide (y ≠ x)) = none := by simp
      rw [this, Dict.get?_eq_none]
      intro hm
      simp only [Dict.keys, List.mem_map, List.mem_filter] at hm
      obtain ⟨⟨k', y⟩, ⟨he, hy⟩, rfl⟩ := hm
      have := Dict.get?_of_mem ha he
      simp only at h
      rw [h] at this
      cases this
      simp at hy
    · have : (some x).filter (fun y => decide (y ≠ o)) = some x := by simp [hx]
      rw [this, Dict.get?_iff_mem hw, List.mem_filter]
      exact ⟨Dict.mem_of_get? h, by simpa using hx⟩

example : Dict.WF ([({1, 2}, .sort)] : Dict (Finset Nat) InterOp) := by simp [Dict.WF, Dict.keys]

/-! ### C19 -/

/-- C19 partial: cardinalities, workers and system settings of both operands are kept, the right operand winning.
Missing: the execution mode, see `C19_mode_violated`. -/
theorem C19_merge_partial (a b : Params) (h1 : b.cards.WF) (h2 : b.workers.WF) (h3 : b.settings.WF) :
    (∀ k, (a.mergeWith b).cards.get? k = (b.cards.get? k).or (a.cards.get? k)) ∧
    (∀ k, (a.mergeWith b).workers.get? k = (b.workers.get? k).or (a.workers.get? k)) ∧
    (∀ k, (a.mergeWith b).settings.get? k = (b.settings.get? k).or (a.settings.get? k)) :=
  ⟨Dict.get?_update _ h1, Dict.get?_update _ h2, Dict.get?_update _ h3⟩

/-- C19 violated: the execution mode is always lost. -/
theorem C19_mode_violated (a b : Params) : (a.mergeWith b).mode = none := rfl

/-- C19: `drop_workers` removes exactly the worker hints. -/
theorem C19_dropWorkers (a : Params) :
    (∀ k, a.dropWorkers.workers.get? k = none) ∧ (∀ k, a.dropWorkers.cards.get? k = a.cards.get? k) ∧
    (∀ k, a.dropWorkers.settings.get? k = a.settings.get? k) ∧ a.dropWorkers.mode = a.mode := by
  simp [Params.dropWorkers, Dict.get?]

/-! ### C73 integrating worker counts -/

/-- C73 violated: the worker count given for a scanned table is ignored. -/
theorem C73_scan_violated (a : OpAssign) (t n : Nat) :
    (a.integrateWorkers ⟨[], [({t}, n)], [], none⟩ false).map (fun r => r.getTable t) = some (a.getTable t) := by
  simp [OpAssign.integrateWorkers, integrateStep, OpAssign.getSet]

/-- The join dictionary is keyed by the tables of its assignments. -/
def JoinKeyed (a : OpAssign) : Prop := ∀ k j, a.joins.get? k = some j → j.join = k

theorem joinKeyed_run (ops : List HintOp) : JoinKeyed (OpAssign.empty.run ops) := by
  intro k j h
  rw [run_joins] at h
  simp [OpAssign.empty, Dict.get?] at h
  induction ops with
  | nil => simp [lastJoin] at h
  | cons op ops ih =>
    simp only [lastJoin] at h
    cases hl : lastJoin k ops with
    | some j' => rw [hl] at h; simp at h; subst h; exact ih hl
    | none =>
      rw [hl] at h
      simp only [Option.none_or] at h
      cases op with
      | join j' =>
        simp only [joinOf] at h
        split at h
        · simp at h; subst h; assumption
        · simp at h
      | _ => simp [joinOf] at h

/-- C73 partial: every join for which a worker count is given gets this count and keeps its operator and direction;
joins without a count and all scans are unchanged; nothing fails. Missing: scans, see `C73_scan_violated`. -/
theorem C73_join_partial (a : OpAssign) (p : Params) (hk : JoinKeyed a) (hp : p.workers.WF) :
    ∃ r, a.integrateWorkers p false = some r ∧
      (∀ k, k.card ≠ 1 → r.joins.get? k = (a.joins.get? k).map (fun j =>
        { j with workers := ((p.workers.get? k).map some).getD j.workers })) ∧
      (∀ t, r.getTable t = a.getTable t) ∧ r.globals = a.globals ∧ r.inters = a.inters := by
  unfold OpAssign.integrateWorkers
  generalize hw : p.workers = w at hp
  clear hw
  induction w generalizing a with
  | nil =>
    refine ⟨a, rfl, ?_, fun _ => rfl, rfl, rfl⟩
    intro k _
    cases a.joins.get? k <;> simp [Dict.get?]
  | cons e w ih =>
    obtain ⟨k0, n⟩ := e
    simp only [Dict.WF, Dict.keys_cons, List.nodup_cons] at hp
    have hnone : Dict.get? w k0 = none := (Dict.get?_eq_none w k0).2 hp.1
    rw [List.foldlM_cons]
    unfold integrateStep
    simp only
    cases hg : a.getSet k0 with
    | none =>
      simp only [Bool.false_eq_true, if_false, Option.bind_eq_bind, Option.bind_some]
      obtain ⟨r, hr, h1, h2, h3, h4⟩ := ih a hk hp.2
      refine ⟨r, hr, ?_, h2, h3, h4⟩
      intro k hc
      rw [h1 k hc]
      by_cases hkk : k0 = k
      · subst hkk
        have : a.joins.get? k0 = none := by
          unfold OpAssign.getSet at hg
          rw [if_neg hc] at hg
          simpa using hg
        simp [this]
      · simp [Dict.get?, hkk]
    | some f =>
      have hc0 : k0.card ≠ 1 := by
        intro hc; simp [OpAssign.getSet, hc] at hg
      have hjj : ∃ j, a.joins.get? k0 = some j ∧ f = .join j := by
        unfold OpAssign.getSet at hg
        rw [if_neg hc0] at hg
        cases hj : a.joins.get? k0 with
        | none => simp [hj] at hg
        | some j => simp [hj] at hg; exact ⟨j, rfl, hg.symm⟩
      obtain ⟨j, hj, rfl⟩ := hjj
      simp only [Option.bind_eq_bind, Option.bind_some]
      have hjk := hk k0 j hj
      have hk' : JoinKeyed (a.setJoin { j with workers := some n }) := by
        intro k j' h
        simp only [OpAssign.setJoin, Dict.get?_set] at h
        split at h
        · simp at h; subst h; assumption
        · exact hk k j' h
      obtain ⟨r, hr, h1, h2, h3, h4⟩ := ih _ hk' hp.2
      refine ⟨r, hr, ?_, h2, h3, h4⟩
      intro k hc
      rw [h1 k hc]
      simp only [OpAssign.setJoin, Dict.get?_set, hjk]
      by_cases hkk : k0 = k
      · subst hkk
        simp [hnone, hj, Dict.get?, hjk]
      · simp [Dict.get?, hkk]

theorem getSet_setJoin_none (a : OpAssign) (j : JoinAssign) (hj : a.getSet j.join ≠ none) (k : Finset Nat) :
    (a.setJoin j).getSet k = none ↔ a.getSet k = none := by
  unfold OpAssign.getSet at hj ⊢
  simp only [OpAssign.setJoin, Dict.get?_set]
  by_cases hc : k.card = 1
  · simp [hc]
  · simp only [hc, if_false]
    by_cases hk : j.join = k
    · subst hk
      simp only [hc, if_false] at hj
      simpa using hj
    · simp [hk]

/-- C73 partial: with `fail_on_missing` the call fails exactly when some worker count belongs to a table set without
a join operator, and otherwise does the same as without the flag. The one-element sets always fail, although the
table may well have a scan operator; that is the missing part. -/
theorem C73_fail_partial (a : OpAssign) (p : Params) (hk : JoinKeyed a) :
    (a.integrateWorkers p true = none ↔ ∃ k ∈ Dict.keys p.workers, k.card = 1 ∨ a.joins.get? k = none) ∧
    (∀ r, a.integrateWorkers p true = some r → a.integrateWorkers p false = some r) := by
  have hg : ∀ k, (k.card = 1 ∨ a.joins.get? k = none) ↔ a.getSet k = none := by
    intro k; unfold OpAssign.getSet; split <;> simp_all
  simp only [hg]
  clear hg
  unfold OpAssign.integrateWorkers
  generalize p.workers = w
  induction w generalizing a with
  | nil => simp [Dict.keys]
  | cons e w ih =>
    obtain ⟨k0, n⟩ := e
    rw [List.foldlM_cons, List.foldlM_cons]
    unfold integrateStep
    simp only [Dict.keys_cons, List.mem_cons, exists_eq_or_imp]
    cases hg : a.getSet k0 with
    | none => simp
    | some f =>
      have hc0 : k0.card ≠ 1 := by
        intro hc; simp [OpAssign.getSet, hc] at hg
      have hjj : ∃ j, a.joins.get? k0 = some j ∧ f = .join j := by
        unfold OpAssign.getSet at hg
        rw [if_neg hc0] at hg
        cases hj : a.joins.get? k0 with
        | none => simp [hj] at hg
        | some j => simp [hj] at hg; exact ⟨j, rfl, hg.symm⟩
      obtain ⟨j, hj, rfl⟩ := hjj
      simp only [Option.bind_eq_bind, Option.bind_some]
      have hjk := hk k0 j hj
      have hk' : JoinKeyed (a.setJoin { j with workers := some n }) := by
        intro k j' h
        simp only [OpAssign.setJoin, Dict.get?_set] at h
        split at h
        · simp at h; subst h; assumption
        · exact hk k j' h
      have hne : a.getSet ({ j with workers := some n } : JoinAssign).join ≠ none := by
        simp only [hjk, hg]; simp
      obtain ⟨i1, i2⟩ := ih _ hk'
      simp only [getSet_setJoin_none a _ hne] at i1
      exact ⟨i1.trans (by simp), i2⟩

example : (OpAssign.empty.setJoin ⟨.hash, {1, 2}, none, none⟩).integrateWorkers ⟨[], [({1, 3}, 2)], [], none⟩ true =
    none := by simp [OpAssign.integrateWorkers, integrateStep, OpAssign.getSet, OpAssign.setJoin, Dict.get?_set,
      OpAssign.empty, Dict.get?, show ({1, 2} : Finset Nat) ≠ {1, 3} by decide]

example : JoinKeyed (OpAssign.empty.run [.join ⟨.hash, {1, 2}, none, none⟩, .scan ⟨.seqScan, 1, none⟩]) :=
  joinKeyed_run _

/-! ### C74 equality of assignments -/

/-- C74 violated: a scan assignment without worker count is not even equal to itself. -/
theorem C74_refl_violated (op : ScanOp) (t : Nat) :
    ScanAssign.pyEq ⟨op, t, none⟩ ⟨op, t, none⟩ = false := by
  cases op <;> simp [ScanAssign.pyEq, workersEq]

/-- C74 partial: with worker counts equality is equality of all attributes. -/
theorem C74_eq_partial (a b : ScanAssign) (ha : a.workers ≠ none) :
    a.pyEq b = true ↔ a = b := by
  obtain ⟨o, t, w⟩ := a
  obtain ⟨o', t', w'⟩ := b
  cases w with
  | none => simp at ha
  | some n => cases w' <;> simp [ScanAssign.pyEq, workersEq, and_assoc]

/-! ### C72 JSON -/

/-- C72 violated: worker counts are lost. -/
theorem C72_workers_violated :
    (readOpJson (OpAssign.empty.setScan ⟨.seqScan, 1, some 4⟩).toJson).getTable 1 =
      some (.scan ⟨.seqScan, 1, none⟩) := by decide

/-- C72 violated: the join direction is lost. -/
theorem C72_direction_violated :
    (readOpJson (OpAssign.empty.setJoin ⟨.hash, {1, 2}, none, some ({1}, {2})⟩).toJson).getSet {1, 2} =
      some (.join ⟨.hash, {1, 2}, none, none⟩) := by decide

/-- The scan dictionary is keyed by the tables of its assignments. -/
def ScanKeyed (a : OpAssign) : Prop := ∀ k s, a.scans.get? k = some s → s.table = k

theorem map_keyed {κ ν μ : Type} [DecidableEq κ] (d : Dict κ ν) (hd : d.WF) (key : ν → κ) (f : ν → μ)
    (hk : ∀ k v, d.get? k = some v → key v = k) (k : κ) :
    (Dict.ofList (d.values.map fun v => (key v, f v))).get? k = (d.get? k).map f := by
  have e : (d.values.map fun v => (key v, f v)) = d.map fun e => (e.1, f e.2) := by
    simp only [Dict.values, List.map_map]
    apply List.map_congr_left
    intro e he
    simp [hk e.1 e.2 (Dict.get?_of_mem hd he)]
  rw [e]
  have hw : Dict.WF (d.map fun e => (e.1, f e.2)) := by
    have : Dict.keys (d.map fun e => (e.1, f e.2)) = d.keys := by simp [Dict.keys, List.map_map, Function.comp_def]
    unfold Dict.WF; rw [this]; exact hd
  rw [Dict.get?_ofList_wf hw]
  exact Dict.get?_map_val d (fun _ v => f v) k

/-- C72 partial: reading back the JSON document restores the global settings, the intermediate operators and, up to
worker counts and directions, the scan and join operators. Missing: worker counts and join directions. -/
theorem C72_json_partial (a : OpAssign) (hw : WF a) (hj : JoinKeyed a) (hs : ScanKeyed a) :
    (∀ o, (readOpJson a.toJson).globals.get? o = a.globals.get? o) ∧
    (∀ k, (readOpJson a.toJson).inters.get? k = a.inters.get? k) ∧
    (∀ t, (readOpJson a.toJson).scans.get? t = (a.scans.get? t).map fun s => { s with workers := none }) ∧
    (∀ k, (readOpJson a.toJson).joins.get? k =
      (a.joins.get? k).map fun j => { j with workers := none, dir := none }) := by
  obtain ⟨h1, h2, h3, h4⟩ := hw
  refine ⟨Dict.get?_ofList_wf h1, Dict.get?_ofList_wf h3, ?_, ?_⟩
  · intro t
    have := map_keyed a.scans h4 ScanAssign.table (fun s => (⟨s.op, s.table, none⟩ : ScanAssign)) hs t
    simpa [readOpJson, OpAssign.toJson, List.map_map, Function.comp_def] using this
  · intro k
    have := map_keyed a.joins h2 JoinAssign.join (fun s => (⟨s.op, s.join, none, none⟩ : JoinAssign)) hj k
    simpa [readOpJson, OpAssign.toJson, List.map_map, Function.comp_def] using this

end PB.HintProps
