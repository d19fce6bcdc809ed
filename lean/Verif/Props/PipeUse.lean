import Verif.Model.PipeUse
import Mathlib.Tactic.Tauto
import Mathlib.Data.List.Induction

/-!
# The configuration of pipelines with `use`, pipelines for single stages, training and feedback (C227, C228, C229)
-/

set_option linter.unusedSimpArgs false
set_option linter.unusedVariables false
set_option linter.unusedSectionVars false
set_option linter.unnecessarySimpa false
set_option linter.unnecessarySeqFocus false

namespace PB.PipeUseProps

open PB PB.PipeUse

/-! ### Specification -/

/-- Whether an object is an instance of a stage class. -/
def Is (c : Comp) (r : Role) : Prop := r ∈ c.bases ∨ (r = .params ∧ Role.cardEst ∈ c.bases)

instance (c : Comp) (r : Role) : Decidable (Is c r) := by unfold Is; infer_instance

/-- The last element with a property, or a default. -/
def lastOr {α : Type} (p : α → Prop) [DecidablePred p] (d : α) (l : List α) : α := ((l.filter fun x => decide (p x)).getLast?).getD d

/-- The object belongs to at most one of the classes. -/
def AtMostOne (c : Comp) (rs : List Role) : Prop := ∀ r ∈ rs, ∀ r' ∈ rs, Is c r → Is c r' → r = r'

theorem isA_iff (c : Comp) (r : Role) : c.isA r = true ↔ Is c r := by
  unfold Comp.isA Is
  simp

theorem isA_false (c : Comp) (r : Role) : c.isA r = false ↔ ¬ Is c r := by
  rw [← isA_iff]; simp

theorem isA_decide (c : Comp) (r : Role) : c.isA r = decide (Is c r) := by
  by_cases h : Is c r
  · simp [h, (isA_iff c r).2 h]
  · simp [h, (isA_false c r).2 h]

section
variable {α : Type} (p : α → Prop) [DecidablePred p]

theorem lastOr_nil (d : α) : lastOr p d [] = d := rfl

theorem lastOr_snoc (d x : α) (l : List α) : lastOr p d (l ++ [x]) = if p x then x else lastOr p d l := by
  unfold lastOr
  by_cases h : p x <;> simp [List.filter_append, h]

end

theorem uses_snoc {P : Type} (use : P → Comp → Option P) (p : P) (cs : List Comp) (c : Comp) :
    uses use p (cs ++ [c]) = (use (uses use p cs) c).getD (uses use p cs) := by
  simp [uses, List.foldl_append]

/-! ### C227: `use` -/

/-- The components of a textbook pipeline after any sequence of `use` calls: a component is used as enumerator if it is one, else as cost
model if it is one, else as estimator. -/
theorem C227_textbook (p : TextBook) (cs : List Comp) :
    (uses TextBook.use p cs).stages
      = [lastOr (fun c => Is c .enumerator) p.enumr cs,
         lastOr (fun c => Is c .costModel ∧ ¬ Is c .enumerator) p.cost cs,
         lastOr (fun c => Is c .cardEst ∧ ¬ Is c .costModel ∧ ¬ Is c .enumerator) p.card cs] := by
  induction cs using List.reverseRecOn with
  | nil => rfl
  | append_singleton cs c ih =>
    rw [uses_snoc]
    simp only [lastOr_snoc]
    simp only [TextBook.stages, List.cons.injEq, and_true] at ih
    obtain ⟨h1, h2, h3⟩ := ih
    rw [← h1, ← h2, ← h3]
    generalize uses TextBook.use p cs = u
    unfold TextBook.use
    simp only [isA_decide]
    by_cases e : Is c .enumerator
    · simp [e, TextBook.stages]
    · by_cases m : Is c .costModel
      · simp [e, m, TextBook.stages]
      · by_cases k : Is c .cardEst
        · simp [e, m, k, TextBook.stages]
        · simp [e, m, k, TextBook.stages]

/-- If no component has several of the roles, each role has the last component that was given for it, or its default. -/
theorem C227_textbook_partial (p : TextBook) (cs : List Comp) (h : ∀ c ∈ cs, AtMostOne c [.enumerator, .costModel, .cardEst]) :
    (uses TextBook.use p cs).stages
      = [lastOr (fun c => Is c .enumerator) p.enumr cs, lastOr (fun c => Is c .costModel) p.cost cs, lastOr (fun c => Is c .cardEst) p.card cs] := by
  rw [C227_textbook]
  congr 1
  unfold lastOr
  have hc : ∀ c ∈ cs, (decide (Is c .costModel ∧ ¬ Is c .enumerator)) = decide (Is c .costModel) := by
    intro c hc
    have := h c hc .costModel (by simp) .enumerator (by simp)
    simp only [decide_eq_decide]
    exact ⟨fun x => x.1, fun x => ⟨x, fun y => absurd (this x y) (by simp)⟩⟩
  have hk : ∀ c ∈ cs, (decide (Is c .cardEst ∧ ¬ Is c .costModel ∧ ¬ Is c .enumerator)) = decide (Is c .cardEst) := by
    intro c hc
    have h1 := h c hc .cardEst (by simp) .enumerator (by simp)
    have h2 := h c hc .cardEst (by simp) .costModel (by simp)
    simp only [decide_eq_decide]
    exact ⟨fun x => x.1, fun x => ⟨x, fun y => absurd (h2 x y) (by simp), fun y => absurd (h1 x y) (by simp)⟩⟩
  rw [List.filter_congr hc, List.filter_congr hk]

/-- A component with two roles fills only the first one. -/
theorem C227_roles_violated (p : TextBook) (c : Comp) (he : Is c .enumerator) (hm : Is c .costModel) (hne : p.cost ≠ c) :
    (uses TextBook.use p [c]).cost = p.cost ∧ (uses TextBook.use p [c]).cost ≠ lastOr (fun c => Is c .costModel) p.cost [c] := by
  have e1 : (uses TextBook.use p [c]).cost = p.cost := by
    simp [uses, TextBook.use, isA_decide, he]
  refine ⟨e1, ?_⟩
  rw [e1]
  simpa [lastOr, hm] using hne

/-- The components of a multi-stage pipeline after any sequence of `use` calls. A cardinality estimator is a parameter generator. -/
theorem C227_multistage (cs : List Comp) :
    uses Multi.use {} cs
      = ⟨(cs.filter fun c => Is c .joinOrder).getLast?,
         (cs.filter fun c => Is c .operators ∧ ¬ Is c .joinOrder).getLast?,
         (cs.filter fun c => (Is c .params ∨ Is c .cardEst) ∧ ¬ Is c .operators ∧ ¬ Is c .joinOrder).getLast?⟩ := by
  induction cs using List.reverseRecOn with
  | nil => rfl
  | append_singleton cs c ih =>
    rw [uses_snoc, ih]
    simp only [List.filter_append]
    have hp : (Is c .params ∨ Is c .cardEst) ↔ Is c .params := by
      refine ⟨fun h => h.elim id fun h => ?_, Or.inl⟩
      rcases h with h | ⟨h, _⟩
      · exact Or.inr ⟨rfl, h⟩
      · cases h
    unfold Multi.use
    simp only [isA_decide]
    by_cases e : Is c .joinOrder
    · simp [e]
    · by_cases m : Is c .operators
      · simp [e, m]
      · by_cases k : Is c .params
        · simp [e, m, hp, k]
        · have k' : ¬ Is c .cardEst := fun h => k (hp.1 (Or.inr h))
          simp [e, m, k, k']

/-- The stages of a multi-stage pipeline are those that were set, in the order join order, operators, parameters. -/
theorem C227_multistage_stages (p : Multi) (c : Comp) :
    (c ∈ p.stages ↔ p.join = some c ∨ p.ops = some c ∨ p.par = some c) ∧ p.stages.length = p.join.toList.length + p.ops.toList.length + p.par.toList.length := by
  constructor
  · simp [Multi.stages, eq_comm, or_assoc]
  · simp [Multi.stages]; omega

/-- A component that has none of the roles is rejected and nothing changes; every other one is accepted (textbook and multi-stage). -/
theorem C227_rejected (p : TextBook) (q : Multi) (c : Comp) :
    (p.use c = none ↔ ¬ Is c .enumerator ∧ ¬ Is c .costModel ∧ ¬ Is c .cardEst) ∧
      (q.use c = none ↔ ¬ Is c .joinOrder ∧ ¬ Is c .operators ∧ ¬ Is c .params) := by
  constructor
  · unfold TextBook.use
    simp only [isA_decide]
    by_cases e : Is c .enumerator <;> by_cases m : Is c .costModel <;> by_cases k : Is c .cardEst <;> simp [e, m, k]
  · unfold Multi.use
    simp only [isA_decide]
    by_cases e : Is c .joinOrder <;> by_cases m : Is c .operators <;> by_cases k : Is c .params <;> simp [e, m, k]

/-- The components of an incremental pipeline after any sequence of `use` calls: the last supported complete algorithm, and all supported
steps in the order of the calls. -/
theorem C227_incremental (ok : Comp → Bool) (cs : List Comp) :
    uses (Incr.use ok) {} cs
      = ⟨(cs.filter fun c => Is c .complete ∧ ok c = true).getLast?, cs.filter fun c => Is c .incremental ∧ ¬ Is c .complete ∧ ok c = true⟩ := by
  induction cs using List.reverseRecOn with
  | nil => rfl
  | append_singleton cs c ih =>
    rw [uses_snoc, ih]
    simp only [List.filter_append]
    have hs : ((cs.filter fun c => decide (Is c .incremental ∧ ¬ Is c .complete ∧ ok c = true)).all ok) = true := by
      rw [List.all_eq_true]
      intro x hx
      have := (List.mem_filter.1 hx).2
      exact (of_decide_eq_true this).2.2
    have hg : ((cs.filter fun c => decide (Is c .complete ∧ ok c = true)).getLast?).all ok = true := by
      cases hl : (cs.filter fun c => decide (Is c .complete ∧ ok c = true)).getLast? with
      | none => rfl
      | some x =>
        have := (List.mem_filter.1 (List.mem_of_getLast? hl)).2
        simpa using (of_decide_eq_true this).2
    unfold Incr.use
    simp only [isA_decide]
    by_cases e : Is c .complete
    · by_cases o : ok c = true
      · simp only [Incr.intact, hs, Option.some_or, Option.all_some, Option.all_none, o]
        simp [e, o]
      · simp only [Incr.intact, Option.some_or, Option.all_some, Option.all_none, o]
        simp [e, o]
    · by_cases m : Is c .incremental
      · by_cases o : ok c = true
        · simp only [Incr.intact, hs, hg, Option.none_or, Option.all_some, o]
          simp [e, m, o]
        · simp only [Incr.intact, Option.none_or, Option.all_some, o]
          simp [e, m, o]
      · simp [e, m]

/-- The integrated pipeline accepts every component, also if it cannot optimize queries. -/
theorem C227_integrated_violated (p : Option Comp) (c : Comp) (h : ¬ Is c .complete) :
    integratedStages (uses integratedUse p [c]) = [c] := rfl

/-! Witnesses. -/

def enum1 : Comp := ⟨1, [.enumerator]⟩
def cost2 : Comp := ⟨2, [.costModel]⟩
def card3 : Comp := ⟨3, [.cardEst]⟩
def both4 : Comp := ⟨4, [.enumerator, .costModel]⟩
def step5 : Comp := ⟨5, [.incremental]⟩
def alg6 : Comp := ⟨6, [.complete]⟩
def join7 : Comp := ⟨7, [.joinOrder]⟩
def exDefaults : Defaults := ⟨⟨10, [.enumerator]⟩, ⟨11, [.enumerator]⟩, ⟨12, [.costModel]⟩, ⟨13, [.cardEst]⟩⟩

example : (uses TextBook.use (TextBook.new exDefaults true) [card3, enum1, step5, cost2]).stages = [enum1, cost2, card3] := by decide
example : ∀ c ∈ [card3, enum1, step5, cost2], AtMostOne c [.enumerator, .costModel, .cardEst] := by
  simp only [AtMostOne]; decide
example : Is both4 .enumerator ∧ Is both4 .costModel ∧ (TextBook.new exDefaults true).cost ≠ both4 := by decide
example : uses Multi.use {} [card3, join7, step5] = ⟨some join7, none, some card3⟩ := by decide
example : uses (Incr.use fun c => c.id != 6) {} [step5, alg6, ⟨8, [.complete]⟩, ⟨9, [.incremental]⟩] = ⟨some ⟨8, [.complete]⟩, [step5, ⟨9, [.incremental]⟩]⟩ := by
  decide

/-! ### C228: single stages as pipelines -/

variable {D : Type} (df : Defaults) (isPg : D → Bool) (ok : D → Comp → Bool)

/-- The classes that can be used as a pipeline. -/
def usable : List Role := [.complete, .joinOrder, .operators, .params, .enumerator, .costModel]

/-- The enumerator that is used unless another one is given. -/
def defaultEnum (d : D) : Comp := if isPg d then df.pgEnum else df.enumr

/-- A stage that belongs to one class only becomes a pipeline for the current database which uses this stage: alone, or, for enumerators and
cost models, with the default components in the other places. Unsupported combinations are rejected. -/
theorem C228_wrap_partial (d : D) (c : Comp) (h : AtMostOne c usable) (r : Role) (hr : r ∈ usable) (hc : Is c r) :
    ∃ stages : List Comp,
      stages = (match r with
        | .enumerator => [c, df.cost, df.card]
        | .costModel => [defaultEnum df isPg d, c, df.card]
        | _ => [c]) ∧
      (∀ out, wrap df isPg ok (some d) c = .ok out → out.1 = d ∧ out.2.stages = stages) ∧
      ((∃ out, wrap df isPg ok (some d) c = .ok out) ↔ ∀ x ∈ stages, ok d x = true) ∧
      ((¬ ∀ x ∈ stages, ok d x = true) → wrap df isPg ok (some d) c = .error .unsupportedSystem) := by
  refine ⟨_, rfl, ?_⟩
  have other : ∀ r' ∈ usable, r' ≠ r → c.isA r' = false := by
    intro r' hr' hne
    rw [isA_false]
    exact fun h' => hne (h r' hr' r hr h' hc)
  have this1 : c.isA r = true := (isA_iff c r).2 hc
  have fin : ∀ (p : Pipe) (st : List Comp), p.stages = st → wrap df isPg ok (some d) c = (buildPipe (ok d) p).map (d, ·) →
      (∀ out, wrap df isPg ok (some d) c = .ok out → out.1 = d ∧ out.2.stages = st) ∧
      ((∃ out, wrap df isPg ok (some d) c = .ok out) ↔ ∀ x ∈ st, ok d x = true) ∧
      ((¬ ∀ x ∈ st, ok d x = true) → wrap df isPg ok (some d) c = .error .unsupportedSystem) := by
    intro p st hst hw
    rw [hw]
    unfold buildPipe
    by_cases ha : p.stages.all (ok d) = true
    · have ha' : ∀ x ∈ st, ok d x = true := by rw [← hst]; exact List.all_eq_true.1 ha
      rw [if_pos ha]
      refine ⟨?_, ⟨fun _ => ha', fun _ => ⟨_, rfl⟩⟩, fun hn => absurd ha' hn⟩
      intro out ho
      have : (d, p) = out := by simpa [Except.map] using ho
      rw [← this]
      exact ⟨rfl, hst⟩
    · have ha' : ¬ ∀ x ∈ st, ok d x = true := by rw [← hst]; exact fun hx => ha (List.all_eq_true.2 hx)
      rw [if_neg ha]
      refine ⟨?_, ⟨?_, fun hx => absurd hx ha'⟩, fun _ => rfl⟩
      · intro out ho; simp [Except.map] at ho
      · rintro ⟨out, ho⟩; simp [Except.map] at ho
  have o1 := other .complete (by decide)
  have o2 := other .joinOrder (by decide)
  have o3 := other .operators (by decide)
  have o4 := other .params (by decide)
  have o5 := other .enumerator (by decide)
  have o6 := other .costModel (by decide)
  cases r
  case complete => exact fin (.integrated (some c)) _ rfl (by simp [wrap, this1, integratedUse])
  case joinOrder => exact fin (.multi ⟨some c, none, none⟩) _ rfl (by simp [wrap, this1, o1, Multi.use])
  case operators => exact fin (.multi ⟨none, some c, none⟩) _ rfl (by simp [wrap, this1, o1, o2, Multi.use])
  case params => exact fin (.multi ⟨none, none, some c⟩) _ rfl (by simp [wrap, this1, o1, o2, o3, Multi.use])
  case enumerator =>
    exact fin (.textBook ⟨c, df.cost, df.card⟩) _ rfl (by simp [wrap, this1, o1, o2, o3, o4, TextBook.use, TextBook.new])
  case costModel =>
    exact fin (.textBook ⟨defaultEnum df isPg d, c, df.card⟩) _ rfl
      (by simp [wrap, this1, o1, o2, o3, o4, o5, TextBook.use, TextBook.new, defaultEnum])
  case cardEst => exact absurd hr (by decide)
  case incremental => exact absurd hr (by decide)

/-- Every stage of one of these classes that can be wrapped is a stage of the pipeline, and the pipeline belongs to the current database. -/
theorem C228_used (d : D) (c : Comp) (out : D × Pipe) (h : wrap df isPg ok (some d) c = .ok out) :
    c ∈ out.2.stages ∧ out.1 = d ∧ ∀ x ∈ out.2.stages, ok d x = true := by
  have fin : ∀ p : Pipe, c ∈ p.stages → (buildPipe (ok d) p).map (d, ·) = .ok out →
      c ∈ out.2.stages ∧ out.1 = d ∧ ∀ x ∈ out.2.stages, ok d x = true := by
    intro p hp hb
    unfold buildPipe at hb
    by_cases ha : p.stages.all (ok d) = true
    · rw [if_pos ha] at hb
      have : (d, p) = out := by simpa [Except.map] using hb
      rw [← this]
      exact ⟨hp, rfl, List.all_eq_true.1 ha⟩
    · rw [if_neg ha] at hb
      simp [Except.map] at hb
  unfold wrap at h
  simp only at h
  split at h
  · exact fin (.integrated (some c)) (by simp [Pipe.stages, integratedStages]) h
  · split at h
    · unfold Multi.use at h
      split at h
      · exact absurd h (by simp)
      · rename_i p hp
        refine fin (.multi p) ?_ h
        split at hp
        · cases hp; simp [Pipe.stages, Multi.stages]
        · split at hp
          · cases hp; simp [Pipe.stages, Multi.stages]
          · split at hp
            · cases hp; simp [Pipe.stages, Multi.stages]
            · cases hp
    · split at h
      · unfold TextBook.use at h
        split at h
        · exact absurd h (by simp)
        · rename_i p hp
          refine fin (.textBook p) ?_ h
          split at hp
          · cases hp; simp [Pipe.stages, TextBook.stages]
          · split at hp
            · cases hp; simp [Pipe.stages, TextBook.stages]
            · split at hp
              · cases hp; simp [Pipe.stages, TextBook.stages]
              · cases hp
      · exact absurd h (by simp)

/-- A step of incremental optimization is a stage, but cannot be benchmarked: it is rejected with a type error. -/
theorem C228_incremental_violated (d : D) (c : Comp) (h : c.bases = [.incremental]) :
    wrap df isPg ok (some d) c = .error .typeError := by
  have hf : ∀ r, r ≠ .incremental → c.isA r = false := by
    intro r hr
    rw [isA_false]
    rintro (h1 | ⟨h1, h2⟩)
    · rw [h] at h1; exact hr (by simpa using h1)
    · rw [h] at h2; simp at h2
  simp [wrap, hf]

/-- Without a current database nothing can be wrapped, although the stage itself needs none. -/
theorem C228_database (c : Comp) : wrap df isPg ok (none : Option D) c = .error .noDatabase := rfl

/-- A stage that is an enumerator and a cardinality estimator is not used as an enumerator. -/
theorem C228_roles_violated (d : D) (c : Comp) (h : c.bases = [.enumerator, .cardEst]) (hok : ok d c = true) :
    wrap df isPg ok (some d) c = .ok (d, .multi ⟨none, none, some c⟩) := by
  have h1 : c.isA .complete = false := by simp [Comp.isA, h]
  have h2 : c.isA .joinOrder = false := by simp [Comp.isA, h]
  have h3 : c.isA .operators = false := by simp [Comp.isA, h]
  have h4 : c.isA .params = true := by simp [Comp.isA, h]
  simp [wrap, h1, h2, h3, h4, Multi.use, buildPipe, Pipe.stages, Multi.stages, hok, Except.map]

example : wrap exDefaults (fun _ : Unit => true) (fun _ _ => true) (some ()) cost2 = .ok ((), .textBook ⟨⟨10, [.enumerator]⟩, cost2, ⟨13, [.cardEst]⟩⟩) := by
  decide
example : AtMostOne cost2 usable ∧ Is cost2 .costModel ∧ Role.costModel ∈ usable := by
  simp only [AtMostOne]; decide

/-! ### C229: feedback, training and cardinality estimators -/

variable {σ F M : Type}

/-- The stages that learn from feedback. -/
def learners (obj : Nat → Learner σ F M) (stages : List Nat) : List Nat := stages.filter fun i => (obj i).online

/-- The state of a stage after `n` calls with the same feedback. -/
def learned (o : Learner σ F M) (f : F) (s : σ) : Nat → σ
  | 0 => s
  | n + 1 => (o.learn f (learned o f s n)).1

theorem learn_state (obj : Nat → Learner σ F M) (f : F) (heap : Nat → σ) (stages : List Nat) :
    (learnFromFeedback obj stages heap f).log = (learners obj stages).map (·, f) ∧
      ∀ i, (learnFromFeedback obj stages heap f).heap i = learned (obj i) f (heap i) ((learners obj stages).count i) := by
  induction stages using List.reverseRecOn with
  | nil => exact ⟨rfl, fun i => rfl⟩
  | append_singleton l x ih =>
    have e : learnFromFeedback obj (l ++ [x]) heap f = learnStep obj f (learnFromFeedback obj l heap f) x := by
      simp [learnFromFeedback, List.foldl_append]
    rw [e]
    unfold learnStep learners
    by_cases h : (obj x).online = true
    · simp only [h, Bool.not_true, Bool.false_eq_true, if_false, List.filter_append, List.filter_cons, if_true, List.filter_nil]
      refine ⟨by simp [ih.1, learners], fun i => ?_⟩
      by_cases hi : i = x
      · subst hi
        simp only [if_true, List.count_append, List.count_cons_self, List.count_nil]
        rw [ih.2]
        rfl
      · simp only [hi, if_false]
        rw [ih.2]
        have : List.count i [x] = 0 := by simp [List.count_cons, Ne.symm hi]
        rw [List.count_append, this]
        rfl
    · simp only [h, Bool.not_false, if_true, List.filter_append, List.filter_cons, Bool.false_eq_true, if_false, List.filter_nil,
        List.append_nil]
      exact ih

/-- One feedback is given to exactly the stages that use feedback, in the order of the stages and once for each place that a stage has in the
pipeline; all others are unchanged. -/
theorem C229_feedback (obj : Nat → Learner σ F M) (stages : List Nat) (heap : Nat → σ) (f : F) :
    (learnFromFeedback obj stages heap f).log = (learners obj stages).map (·, f) ∧
      (∀ i, i ∉ learners obj stages → (learnFromFeedback obj stages heap f).heap i = heap i) ∧
      (∀ i ∈ learners obj stages, stages.Nodup → (learnFromFeedback obj stages heap f).heap i = ((obj i).learn f (heap i)).1) ∧
      (requiresOnline obj stages = true ↔ (learnFromFeedback obj stages heap f).log ≠ []) := by
  obtain ⟨h1, h2⟩ := learn_state obj f heap stages
  refine ⟨h1, fun i hi => ?_, fun i hi hn => ?_, ?_⟩
  · rw [h2, List.count_eq_zero_of_not_mem hi]; rfl
  · rw [h2]
    have : (learners obj stages).count i = 1 := List.count_eq_one_of_mem (hn.filter _) hi
    rw [this]; rfl
  · rw [h1]
    unfold requiresOnline learners
    rw [List.any_eq_true]
    constructor
    · rintro ⟨i, hi, ho⟩ hnil
      have : i ∈ stages.filter fun i => (obj i).online := List.mem_filter.2 ⟨hi, ho⟩
      rw [List.map_eq_nil_iff] at hnil
      rw [hnil] at this
      cases this
    · intro hne
      rw [Ne, List.map_eq_nil_iff] at hne
      obtain ⟨i, hi⟩ := List.exists_mem_of_ne_nil _ hne
      exact ⟨i, (List.mem_filter.1 hi).1, (List.mem_filter.1 hi).2⟩

/-- If the stages have different names, the returned metrics are those of each stage. -/
theorem C229_metrics_partial (obj : Nat → Learner σ F M) (stages : List Nat) (heap : Nat → σ) (f : F)
    (hn : (stages.map fun i => (obj i).name).Nodup) (i : Nat) (hi : i ∈ learners obj stages) :
    Dict.get? (learnFromFeedback obj stages heap f).metrics (obj i).name = some ((obj i).learn f (heap i)).2 := by
  induction stages using List.reverseRecOn with
  | nil => cases hi
  | append_singleton l x ih =>
    have e : learnFromFeedback obj (l ++ [x]) heap f = learnStep obj f (learnFromFeedback obj l heap f) x := by
      simp [learnFromFeedback, List.foldl_append]
    rw [List.map_append, List.nodup_append] at hn
    obtain ⟨n1, -, n3⟩ := hn
    rw [e]
    unfold learnStep
    by_cases h : (obj x).online = true
    · simp only [h, Bool.not_true, Bool.false_eq_true, if_false]
      rw [Dict.get?_set]
      rw [learners, List.filter_append, List.mem_append] at hi
      rcases hi with hi | hi
      · have hil : i ∈ l := (List.mem_filter.1 hi).1
        have hne : (obj i).name ≠ (obj x).name := n3 _ (List.mem_map_of_mem hil) _ (by simp)
        have hne' : (obj x).name ≠ (obj i).name := hne.symm
        simp only [hne, hne', if_false]
        exact ih n1 hi
      · have hix : i = x := by
          have := (List.mem_filter.1 hi).1
          simpa using this
        subst hix
        have hnl : i ∉ learners obj l := by
          intro hl
          exact n3 _ (List.mem_map_of_mem (List.mem_filter.1 hl).1) _ (by simp) rfl
        have hh := (learn_state obj f heap l).2 i
        rw [List.count_eq_zero_of_not_mem hnl] at hh
        simp only [if_true]
        rw [hh]
        rfl
    · simp only [h, Bool.not_false, if_true]
      refine ih n1 ?_
      rw [learners, List.filter_append, List.mem_append] at hi
      rcases hi with hi | hi
      · exact hi
      · have h1 := (List.mem_filter.1 hi).1
        have h2 := (List.mem_filter.1 hi).2
        simp only [List.mem_singleton] at h1
        subst h1
        exact absurd h2 h

/-- Two stages with the same name, e.g. two unnamed objects of the same class: both learn, but only the metrics of the second are returned. -/
theorem C229_metrics_violated (obj : Nat → Learner σ F M) (heap : Nat → σ) (f : F) (i j : Nat) (hij : i ≠ j) (hi : (obj i).online = true)
    (hj : (obj j).online = true) (hn : (obj i).name = (obj j).name) :
    (learnFromFeedback obj [i, j] heap f).log = [(i, f), (j, f)] ∧
      (learnFromFeedback obj [i, j] heap f).metrics = [((obj j).name, ((obj j).learn f (heap j)).2)] := by
  have hji : j ≠ i := hij.symm
  constructor <;> simp [learnFromFeedback, learnStep, hi, hj, hn, hji, Dict.set]

/-- A stage that has two places in a pipeline learns twice from one execution. -/
theorem C229_twice_violated (obj : Nat → Learner σ F M) (heap : Nat → σ) (f : F) (i : Nat) (hi : (obj i).online = true) :
    (learnFromFeedback obj [i, i] heap f).heap i = ((obj i).learn f ((obj i).learn f (heap i)).1).1 := by
  simp [learnFromFeedback, learnStep, hi]

def exLearner : Nat → Learner Nat Nat String :=
  fun i => ⟨if i = 2 then "b" else "a", i != 1, fun f s => (s + f, "m")⟩

example : (learnFromFeedback exLearner [0, 1, 2] (fun _ => 5) 3).log = [(0, 3), (2, 3)] := by decide
example : ([0, 2].map fun i => (exLearner i).name).Nodup ∧ (2 : Nat) ∈ learners exLearner [0, 2] := by decide
example : (exLearner 0).name = (exLearner 3).name ∧ (exLearner 0).online = true ∧ (exLearner 3).online = true := by decide

/-! #### Training -/

variable (obj : Nat → PipeUse.Trainee σ)

/-- Training has an effect: it completes its own kind and keeps the others. -/
def Proper : Prop := ∀ i k s, (obj i).done k ((obj i).fit k s) = true ∧ ∀ k', (obj i).done k' s = true → (obj i).done k' ((obj i).fit k s) = true

theorem trainAll_spec (hp : Proper obj) (k : Kind) (prov : Nat → Bool) (l : List Nat) (s : (Nat → σ) × List (Kind × Nat)) :
    (∀ i k', (obj i).done k' (s.1 i) = true → (obj i).done k' ((trainAll obj k prov l s).1.1 i) = true) ∧
      ((trainAll obj k prov l s).2 = true → ∀ i ∈ l, (obj i).requires k = true → (obj i).done k ((trainAll obj k prov l s).1.1 i) = true) ∧
      ((∀ i ∈ l, prov i = true) → (trainAll obj k prov l s).2 = true) := by
  induction l generalizing s with
  | nil => exact ⟨fun i k' h => h, (fun _ i hi => by cases hi), fun _ => rfl⟩
  | cons x l ih =>
    unfold trainAll
    by_cases h1 : (!(obj x).requires k || (obj x).done k (s.1 x)) = true
    · rw [if_pos h1]
      obtain ⟨a, b, c⟩ := ih s
      refine ⟨a, fun h i hi hr => ?_, fun h => c fun i hi => h i (List.mem_cons_of_mem _ hi)⟩
      rcases List.mem_cons.1 hi with rfl | hi
      · refine a i k ?_
        simpa [hr] using h1
      · exact b h i hi hr
    · rw [if_neg h1]
      by_cases h2 : prov x = true
      · rw [if_pos h2]
        obtain ⟨a, b, c⟩ := ih (fun j => if j = x then (obj x).fit k (s.1 x) else s.1 j, s.2 ++ [(k, x)])
        refine ⟨fun i k' h => ?_, fun h i hi hr => ?_, fun h => c fun i hi => h i (List.mem_cons_of_mem _ hi)⟩
        · apply a i k'
          by_cases hix : i = x
          · subst hix; simpa using (hp i k _).2 k' h
          · simpa [hix] using h
        · rcases List.mem_cons.1 hi with rfl | hi
          · apply a i k
            simpa using (hp i k _).1
          · exact b h i hi hr
      · rw [if_neg h2]
        exact ⟨fun i k' h => h, fun h => by simp at h, fun h => absurd (h x (by simp)) h2⟩

theorem stage_fit (hp : Proper obj) (k : Kind) (stages : List Nat) (s : (Nat → σ) × List (Kind × Nat)) :
    let t := if required obj k stages then (trainAll obj k (fun _ => true) stages s).1 else s
    (∀ i k', (obj i).done k' (s.1 i) = true → (obj i).done k' (t.1 i) = true) ∧
      ∀ i ∈ stages, (obj i).requires k = true → (obj i).done k (t.1 i) = true := by
  intro t
  obtain ⟨a, b, c⟩ := trainAll_spec obj hp k (fun _ => true) stages s
  by_cases hr : required obj k stages = true
  · have ht : t = (trainAll obj k (fun _ => true) stages s).1 := by simp only [t, if_pos hr]
    rw [ht]
    exact ⟨a, b (c fun _ _ => rfl)⟩
  · have ht : t = s := by simp only [t, if_neg hr]
    rw [ht]
    refine ⟨fun i k' h => h, fun i hi h => ?_⟩
    exact absurd (List.any_eq_true.2 ⟨i, hi, h⟩) hr

/-- When a benchmark starts, all stages of the pipeline are trained: for each kind of training, each stage that requires it has completed it.
Here each training completes its kind and keeps the others. -/
theorem C229_trained_partial (hp : Proper obj) (samples : Samples) (stages : List Nat) (h : Nat → σ)
    (hok : (prepare obj samples stages h).2 = true) :
    ∀ i ∈ stages, ∀ k, (obj i).requires k = true → (obj i).done k ((prepare obj samples stages h).1.1 i) = true := by
  unfold prepare at hok ⊢
  simp only at hok ⊢
  generalize hs1 : (if required obj .data stages then (trainAll obj .data (fun _ => true) stages (h, [])).1 else ((h, []) : (Nat → σ) × List (Kind × Nat))) = s1 at hok ⊢
  have f1 := stage_fit obj hp .data stages (h, [])
  simp only [hs1] at f1
  generalize hs2 : (if required obj .workload stages then (trainAll obj .workload (fun _ => true) stages s1).1 else s1) = s2 at hok ⊢
  have f2 := stage_fit obj hp .workload stages s1
  simp only [hs2] at f2
  have d1 : ∀ i ∈ stages, (obj i).requires .data = true → (obj i).done .data (s2.1 i) = true := fun i hi hr => f2.1 i _ (f1.2 i hi hr)
  have d2 := f2.2
  by_cases hr : required obj .samples stages = true
  · rw [if_pos hr] at hok ⊢
    have main : ∀ prov, (trainAll obj .samples prov stages s2).2 = true →
        ∀ i ∈ stages, ∀ k, (obj i).requires k = true → (obj i).done k ((trainAll obj .samples prov stages s2).1.1 i) = true := by
      intro prov hx i hi k hk
      obtain ⟨a, b, -⟩ := trainAll_spec obj hp .samples prov stages s2
      cases k
      · exact a i _ (d1 i hi hk)
      · exact a i _ (d2 i hi hk)
      · exact b hx i hi hk
    cases samples with
    | none =>
      simp only at hok ⊢
      intro i hi k hk
      cases k
      · exact d1 i hi hk
      · exact d2 i hi hk
      · have := List.all_eq_true.1 hok i hi
        simpa [hk] using this
    | data => exact main _ hok
    | repository has => exact main _ hok
  · rw [if_neg hr] at hok ⊢
    intro i hi k hk
    cases k
    · exact d1 i hi hk
    · exact d2 i hi hk
    · exact absurd (List.any_eq_true.2 ⟨i, hi, hk⟩) hr

/-- A stage for which the repository has no samples stops the benchmark, unless it was trained before. -/
theorem C229_missing (stages : List Nat) (h : Nat → σ) (i : Nat) (hi : i ∈ stages) (hr : (obj i).requires .samples = true)
    (hd : ∀ k, (obj i).requires k = true → k = .samples) (hn : (obj i).done .samples (h i) = false) (samples : Samples)
    (hs : samples.provides i = false) : (prepare obj samples stages h).2 = false := by
  have keep : ∀ k, k ≠ .samples → ∀ (l : List Nat) (prov : Nat → Bool) (s : (Nat → σ) × List (Kind × Nat)), (trainAll obj k prov l s).1.1 i = s.1 i := by
    intro k hk l prov
    induction l with
    | nil => intro s; rfl
    | cons x l ih =>
      intro s
      unfold trainAll
      split
      · exact ih s
      · split
        · rw [ih]
          rename_i hx _
          by_cases hix : i = x
          · subst hix
            have : (obj i).requires k = false := by
              cases hc : (obj i).requires k with
              | false => rfl
              | true => exact absurd (hd k hc) hk
            simp [this] at hx
          · simp [hix]
        · rfl
  have fails : ∀ (l : List Nat), i ∈ l → ∀ (prov : Nat → Bool), prov i = false → ∀ s : (Nat → σ) × List (Kind × Nat),
      (obj i).done .samples (s.1 i) = false → (trainAll obj .samples prov l s).2 = false := by
    intro l hl prov hprov
    induction l with
    | nil => cases hl
    | cons x l ih =>
      intro s hs
      unfold trainAll
      by_cases hix : i = x
      · subst hix
        simp [hr, hs, hprov]
      · have hl' : i ∈ l := by
          rcases List.mem_cons.1 hl with h | h
          · exact absurd h hix
          · exact h
        split
        · exact ih hl' s hs
        · split
          · exact ih hl' _ (by simpa [hix] using hs)
          · rfl
  have hreq : required obj .samples stages = true := List.any_eq_true.2 ⟨i, hi, hr⟩
  unfold prepare
  simp only [hreq, if_true]
  generalize hs1 : (if required obj .data stages then (trainAll obj .data (fun _ => true) stages (h, [])).1 else ((h, []) : (Nat → σ) × List (Kind × Nat))) = s1
  have e1 : s1.1 i = h i := by
    rw [← hs1]; split
    · exact keep _ (by simp) _ _ _
    · rfl
  generalize hs2 : (if required obj .workload stages then (trainAll obj .workload (fun _ => true) stages s1).1 else s1) = s2
  have e2 : s2.1 i = h i := by
    rw [← hs2]; split
    · rw [keep _ (by simp), e1]
    · exact e1
  cases samples with
  | none =>
    simp only
    unfold sampleFitCompleted
    rw [List.all_eq_false]
    exact ⟨i, hi, by simp [hr, e2, hn]⟩
  | data => simp [Samples.provides] at hs
  | repository has => exact fails stages hi _ hs s2 (by rw [e2]; exact hn)

def exTrainee : Nat → PipeUse.Trainee (Kind → Bool) :=
  fun i => ⟨fun k => i != 1 && k != .workload, fun k s => s k, fun k s => fun k' => s k' || k' == k⟩

example : Proper exTrainee := by
  intro i k s
  refine ⟨by simp [exTrainee], fun k' h => ?_⟩
  simp only [exTrainee] at h ⊢
  simp [h]

example : (prepare exTrainee .data [0, 1, 2] (fun _ _ => false)).1.2 = [(.data, 0), (.data, 2), (.samples, 0), (.samples, 2)] ∧
    (prepare exTrainee .data [0, 1, 2] (fun _ _ => false)).2 = true ∧ (prepare exTrainee .none [0, 1, 2] (fun _ _ => false)).2 = false := by
  decide

/-! #### Cardinality estimators -/

variable {Q : Type}

/-- The estimates of a query are computed by an estimator that was prepared for this query, whatever happened before. -/
theorem C229_prepared (raises : Q → Bool) (qs : List Q) (q : Q) (s : Option Q) (pre post : List (Event Q))
    (h : (paramEvents true raises q).1 = pre ++ .generate q :: post) :
    pre.foldl Event.apply (afterQueries true raises qs s) = some q := by
  unfold paramEvents at h
  simp only [if_true] at h
  have : pre = [.initialize q] := by
    split at h
    all_goals
      rcases pre with - | ⟨a, pre⟩
      · simp at h
      · simp only [List.cons_append, List.cons.injEq, List.nil_append] at h
        obtain ⟨h1, h2⟩ := h
        rcases pre with - | ⟨b, pre⟩
        · rw [h1]
        · simp only [List.cons_append, List.cons.injEq] at h2
          obtain ⟨-, h2⟩ := h2
          rcases pre with - | ⟨c, pre⟩ <;> simp at h2
  rw [this]
  rfl

/-- If the estimates can be computed, an estimator is cleaned up after each query; other generators are not touched. -/
theorem C229_cleanup_partial (raises : Q → Bool) (qs : List Q) (h : ∀ q ∈ qs, raises q = false) :
    afterQueries true raises qs none = none ∧
      ∀ q ∈ qs, (paramEvents true raises q).1 = [.initialize q, .generate q, .cleanup] ∧ (paramEvents false raises q).1 = [.generate q] := by
  constructor
  · unfold afterQueries
    induction qs with
    | nil => rfl
    | cons q qs ih =>
      have hq := h q (by simp)
      simp only [List.foldl_cons]
      have : (paramEvents true raises q).1.foldl Event.apply none = none := by simp [paramEvents, hq, Event.apply]
      rw [this]
      exact ih fun x hx => h x (List.mem_cons_of_mem _ hx)
  · intro q hq
    simp [paramEvents, h q hq]

/-- If they cannot, `cleanup` is not called: the estimator keeps the query and the database. -/
theorem C229_cleanup_violated (raises : Q → Bool) (q : Q) (s : Option Q) (h : raises q = true) :
    Event.cleanup ∉ (paramEvents true raises q).1 ∧ afterQueries true raises [q] s = some q := by
  constructor <;> simp [paramEvents, afterQueries, h, Event.apply]

example : afterQueries true (fun q : Nat => q == 2) [1, 2] none = some 2 := by decide
example : afterQueries true (fun q : Nat => q == 2) [2, 1] none = none := by decide

end PB.PipeUseProps
