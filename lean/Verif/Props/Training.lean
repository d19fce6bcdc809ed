import Verif.Model.Pipelines
import Verif.Props.Dicts

/-! Properties C64 and C105: training optimization pipelines. -/

set_option linter.unusedSimpArgs false
set_option linter.unusedVariables false
set_option linter.unusedSectionVars false
set_option linter.unnecessarySimpa false

namespace PB.TrainingProps
open PB PB.Pipelines

variable {σ T M : Type}

/-! ### C64 -/

/-- Training completes: afterwards the stage reports that it has been fitted. -/
def Completes (obj : Nat → Trainee σ T M) : Prop := ∀ i t x, (obj i).done ((obj i).fit t x).1 = true

/-- The stage requires training and has not been fitted. -/
def Needs (obj : Nat → Trainee σ T M) (heap : Nat → σ) (i : Nat) : Prop := (obj i).required = true ∧ (obj i).done (heap i) = false

theorem skip_iff (obj : Nat → Trainee σ T M) (heap : Nat → σ) (i : Nat) :
    (!(obj i).required || (obj i).done (heap i)) = true ↔ ¬ Needs obj heap i := by
  unfold Needs
  cases (obj i).required <;> cases (obj i).done (heap i) <;> simp

theorem trainStep_skip (obj : Nat → Trainee σ T M) (t : T) (s : TState σ M) (i : Nat) (h : ¬ Needs obj s.heap i) :
    trainStep obj t s i = s := by
  rw [trainStep, if_pos ((skip_iff _ _ _).2 h)]

theorem trainStep_fit (obj : Nat → Trainee σ T M) (t : T) (s : TState σ M) (i : Nat) (h : Needs obj s.heap i) :
    trainStep obj t s i = ⟨fun j => if j = i then ((obj i).fit t (s.heap i)).1 else s.heap j,
      Dict.set s.metrics (obj i).name ((obj i).fit t (s.heap i)).2, s.log ++ [i]⟩ := by
  rw [trainStep, if_neg]
  rw [skip_iff]; exact fun h' => h' h

/-- What holds after some stages have been visited. -/
structure After (obj : Nat → Trainee σ T M) (t : T) (heap : Nat → σ) (seen : List Nat) (s : TState σ M) : Prop where
  log : ∀ i, i ∈ s.log ↔ i ∈ seen ∧ Needs obj heap i
  nodup : s.log.Nodup
  sub : s.log.Sublist seen
  fitted : ∀ i ∈ s.log, s.heap i = ((obj i).fit t (heap i)).1
  other : ∀ i, i ∉ s.log → s.heap i = heap i
  keys : ∀ n, n ∈ Dict.keys s.metrics ↔ ∃ i ∈ s.log, (obj i).name = n
  last : ∀ n l i r, s.log = l ++ i :: r → (obj i).name = n → (∀ j ∈ r, (obj j).name ≠ n) →
    Dict.get? s.metrics n = some ((obj i).fit t (heap i)).2

theorem after_step (obj : Nat → Trainee σ T M) (hc : Completes obj) (t : T) (heap : Nat → σ) (seen : List Nat) (s : TState σ M) (i : Nat)
    (h : After obj t heap seen s) : After obj t heap (seen ++ [i]) (trainStep obj t s i) := by
  by_cases hin : i ∈ s.log
  · have hn : ¬ Needs obj s.heap i := by
      rintro ⟨-, hd⟩
      rw [h.fitted i hin, hc] at hd
      cases hd
    rw [trainStep_skip _ _ _ _ hn]
    refine ⟨fun j => ?_, h.nodup, h.sub.trans (List.sublist_append_left _ _), h.fitted, h.other, h.keys, h.last⟩
    rw [h.log, List.mem_append, List.mem_singleton]
    constructor
    · rintro ⟨h1, h2⟩; exact ⟨.inl h1, h2⟩
    · rintro ⟨h1 | rfl, h2⟩
      · exact ⟨h1, h2⟩
      · exact (h.log j).1 hin
  · have he := h.other i hin
    by_cases hn : Needs obj s.heap i
    · rw [trainStep_fit _ _ _ _ hn]
      have hn' : Needs obj heap i := by rw [Needs, he] at hn; exact hn
      refine ⟨fun j => ?_, ?_, h.sub.append (List.Sublist.refl _), fun j hj => ?_, fun j hj => ?_, fun n => ?_, fun n l j r hl hj hr => ?_⟩
      · simp only [List.mem_append, List.mem_singleton, h.log]
        constructor
        · rintro (⟨h1, h2⟩ | rfl)
          · exact ⟨.inl h1, h2⟩
          · exact ⟨.inr rfl, hn'⟩
        · rintro ⟨h1 | h1, h2⟩
          · exact .inl ⟨h1, h2⟩
          · exact .inr h1
      · refine List.nodup_append.2 ⟨h.nodup, by simp, ?_⟩
        intro a ha b hb
        rw [List.mem_singleton] at hb
        rintro rfl
        exact hin (hb ▸ ha)
      · rw [List.mem_append, List.mem_singleton] at hj
        dsimp only
        by_cases hji : j = i
        · subst hji; rw [if_pos rfl, he]
        · rw [if_neg hji]; exact h.fitted j (hj.resolve_right hji)
      · rw [List.mem_append, List.mem_singleton, not_or] at hj
        dsimp only
        rw [if_neg hj.2]; exact h.other j hj.1
      · rw [Dict.mem_keys_set]
        simp only [List.mem_append, List.mem_singleton]
        constructor
        · rintro (rfl | h')
          · exact ⟨i, .inr rfl, rfl⟩
          · obtain ⟨k, hk, hk'⟩ := (h.keys n).1 h'; exact ⟨k, .inl hk, hk'⟩
        · rintro ⟨k, hk | rfl, hk'⟩
          · exact .inr ((h.keys n).2 ⟨k, hk, hk'⟩)
          · exact .inl hk'.symm
      · dsimp only at hl ⊢
        rw [Dict.get?_set]
        rcases List.eq_nil_or_concat r with rfl | ⟨r', x, rfl⟩
        · have := List.append_inj' hl rfl
          simp only [List.cons.injEq, and_true] at this
          rw [← this.2] at hj ⊢
          rw [if_pos hj, he]
        · rw [List.concat_eq_append, ← List.cons_append, ← List.append_assoc] at hl
          have hx := List.append_inj' hl rfl
          simp only [List.cons.injEq, and_true] at hx
          rw [if_neg]
          · exact h.last n l j r' hx.1 hj fun k hk => hr k (by simp [hk])
          · rw [hx.2]; exact hr x (by simp)
    · rw [trainStep_skip _ _ _ _ hn]
      refine ⟨fun j => ?_, h.nodup, h.sub.trans (List.sublist_append_left _ _), h.fitted, h.other, h.keys, h.last⟩
      rw [h.log, List.mem_append, List.mem_singleton]
      constructor
      · rintro ⟨h1, h2⟩; exact ⟨.inl h1, h2⟩
      · rintro ⟨h1 | rfl, h2⟩
        · exact ⟨h1, h2⟩
        · rw [Needs, he] at hn; exact absurd h2 hn

theorem after_start (obj : Nat → Trainee σ T M) (t : T) (heap : Nat → σ) : After obj t heap [] ⟨heap, [], []⟩ where
  log := by simp
  nodup := by simp
  sub := by simp
  fitted := by simp
  other := by simp
  keys := by simp [Dict.keys]
  last := by intro n l i r h; simp at h

theorem after_train (obj : Nat → Trainee σ T M) (hc : Completes obj) (t : T) (heap : Nat → σ) (stages : List Nat) :
    After obj t heap stages (train obj t stages heap) := by
  induction stages using List.reverseRecOn with
  | nil => exact after_start obj t heap
  | append_singleton stages i ih =>
    rw [train, List.foldl_append]
    exact after_step obj hc t heap stages _ i ih

/-- **C64** (partial: training completes). Training fits exactly the stages that require training and have not been fitted, each of
them once even if it is used several times, in the order of the stages, with its current state; no other object is touched. -/
theorem C64_trained_partial (obj : Nat → Trainee σ T M) (hc : Completes obj) (t : T) (heap : Nat → σ) (stages : List Nat) :
    (∀ i, i ∈ (train obj t stages heap).log ↔ i ∈ stages ∧ (obj i).required = true ∧ (obj i).done (heap i) = false) ∧
    (train obj t stages heap).log.Nodup ∧ (train obj t stages heap).log.Sublist stages ∧
    (∀ i ∈ (train obj t stages heap).log, (train obj t stages heap).heap i = ((obj i).fit t (heap i)).1) ∧
    ∀ i, i ∉ (train obj t stages heap).log → (train obj t stages heap).heap i = heap i :=
  let h := after_train obj hc t heap stages
  ⟨h.log, h.nodup, h.sub, h.fitted, h.other⟩

theorem train_nothing (obj : Nat → Trainee σ T M) (t : T) (heap : Nat → σ) (stages : List Nat) (h : ∀ i ∈ stages, ¬ Needs obj heap i) :
    train obj t stages heap = ⟨heap, [], []⟩ := by
  induction stages using List.reverseRecOn with
  | nil => rfl
  | append_singleton stages i ih =>
    have := ih fun j hj => h j (by simp [hj])
    rw [train] at this ⊢
    rw [List.foldl_append, this]
    exact trainStep_skip _ _ _ _ (h i (by simp))

/-- **C64** (partial: training completes). Afterwards all stages that require training have been fitted, and training again, even
with different data, changes nothing. -/
theorem C64_again_partial (obj : Nat → Trainee σ T M) (hc : Completes obj) (t t' : T) (heap : Nat → σ) (stages : List Nat) :
    (∀ i ∈ stages, (obj i).required = true → (obj i).done ((train obj t stages heap).heap i) = true) ∧
    train obj t' stages (train obj t stages heap).heap = ⟨(train obj t stages heap).heap, [], []⟩ := by
  have h := after_train obj hc t heap stages
  have hall : ∀ i ∈ stages, (obj i).required = true → (obj i).done ((train obj t stages heap).heap i) = true := by
    intro i hi hr
    by_cases hl : i ∈ (train obj t stages heap).log
    · rw [h.fitted i hl, hc]
    · rw [h.other i hl]
      by_contra hd
      exact hl ((h.log i).2 ⟨hi, hr, by simpa using hd⟩)
  refine ⟨hall, train_nothing _ _ _ _ ?_⟩
  rintro i hi ⟨hr, hd⟩
  rw [hall i hi hr] at hd
  cases hd

/-- **C64** (partial: training completes, the trained stages have different names). The metrics contain exactly the metrics of the
trained stages. -/
theorem C64_metrics_partial (obj : Nat → Trainee σ T M) (hc : Completes obj) (t : T) (heap : Nat → σ) (stages : List Nat)
    (hn : ∀ i ∈ stages, ∀ j ∈ stages, (obj i).name = (obj j).name → i = j) :
    (∀ n, n ∈ Dict.keys (train obj t stages heap).metrics ↔
      ∃ i ∈ stages, ((obj i).required = true ∧ (obj i).done (heap i) = false) ∧ (obj i).name = n) ∧
    ∀ i ∈ stages, (obj i).required = true → (obj i).done (heap i) = false →
      Dict.get? (train obj t stages heap).metrics (obj i).name = some ((obj i).fit t (heap i)).2 := by
  have h := after_train obj hc t heap stages
  constructor
  · intro n
    rw [h.keys]
    constructor
    · rintro ⟨i, hi, he⟩; obtain ⟨h1, h2⟩ := (h.log i).1 hi; exact ⟨i, h1, h2, he⟩
    · rintro ⟨i, hi, h2, he⟩; exact ⟨i, (h.log i).2 ⟨hi, h2⟩, he⟩
  · intro i hi hr hd
    have hl := (h.log i).2 ⟨hi, hr, hd⟩
    obtain ⟨l, r, hlr⟩ := List.append_of_mem hl
    refine h.last _ l i r hlr rfl fun j hj he => ?_
    have hjl : j ∈ (train obj t stages heap).log := by rw [hlr]; simp [hj]
    have := hn j ((h.log j).1 hjl).1 i hi he
    subst this
    have hnd := h.nodup
    rw [hlr, List.nodup_append] at hnd
    exact (List.nodup_cons.1 hnd.2.1).1 hj

/-- Stages that count how often they are trained. The number of the data is added. -/
def exObj (name : Nat → String) (completes : Bool) (i : Nat) : Trainee Nat Nat Nat :=
  ⟨name i, decide (i ≠ 2), fun n => completes && decide (n > 0), fun t n => (n + 1 + t, 10 * i + t)⟩

/-- **C64 is violated** if training does not complete: a stage that is used twice is trained twice. -/
theorem C64_twice_violated : (train (exObj toString false) 0 [1, 1] fun _ => 0).log = [1, 1] := by decide +kernel

/-- **C64 is violated** for metrics: stages of the same class have the same name by default, and all metrics but those of the last one
are lost. -/
theorem C64_metrics_violated : (train (exObj (fun _ => "stage") true) 0 [1, 3] fun _ => 0).metrics = [("stage", 30)] ∧
    (train (exObj (fun _ => "stage") true) 0 [1, 3] fun _ => 0).log = [1, 3] := by decide +kernel

example : Completes (exObj toString true) := by
  intro i t x
  simp [exObj]

example : ∀ i ∈ [1, 3, 2, 1], ∀ j ∈ [1, 3, 2, 1], (exObj toString true i).name = (exObj toString true j).name → i = j := by
  decide +kernel

example : (train (exObj toString true) 5 [1, 3, 2, 1] fun i => if i = 3 then 1 else 0).log = [1] := by decide +kernel

/-- **C64** (training with samples; partial: training completes). If samples exist for all stages that are to be trained, no exception
is raised; otherwise `ValueError` is raised, and the stages before the first one without samples have been trained and remain so. -/
theorem C64_samples_partial (obj : Nat → Trainee σ T M) (hc : Completes obj) (sample : Nat → Option T) (stages : List Nat) :
    ∀ s : TState σ M,
    ((∀ i ∈ stages, Needs obj s.heap i → sample i ≠ none) → (trainSamples obj sample stages s).2 = true ∧
      ∀ i ∈ stages, (obj i).required = true → (obj i).done ((trainSamples obj sample stages s).1.heap i) = true) ∧
    ((∃ i ∈ stages, Needs obj s.heap i ∧ sample i = none) → (trainSamples obj sample stages s).2 = false) ∧
    ∀ i, (trainSamples obj sample stages s).1.heap i = s.heap i ∨
      (i ∈ stages ∧ Needs obj s.heap i ∧ ∃ t, sample i = some t ∧ (trainSamples obj sample stages s).1.heap i = ((obj i).fit t (s.heap i)).1) := by
  induction stages with
  | nil => intro s; simp [trainSamples]
  | cons i is ih =>
    intro s
    rw [trainSamples]
    by_cases hn : Needs obj s.heap i
    · rw [if_neg (by rw [skip_iff]; exact fun h => h hn)]
      cases ht : sample i with
      | none =>
        refine ⟨fun h => absurd ht (h i (by simp) hn), fun _ => rfl, fun j => .inl rfl⟩
      | some t =>
        dsimp only
        obtain ⟨h1, h2, h3⟩ := ih (trainStep obj t s i)
        have hheap : ∀ j, (trainStep obj t s i).heap j = if j = i then ((obj i).fit t (s.heap i)).1 else s.heap j := by
          rw [trainStep_fit _ _ _ _ hn]; simp
        have hneeds : ∀ j, Needs obj (trainStep obj t s i).heap j ↔ j ≠ i ∧ Needs obj s.heap j := by
          intro j
          unfold Needs
          rw [hheap]
          by_cases hji : j = i
          · subst hji; simp [hc j t]
          · simp [hji]
        refine ⟨fun h => ?_, fun h => ?_, fun j => ?_⟩
        · obtain ⟨g1, g2⟩ := h1 fun j hj hn' => h j (by simp [hj]) ((hneeds j).1 hn').2
          refine ⟨g1, fun j hj hr => ?_⟩
          rcases List.mem_cons.1 hj with rfl | hj
          · rcases h3 j with h3 | ⟨_, h3, _⟩
            · rw [h3, hheap, if_pos rfl, hc]
            · exact absurd rfl ((hneeds j).1 h3).1
          · exact g2 j hj hr
        · obtain ⟨j, hj, hn', hs⟩ := h
          apply h2
          have hji : j ≠ i := by rintro rfl; rw [ht] at hs; cases hs
          exact ⟨j, (List.mem_cons.1 hj).resolve_left hji, (hneeds j).2 ⟨hji, hn'⟩, hs⟩
        · rcases h3 j with h3 | ⟨hj, h3, t', ht', h4⟩
          · rw [h3, hheap]
            by_cases hji : j = i
            · subst hji
              exact .inr ⟨by simp, hn, t, ht, by rw [if_pos rfl]⟩
            · exact .inl (if_neg hji)
          · obtain ⟨hji, hn'⟩ := (hneeds j).1 h3
            rw [hheap, if_neg hji] at h4
            exact .inr ⟨by simp [hj], hn', t', ht', h4⟩
    · rw [if_pos ((skip_iff _ _ _).2 hn)]
      obtain ⟨h1, h2, h3⟩ := ih s
      refine ⟨fun h => ?_, fun h => ?_, fun j => ?_⟩
      · obtain ⟨g1, g2⟩ := h1 fun j hj => h j (by simp [hj])
        refine ⟨g1, fun j hj hr => ?_⟩
        rcases List.mem_cons.1 hj with rfl | hj
        · have hd : (obj j).done (s.heap j) = true := by
            by_contra hd
            exact hn ⟨hr, by simpa using hd⟩
          rcases h3 j with h3 | ⟨_, h3, _⟩
          · rw [h3, hd]
          · exact absurd h3 hn
        · exact g2 j hj hr
      · obtain ⟨j, hj, hn', hs⟩ := h
        apply h2
        rcases List.mem_cons.1 hj with rfl | hj
        · exact absurd hn' hn
        · exact ⟨j, hj, hn', hs⟩
      · rcases h3 j with h3 | ⟨hj, h3⟩
        · exact .inl h3
        · exact .inr ⟨by simp [hj], h3⟩

/-- **C64 is violated** in so far as a failed training with samples leaves some stages trained and others not. -/
theorem C64_samples_violated : (trainSamples (exObj toString true) (fun i => if i = 1 then some 0 else none) [1, 3] ⟨fun _ => 0, [], []⟩).2 = false ∧
    (trainSamples (exObj toString true) (fun i => if i = 1 then some 0 else none) [1, 3] ⟨fun _ => 0, [], []⟩).1.log = [1] := by
  decide +kernel

/-! ### C105: stage classes -/

/-- The class implements the method itself instead of inheriting the default. -/
def Implements (child base : Cls) (m : Meth) : Prop := child m ≠ base m

theorem missing_empty (child base : Cls) (ms : List Meth) :
    (missingImpls child base ms).isEmpty = true ↔ (∀ m ∈ ms, Implements child base m) ∨ ∀ m ∈ ms, ¬ Implements child base m := by
  unfold missingImpls Implements
  dsimp only
  split
  · rename_i h
    rw [List.length_filter_eq_length_iff] at h
    simp only [List.isEmpty_nil, true_iff]
    refine .inr fun m hm => ?_
    simpa using h m hm
  · rename_i h
    rw [List.length_filter_eq_length_iff] at h
    rw [List.isEmpty_iff, List.filter_eq_nil_iff]
    constructor
    · intro h'; exact .inl fun m hm => by simpa using h' m hm
    · rintro (h' | h')
      · intro m hm; simpa using h' m hm
      · exact absurd (fun m hm => by simpa using h' m hm) h

/-- **C105.** A stage can be created iff its class implements each kind of training, i.e. the training method and the methods that go
with it, completely or not at all. -/
theorem C105_create (child base : Cls) : canCreate child base = true ↔
    (Implements child base .fitDatabase ↔ Implements child base .databaseFitCompleted) ∧
    (Implements child base .fitWorkload ↔ Implements child base .workloadFitCompleted) ∧
    (Implements child base .fitSamples ↔ Implements child base .sampleSpec) ∧
    (Implements child base .fitSamples ↔ Implements child base .sampleFitCompleted) := by
  rw [canCreate, Bool.and_eq_true, Bool.and_eq_true, missing_empty, missing_empty, missing_empty]
  simp only [List.mem_cons, List.not_mem_nil, or_false, forall_eq_or_imp, forall_eq]
  tauto

/-- **C105.** Hence training never fails because something is not implemented: whenever a stage says that it requires some training,
all methods that training calls are implemented by its class. -/
theorem C105_training_implemented (child base : Cls) (h : canCreate child base = true) :
    (requiresData child base = true → raises child base .fitDatabase = false ∧ raises child base .databaseFitCompleted = false) ∧
    (requiresWorkload child base = true → raises child base .fitWorkload = false ∧ raises child base .workloadFitCompleted = false) ∧
    (requiresSamples child base = true → raises child base .fitSamples = false ∧ raises child base .sampleSpec = false ∧
      raises child base .sampleFitCompleted = false) ∧
    (usesFeedback child base = true → raises child base .learnFromFeedback = false) := by
  rw [C105_create] at h
  unfold Implements at h
  simp only [requiresData, requiresWorkload, requiresSamples, usesFeedback, raises, bne_iff_ne, beq_eq_false_iff_ne]
  tauto

/-- A class that is trained on databases. -/
example : canCreate (fun m => if m = .fitDatabase ∨ m = .databaseFitCompleted then 1 else 0) (fun _ => 0) = true ∧
    canCreate (fun m => if m = .fitSamples ∨ m = .sampleSpec then 1 else 0) (fun _ => 0) = false := by decide +kernel

end PB.TrainingProps
