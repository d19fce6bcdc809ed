import Verif.Model.TrainData

/-! Properties of training data and their repository. -/

set_option linter.unusedSimpArgs false
set_option linter.unusedVariables false
set_option linter.unnecessarySimpa false

namespace PB.TrainDataProps

open PB.TrainData

variable {V : Type}

/-! ### Specification -/

/-- The values of a feature, one for each sample. -/
def Values (d : Data V) (f : String) : List (Option V) :=
  match d.fmap.get? f with
  | some c => d.samples.rows.map fun r => r c
  | none => []

/-- The feature map of the dataset is a dictionary to existing columns, and column names are unique. -/
structure Proper (d : Data V) : Prop where
  wf : d.fmap.WF
  cols : ∀ f c, d.fmap.get? f = some c → c ∈ d.samples.cols
  nodup : d.samples.cols.Nodup

/-- In addition, the columns are called like the features. -/
structure Plain (d : Data V) : Prop extends Proper d where
  same : ∀ f c, d.fmap.get? f = some c → c = f

/-- A dataset with the feature `query` in column `sql` and the feature `cost` in column `cost`. -/
def exData : Data Nat := ⟨⟨["sql", "cost"], [fun _ => some 1]⟩, [("query", "sql"), ("cost", "cost")]⟩

/-- A dataset with the features `query` and `cost`. -/
def exPlain : Data Nat := ⟨⟨["query", "cost"], [fun _ => some 1, fun _ => none]⟩, [("query", "query"), ("cost", "cost")]⟩

theorem exData_proper : Proper exData := by
  refine ⟨by show List.Nodup _; decide, ?_, by decide⟩
  intro f c h
  simp only [exData, Dict.get?] at h
  split at h
  · simp at h; simp [exData, ← h]
  · split at h
    · simp at h; simp [exData, ← h]
    · simp at h

theorem exPlain_plain : Plain exPlain := by
  have key : ∀ f c, exPlain.fmap.get? f = some c → c = f ∧ c ∈ exPlain.samples.cols := by
    intro f c h
    simp only [exPlain, Dict.get?] at h
    split at h
    · next e => simp at h; subst e; subst h; simp [exPlain]
    · split at h
      · next e => simp at h; subst e; subst h; simp [exPlain]
      · simp at h
  exact ⟨⟨by show List.Nodup _; decide, fun f c h => (key f c h).2, by decide⟩, fun f c h => (key f c h).1⟩

/-! ### Specs -/

/-- **C197**.  A spec satisfies another one if and only if it contains its features, and specs are equal if and only if each
satisfies the other one. -/
theorem C197_satisfies (s t : Spec) : (satisfies s t = true ↔ ∀ f ∈ t, f ∈ s) ∧
    (specEq s t = true ↔ satisfies s t = true ∧ satisfies t s = true) ∧ (∀ fs, Spec.provides s fs = true ↔ ∀ f ∈ fs, f ∈ s) := by
  have h : ∀ s t : Spec, satisfies s t = true ↔ ∀ f ∈ t, f ∈ s := by
    intro s t
    simp [satisfies, missing, List.isEmpty_iff]
  refine ⟨h s t, ?_, fun fs => by simp [Spec.provides]⟩
  rw [h, h]
  simp [specEq]
  exact ⟨fun ⟨a, b⟩ => ⟨b, a⟩, fun ⟨a, b⟩ => ⟨b, a⟩⟩

theorem mem_spec {d : Data V} {f : String} : f ∈ d.spec ↔ ∃ c, d.fmap.get? f = some c := by
  unfold Data.spec
  rw [← Option.isSome_iff_exists, Dict.get?_isSome]

/-- **C197** (partial).  A dataset can be restricted to a spec if and only if it provides its features. Then it provides exactly
these features, with the same values.

Missing: the order of the features, see `C197_order_violated`. -/
theorem C197_conform_partial (d : Data V) (s : Spec) :
    ((∃ d', d.conformTo s = some d') ↔ ∀ f ∈ s, f ∈ d.spec) ∧
    ∀ d', d.conformTo s = some d' → (∀ f, f ∈ d'.spec ↔ f ∈ s) ∧ (∀ f ∈ s, Values d' f = Values d f) ∧
      d'.samples.rows = d.samples.rows := by
  obtain ⟨h1, -, -⟩ := C197_satisfies d.spec s
  constructor
  · rw [← h1]
    unfold Data.conformTo
    split <;> simp_all
  · intro d' h
    unfold Data.conformTo at h
    split at h
    · next hs =>
      simp only [Option.some.injEq] at h
      subst h
      have hs' := h1.mp hs
      have hg : ∀ f, f ∈ s → Dict.get? (d.fmap.filter fun e => Spec.provides s [e.1]) f = d.fmap.get? f := by
        intro f hf
        generalize d.fmap = m
        induction m with
        | nil => rfl
        | cons e m ih =>
          by_cases he : e.1 ∈ s
          · rw [List.filter_cons_of_pos (by simp [Spec.provides, he])]
            simp only [Dict.get?, ih]
          · rw [List.filter_cons_of_neg (by simp [Spec.provides, he]), ih]
            simp only [Dict.get?]
            rw [if_neg (by rintro rfl; exact he hf)]
      refine ⟨fun f => ⟨?_, fun hf => ?_⟩, fun f hf => ?_, rfl⟩
      · intro hf
        simp only [Data.spec, Dict.keys, List.mem_map, List.mem_filter] at hf
        obtain ⟨e, ⟨_, he⟩, rfl⟩ := hf
        simpa [Spec.provides] using he
      · rw [mem_spec]
        simp only [hg f hf]
        exact mem_spec.mp (hs' f hf)
      · simp only [Values, hg f hf]
    · simp at h

example : ∀ f ∈ ["cost"], f ∈ exData.spec := by decide

/-- The features are documented to have the order of the spec. They keep the order of the dataset, whatever the order of the spec
is. -/
theorem C197_order_violated (d d' : Data V) (s : Spec) (h : d.conformTo s = some d') (hs : ¬ s.Sublist d.spec) : d'.spec ≠ s := by
  intro e
  apply hs
  rw [← e]
  unfold Data.conformTo at h
  split at h
  · simp only [Option.some.injEq] at h
    subst h
    exact List.Sublist.map _ List.filter_sublist
  · simp at h

example : (exData.conformTo ["cost", "query"]).isSome ∧ ¬ ["cost", "query"].Sublist exData.spec := by decide

/-! ### Data frames -/

theorem newName_same {d : Data V} (h : ∀ f c, d.fmap.get? f = some c → c = f) (c : String) : newName d.fmap c = c := by
  unfold newName
  cases e : d.fmap.get? c with
  | none => rfl
  | some x => exact h _ _ e

theorem columnsOf_same {d : Data V} (h : ∀ f c, d.fmap.get? f = some c → c = f) (s : Spec) (hs : ∀ f ∈ s, f ∈ d.spec) :
    columnsOf d.fmap s = some s := by
  induction s with
  | nil => rfl
  | cons f fs ih =>
    obtain ⟨c, hc⟩ := mem_spec.mp (hs f List.mem_cons_self)
    have := h f c hc
    subst this
    simp [columnsOf, hc, ih fun g hg => hs g (List.mem_cons_of_mem _ hg)]

/-- **C198** (partial).  If the columns are called like the features, the data frame for a spec has one column for each feature
of the spec, in this order, and contains the values of the features.

Missing: features in columns of another name, see `C198_renamed_violated`. -/
theorem C198_df_partial (d : Data V) (h : Plain d) (s : Spec) (hs : ∀ f ∈ s, f ∈ d.spec) :
    ∃ df, d.asDf s = some df ∧ df.cols = s ∧ ∀ f ∈ s, (df.rows.map fun r => r f) = Values d f := by
  have h1 := (C197_satisfies d.spec s).1.mpr hs
  have hsel : d.samples.select s = some ⟨s, d.samples.rows⟩ := by
    unfold Df.select
    rw [if_pos]
    simp only [List.all_eq_true, decide_eq_true_eq]
    intro f hf
    obtain ⟨c, hc⟩ := mem_spec.mp (hs f hf)
    have := h.same f c hc
    subst this
    exact h.cols _ _ hc
  refine ⟨Df.rename ⟨s, d.samples.rows⟩ d.fmap, ?_, ?_, ?_⟩
  · simp [Data.asDf, h1, columnsOf_same h.same s hs, hsel]
  · have : newName d.fmap = id := funext (newName_same h.same)
    simp [Df.rename, this]
  · intro f hf
    obtain ⟨c, hc⟩ := mem_spec.mp (hs f hf)
    have := h.same f c hc
    subst this
    have hfind : s.find? (fun o => decide (o = c)) = some c := by
      obtain ⟨x, hx⟩ := Option.isSome_iff_exists.mp (List.find?_isSome.mpr ⟨c, hf, by simp⟩ : (s.find? (fun o => decide (o = c))).isSome)
      have := List.find?_some hx
      simp at this
      subst this
      exact hx
    simp only [Df.rename, newName_same h.same, List.map_map, Values, hc]
    apply List.map_congr_left
    intro r _
    simp [hfind]

example : Plain exPlain ∧ ∀ f ∈ ["cost", "query"], f ∈ exPlain.spec := ⟨exPlain_plain, by decide⟩

/-- **C198**.  All datasets that are created from a data frame satisfy the condition, and provide its columns as features. -/
theorem C198_from (df : Df V) (h : df.cols.Nodup) : Plain (fromDf df) ∧ (∀ c, c ∈ (fromDf df).spec ↔ c ∈ df.cols) ∧
    ∀ c ∈ df.cols, Values (fromDf df) c = df.rows.map fun r => r c := by
  have hwf : Dict.WF (df.cols.map fun c => (c, c)) := by
    show List.Nodup _
    simpa [Dict.keys, Function.comp_def] using h
  have hg : ∀ k, (fromDf df).fmap.get? k = if k ∈ df.cols then some k else none := by
    intro k
    simp only [fromDf, Dict.get?_ofList_wf hwf]
    generalize df.cols = cs
    induction cs with
    | nil => rfl
    | cons c cs ih =>
      simp only [List.map_cons, Dict.get?, ih, List.mem_cons]
      by_cases e : c = k
      · simp [e]
      · have e' : k ≠ c := fun e' => e e'.symm
        simp [e, e']
  refine ⟨⟨⟨Dict.WF_ofList _, ?_, h⟩, ?_⟩, ?_, ?_⟩
  · intro f c hc
    rw [hg] at hc
    split at hc
    · next hf => simp at hc; exact hc ▸ hf
    · simp at hc
  · intro f c hc
    rw [hg] at hc
    split at hc
    · simp at hc; exact hc.symm
    · simp at hc
  · intro c
    rw [mem_spec, hg]
    split <;> simp_all
  · intro c hc
    simp only [Values, hg, hc, if_true]
    rfl

/-- **C198**.  A single sample consists of the values of the features, in the order of the features. -/
theorem C198_item (d : Data V) (h : Proper d) (i : Nat) :
    d.getItem i = if i < d.samples.rows.length then some (d.spec.map fun f => ((Values d f)[i]?).join) else none := by
  unfold Data.getItem
  have hall : d.fmap.values.all (· ∈ d.samples.cols) = true := by
    simp only [List.all_eq_true, decide_eq_true_eq, Dict.values, List.mem_map]
    rintro c ⟨⟨f, c'⟩, hm, rfl⟩
    exact h.cols f c' (Dict.get?_of_mem h.wf hm)
  by_cases hi : i < d.samples.rows.length
  · rw [if_pos hi]
    rw [List.getElem?_eq_getElem hi, Option.bind_some, if_pos hall]
    simp only [Data.spec, Dict.values, Dict.keys, List.map_map, Option.some.injEq]
    apply List.map_congr_left
    rintro ⟨f, c⟩ hm
    simp [Values, Dict.get?_of_mem h.wf hm, hi]
  · rw [if_neg hi, List.getElem?_eq_none (Nat.le_of_not_lt hi)]
    rfl

/-- **C198** (partial).  If the columns are called like the features, the data frame without a spec is the one of the samples.

Missing: features in columns of another name. -/
theorem C198_all_partial (d : Data V) (h : Plain d) :
    d.asDfAll.cols = d.samples.cols ∧ ∀ c ∈ d.samples.cols, (d.asDfAll.rows.map fun r => r c) = d.samples.rows.map fun r => r c := by
  have hid : newName d.fmap = id := funext (newName_same h.same)
  refine ⟨by simp [Data.asDfAll, Df.rename, hid], ?_⟩
  intro c hc
  have hfind : d.samples.cols.find? (fun o => decide (o = c)) = some c := by
    obtain ⟨x, hx⟩ := Option.isSome_iff_exists.mp
      (List.find?_isSome.mpr ⟨c, hc, by simp⟩ : (d.samples.cols.find? (fun o => decide (o = c))).isSome)
    have := List.find?_some hx
    simp at this
    subst this
    exact hx
  simp [Data.asDfAll, Df.rename, hid, Function.comp_def, hfind]

/-- Features are documented to be renamed. If a feature is stored in a column with another name, the data frame has no column with the name of
the feature. -/
theorem C198_renamed_violated (d : Data V) (h : Proper d) (f c : String) (hc : d.fmap.get? f = some c) (hne : c ≠ f)
    (hno : d.fmap.get? c ≠ some f) : ∃ df, d.asDf [f] = some df ∧ f ∉ df.cols := by
  have h1 := (C197_satisfies d.spec [f]).1.mpr (by simp; exact mem_spec.mpr ⟨c, hc⟩)
  refine ⟨Df.rename ⟨[c], d.samples.rows⟩ d.fmap, ?_, ?_⟩
  · simp [Data.asDf, h1, columnsOf, hc, Df.select, h.cols f c hc]
  · simp only [Df.rename, List.map_cons, List.map_nil, List.mem_singleton, newName]
    cases e : d.fmap.get? c with
    | none => simpa using fun e => hne e.symm
    | some x =>
      simp only [Option.getD_some]
      rintro rfl
      exact hno e

example : Proper exData ∧ exData.fmap.get? "query" = some "sql" ∧ exData.fmap.get? "sql" ≠ some "query" :=
  ⟨exData_proper, by decide, by decide⟩

/-! ### Merging -/

/-- **C199** (partial).  If the columns are called like the features and the other dataset provides all features, the
datasets can be merged: the result has the features of the first one, with the values of both.

Missing: features in columns of another name, see `C199_renamed_violated`. -/
theorem C199_with_partial (d o : Data V) (hd : Plain d) (ho : Plain o) (hs : ∀ f ∈ d.spec, f ∈ o.spec) :
    ∃ m, d.mergeWith o = some m ∧ Plain m ∧ m.spec = d.spec ∧ ∀ f ∈ d.spec, Values m f = Values d f ++ Values o f := by
  obtain ⟨df, h1, h2, h3⟩ := C198_df_partial o ho d.spec hs
  have hsat : (missing o.spec d.spec).isEmpty = true := (C197_satisfies o.spec d.spec).1.mpr hs
  have hn : d.spec.Nodup := hd.wf
  refine ⟨⟨⟨d.samples.cols ++ df.cols.filter (· ∉ d.samples.cols),
    d.samples.rows.map (mask d.samples.cols) ++ df.rows.map (mask df.cols)⟩, d.fmap⟩, ?_, ?_, rfl, ?_⟩
  · simp only [Data.mergeWith, hsat, if_true, h1, Option.bind_some, concat]
    rw [if_pos ⟨hd.nodup, by rw [h2]; exact hn⟩]
    rfl
  · refine ⟨⟨hd.wf, fun f c hc => List.mem_append_left _ (hd.cols f c hc), ?_⟩, hd.same⟩
    rw [List.nodup_append]
    refine ⟨hd.nodup, (h2 ▸ hn : df.cols.Nodup).filter _, ?_⟩
    intro a ha b hb e
    subst e
    simp at hb
    exact hb.2 ha
  · intro f hf
    obtain ⟨c, hc⟩ := mem_spec.mp hf
    have hcf := hd.same f c hc
    subst hcf
    have e1 : mask (V := V) d.samples.cols = fun r x => if x ∈ d.samples.cols then r x else none := rfl
    simp only [Values, hc, List.map_append, List.map_map]
    have hv : Values o c = df.rows.map fun r => r c := (h3 c hf).symm
    have hov : (match o.fmap.get? c with
      | some c => o.samples.rows.map fun r => r c
      | none => []) = df.rows.map fun r => r c := hv
    rw [hov]
    congr 1
    · apply List.map_congr_left
      intro r _
      simp [mask, hd.cols c c hc]
    · apply List.map_congr_left
      intro r _
      simp [mask, h2, hf]

theorem mergeAll_spec (os : List (Data V)) (d : Data V) (hd : Plain d) (ho : ∀ o ∈ os, Plain o ∧ ∀ f ∈ d.spec, f ∈ o.spec) :
    ∃ m, mergeAll d os = some m ∧ m.spec = d.spec ∧
      ∀ f ∈ d.spec, Values m f = Values d f ++ os.flatMap fun o => Values o f := by
  induction os generalizing d with
  | nil => exact ⟨d, rfl, rfl, by simp⟩
  | cons o os ih =>
    obtain ⟨m, h1, h2, h3, h4⟩ := C199_with_partial d o hd (ho o List.mem_cons_self).1 (ho o List.mem_cons_self).2
    obtain ⟨m', g1, g2, g3⟩ := ih m h2 (fun x hx => by rw [h3]; exact ho x (List.mem_cons_of_mem _ hx))
    refine ⟨m', by simp [mergeAll, h1, g1], by rw [g2, h3], ?_⟩
    intro f hf
    rw [g3 f (by rw [h3]; exact hf), h4 f hf]
    simp

/-- **C199** (partial).  If the columns are called like the features, the first dataset satisfies the spec and the other ones
provide all features of the first one, the merged dataset provides exactly the features of the spec, with the values of all
datasets.

Missing: other datasets that satisfy the spec, see `C199_extra_violated`. -/
theorem C199_merge_partial (d : Data V) (os : List (Data V)) (s : Spec) (hd : Plain d)
    (ho : ∀ o ∈ os, Plain o ∧ ∀ f ∈ d.spec, f ∈ o.spec) (hs : ∀ f ∈ s, f ∈ d.spec) :
    ∃ m, merge (d :: os) s = some m ∧ (∀ f, f ∈ m.spec ↔ f ∈ s) ∧
      ∀ f ∈ s, Values m f = (d :: os).flatMap fun o => Values o f := by
  obtain ⟨m, h1, h2, h3⟩ := mergeAll_spec os d hd ho
  obtain ⟨c1, c2⟩ := C197_conform_partial m s
  obtain ⟨m', hm⟩ := c1.mpr (by rw [h2]; exact hs)
  obtain ⟨k1, k2, k3⟩ := c2 m' hm
  refine ⟨m', by simp [merge, h1, hm], k1, ?_⟩
  intro f hf
  rw [k2 f hf, h3 f (hs f hf)]
  simp

example : Plain exPlain ∧ (∀ o ∈ [exPlain, exPlain], Plain o ∧ ∀ f ∈ exPlain.spec, f ∈ o.spec) ∧ ∀ f ∈ ["cost"], f ∈ exPlain.spec := by
  refine ⟨exPlain_plain, ?_, by decide⟩
  intro o ho
  simp at ho
  subst ho
  exact ⟨exPlain_plain, fun _ h => h⟩

/-- Datasets that all satisfy the spec cannot be merged if the first one provides a feature that the next one does not. -/
theorem C199_extra_violated (d o : Data V) (os : List (Data V)) (s : Spec) (f : String) (hf : f ∈ d.spec) (hn : f ∉ o.spec) :
    merge (d :: o :: os) s = none := by
  have : (missing o.spec d.spec).isEmpty = false := by
    simp only [List.isEmpty_eq_false_iff]
    intro e
    have : f ∈ missing o.spec d.spec := by simp [missing, hf, hn]
    rw [e] at this
    exact absurd this List.not_mem_nil
  simp [merge, mergeAll, Data.mergeWith, this]

example : "cost" ∈ exPlain.spec ∧ "cost" ∉ (⟨⟨["query"], []⟩, [("query", "query")]⟩ : Data Nat).spec := by decide

/-- If a feature is stored in columns of different names, all values of the second dataset are missing in the merged
dataset. -/
theorem C199_renamed_violated (f c c' : String) (hc : c ≠ c') (rows rows' : List (String → Option V)) :
    ∃ m, Data.mergeWith ⟨⟨[c], rows⟩, [(f, c)]⟩ ⟨⟨[c'], rows'⟩, [(f, c')]⟩ = some m ∧
      Values m f = rows.map (fun r => r c) ++ rows'.map fun _ => none := by
  have hnew : newName [(f, c')] c' = c' := by
    by_cases e : f = c' <;> simp [newName, Dict.get?, e]
  refine ⟨_, by
    simp [Data.mergeWith, missing, Data.spec, Dict.keys, Data.asDf, satisfies, columnsOf, Dict.get?, Df.select, Df.rename, concat,
      hnew]
    rfl, ?_⟩
  simp [Values, Dict.get?, mask, hc, Function.comp_def]

/-! ### Repository -/

/-- **C200**.  The first dataset that satisfies the spec is retrieved, restricted to the spec; nothing is retrieved if and only if
no dataset satisfies it. Never is there an error. -/
theorem C200_first (r : Repo V) (s : Spec) :
    (r.retrieveFirst s = some none ↔ ∀ d ∈ r, ∃ f ∈ s, f ∉ d.spec) ∧
    (∀ d', r.retrieveFirst s = some (some d') ↔ ∃ before d after, r = before ++ d :: after ∧ (∀ b ∈ before, ∃ f ∈ s, f ∉ b.spec) ∧
      (∀ f ∈ s, f ∈ d.spec) ∧ d.conformTo s = some d') ∧ r.retrieveFirst s ≠ none := by
  have hsat : ∀ d : Data V, satisfies d.spec s = true ↔ ∀ f ∈ s, f ∈ d.spec := fun d => (C197_satisfies d.spec s).1
  have hns : ∀ d : Data V, (∃ f ∈ s, f ∉ d.spec) ↔ satisfies d.spec s = false := by
    intro d
    rw [← Bool.not_eq_true, hsat]
    push Not
    rfl
  unfold Repo.retrieveFirst
  cases e : r.find? fun d => satisfies d.spec s with
  | none =>
    have hall := List.find?_eq_none.mp e
    refine ⟨?_, ?_, by simp⟩
    · simp only [true_iff]
      intro d hd
      exact (hns d).mpr (by simpa using hall d hd)
    · intro d'
      simp only [Option.some.injEq, reduceCtorEq, false_iff, not_exists]
      rintro before d after ⟨rfl, _, h, _⟩
      exact hall d (by simp) ((hsat d).mpr h)
  | some d =>
    obtain ⟨hd, before, after, hr, hb⟩ := List.find?_eq_some_iff_append.mp e
    obtain ⟨d', hc⟩ := (C197_conform_partial d s).1.mpr ((hsat d).mp hd)
    refine ⟨?_, ?_, by simp [hc]⟩
    · simp only [hc, Option.map_some, Option.some.injEq, reduceCtorEq, false_iff, not_forall]
      refine ⟨d, by rw [hr]; simp, ?_⟩
      rw [hns, Bool.not_eq_false]
      exact hd
    · intro x
      simp only [hc, Option.map_some, Option.some.injEq]
      constructor
      · rintro rfl
        exact ⟨before, d, after, hr, fun b hbb => (hns b).mpr (by simpa using hb b hbb), (hsat d).mp hd, hc⟩
      · rintro ⟨b2, d2, a2, hr2, hb2, hs2, hc2⟩
        have : r.find? (fun d => satisfies d.spec s) = some d2 := by
          rw [List.find?_eq_some_iff_append]
          exact ⟨(hsat d2).mpr hs2, b2, a2, hr2, fun b hbb => by simpa using (hns b).mp (hb2 b hbb)⟩
        rw [e] at this
        cases this
        rw [hc] at hc2
        exact Option.some.inj hc2

/-- **C200**.  All datasets that satisfy the spec are retrieved, in the order of their registration. -/
theorem C200_all (r : Repo V) (s : Spec) (d : Data V) :
    (∀ x, x ∈ r.retrieveAll s ↔ x ∈ r ∧ ∀ f ∈ s, f ∈ x.spec) ∧
    (r.register d).retrieveAll s = r.retrieveAll s ++ (if ∀ f ∈ s, f ∈ d.spec then [d] else []) := by
  refine ⟨fun x => by simp [Repo.retrieveAll, (C197_satisfies x.spec s).1], ?_⟩
  simp only [Repo.retrieveAll, Repo.register, List.filter_append, List.append_cancel_left_eq]
  have := (C197_satisfies d.spec s).1
  by_cases h : ∀ f ∈ s, f ∈ d.spec
  · simp [List.filter_cons, this.mpr h]
    exact h
  · have h' : satisfies d.spec s = false := by
      rw [← Bool.not_eq_true]
      exact fun e => h (this.mp e)
    simp [List.filter_cons, h']
    simpa using h

/-- **C200** (partial).  If the columns are called like the features, at least two datasets satisfy the spec and the first one
provides no more features than the others, the retrieved dataset provides exactly the features of the spec, with the values of all
datasets that satisfy it. Nothing is retrieved if no dataset satisfies the spec.

Missing: a single dataset that satisfies the spec, see `C200_single_violated`; datasets with more features, see
`C200_extra_violated`. -/
theorem C200_merged_partial (r : Repo V) (s : Spec) :
    (r.retrieveAll s = [] → r.retrieveMerged s = some none) ∧
    ∀ d o os, r.retrieveAll s = d :: o :: os → (∀ x ∈ r, Plain x) → (∀ x ∈ o :: os, ∀ f ∈ d.spec, f ∈ x.spec) →
      ∃ m, r.retrieveMerged s = some (some m) ∧ (∀ f, f ∈ m.spec ↔ f ∈ s) ∧
        ∀ f ∈ s, Values m f = (r.retrieveAll s).flatMap fun x => Values x f := by
  refine ⟨fun h => by simp [Repo.retrieveMerged, h], ?_⟩
  intro d o os h hp hs
  have hmem := (C200_all r s d).1
  have hd : d ∈ r.retrieveAll s := by rw [h]; simp
  obtain ⟨m, h1, h2, h3⟩ := C199_merge_partial d (o :: os) s (hp d ((hmem d).mp hd).1)
    (fun x hx => ⟨hp x ((hmem x).mp (by rw [h]; exact List.mem_cons_of_mem _ hx)).1, hs x hx⟩) ((hmem d).mp hd).2
  exact ⟨m, by simp [Repo.retrieveMerged, h, h1], h2, by rw [h]; exact h3⟩

example : Repo.retrieveAll [exPlain, exPlain] ["cost"] = [exPlain, exPlain] := by
  simp [Repo.retrieveAll, show satisfies exPlain.spec ["cost"] = true from by decide]

/-- If a single dataset satisfies the spec, the retrieved dataset has its additional features, too. -/
theorem C200_single_violated (d : Data V) (s : Spec) (f : String) (hs : ∀ f ∈ s, f ∈ d.spec) (hf : f ∈ d.spec) (hn : f ∉ s) :
    ∃ m, Repo.retrieveMerged [d] s = some (some m) ∧ f ∈ m.spec ∧ f ∉ s := by
  have h := (C197_satisfies d.spec s).1.mpr hs
  exact ⟨d, by simp [Repo.retrieveMerged, Repo.retrieveAll, h], hf, hn⟩

/-- If the first one of the datasets that satisfy the spec provides a feature that the next one does not, there is an error. -/
theorem C200_extra_violated (r : Repo V) (s : Spec) (d o : Data V) (os : List (Data V)) (h : r.retrieveAll s = d :: o :: os)
    (f : String) (hf : f ∈ d.spec) (hn : f ∉ o.spec) : r.retrieveMerged s = none := by
  simp [Repo.retrieveMerged, h, C199_extra_violated d o os s f hf hn]

end PB.TrainDataProps
