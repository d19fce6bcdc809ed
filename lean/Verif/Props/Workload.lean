import Verif.Model.Workload
import Mathlib.Data.List.Perm.Subperm
import Mathlib.Data.List.Zip

/-! Properties of workloads: C48–C51, C92–C94. -/

set_option linter.unusedSimpArgs false
set_option linter.unusedVariables false
set_option linter.unusedSectionVars false
set_option linter.unnecessarySimpa false

namespace PB.WorkloadProps
open PB PB.Dicts PB.Workload

variable {L M Q F : Type} [DecidableEq L] [DecidableEq M] [DecidableEq Q]

/-! ### Specification -/

/-- What a user of a workload observes: looking up labels, `labels()`, `entries()`, `queries()` and `label_of` all describe
the same mapping `f` from labels to queries. -/
structure Shows (w : Workload L Q) (f : L → Option Q) : Prop where
  wf : w.data.WF
  lookup : ∀ l, Dict.get? w.data l = f l
  labels : ∀ l, l ∈ w.labels ↔ f l ≠ none
  nodup : w.labels.Nodup
  entries : ∀ l q, (l, q) ∈ entries w ↔ f l = some q
  length : w.queries.length = w.labels.length
  labelOf : ∀ q l, labelOf w q = some l → f l = some q
  noLabel : ∀ q, PB.Workload.labelOf w q = none ↔ ∀ l, f l ≠ some q

/-- `le` is a natural order of the labels. -/
structure Order (le : L → L → Bool) : Prop where
  trans : ∀ a b c, le a b = true → le b c = true → le a c = true
  total : ∀ a b, (le a b || le b a) = true

/-- The labels (and queries) are in their natural order. -/
def Natural (le : L → L → Bool) (w : Workload L Q) : Prop := w.labels.Pairwise fun a b => le a b = true

/-- `random.sample` draws `k` different positions. -/
def Samples (sample : List L → Nat → List L) : Prop :=
  ∀ ls k, k ≤ ls.length → (sample ls k).Subperm ls ∧ (sample ls k).length = k

/-! ### Lemmas -/

theorem get?_invert (d : Dict L Q) (q : Q) (l : L) (h : Dict.get? (invert d) q = some l) : (l, q) ∈ d := by
  have := Dict.get?_update_list [] (d.map fun e => (e.2, e.1)) q
  change Dict.get? (invert d) q = _ at this
  rw [h] at this
  simp only [Dict.get?, Option.or_none] at this
  have hm := Dict.mem_of_get? this.symm
  rw [List.mem_reverse, List.mem_map] at hm
  obtain ⟨⟨a, b⟩, he, heq⟩ := hm
  cases heq; exact he

theorem get?_invert_none (d : Dict L Q) (q : Q) : Dict.get? (invert d) q = none ↔ ∀ l, (l, q) ∉ d := by
  have := Dict.get?_update_list [] (d.map fun e => (e.2, e.1)) q
  change Dict.get? (invert d) q = _ at this
  rw [this]
  simp only [Dict.get?, Option.or_none, Dict.get?_eq_none, Dict.keys, List.map_reverse, List.mem_reverse, List.map_map,
    List.mem_map, Function.comp, not_exists, not_and, Prod.forall]
  exact ⟨fun h l hl => h l q hl rfl, fun h l b hl hb => h l (hb ▸ hl)⟩

theorem queryOrder_some (d : Dict L Q) (ls : List L) (h : ∀ l ∈ ls, l ∈ Dict.keys d) :
    ∃ qs, queryOrder d ls = some qs ∧ List.Forall₂ (fun l q => Dict.get? d l = some q) ls qs := by
  induction ls with
  | nil => exact ⟨[], rfl, .nil⟩
  | cons l ls ih =>
    obtain ⟨qs, h1, h2⟩ := ih fun l hl => h l (by simp [hl])
    have hl := h l (by simp)
    rw [← Dict.get?_isSome, Option.isSome_iff_exists] at hl
    obtain ⟨q, hq⟩ := hl
    refine ⟨q :: qs, ?_, .cons hq h2⟩
    rw [queryOrder] at h1 ⊢
    rw [List.mapM_cons, hq, h1]; rfl

theorem zip_of_forall₂ (d : Dict L Q) {ls : List L} {qs : List Q}
    (h : List.Forall₂ (fun l q => Dict.get? d l = some q) ls qs) (l : L) (q : Q) :
    (l, q) ∈ ls.zip qs ↔ l ∈ ls ∧ Dict.get? d l = some q := by
  induction h with
  | nil => simp
  | @cons a b as bs hab _ ih =>
    simp only [List.zip_cons_cons, List.mem_cons, Prod.mk.injEq, ih]
    constructor
    · rintro (⟨rfl, rfl⟩ | ⟨h1, h2⟩)
      · exact ⟨.inl rfl, hab⟩
      · exact ⟨.inr h1, h2⟩
    · rintro ⟨rfl | h1, h2⟩
      · rw [hab] at h2; exact .inl ⟨rfl, (Option.some.inj h2).symm⟩
      · exact .inr ⟨h1, h2⟩

/-- Any workload made of a dictionary, a permutation of its labels and the matching queries. -/
theorem shows_of (d : Dict L Q) (hd : d.WF) (ls : List L) (hp : ls.Perm (Dict.keys d)) (qs : List Q)
    (hq : List.Forall₂ (fun l q => Dict.get? d l = some q) ls qs) (f : L → Option Q) (hf : ∀ l, Dict.get? d l = f l) :
    Shows ⟨d, ls, qs, invert d⟩ f := by
  have hmem : ∀ l q, (l, q) ∈ d ↔ f l = some q := by intro l q; rw [← hf, Dict.get?_iff_mem hd]
  refine ⟨hd, hf, ?_, hp.nodup_iff.2 hd, ?_, hq.length_eq.symm, ?_, ?_⟩
  · intro l
    show l ∈ ls ↔ _
    rw [hp.mem_iff, ← hf, Ne, Dict.get?_eq_none, not_not]
  · intro l q
    show (l, q) ∈ ls.zip qs ↔ _
    rw [zip_of_forall₂ d hq, ← hf]
    refine ⟨And.right, fun h => ⟨?_, h⟩⟩
    rw [hp.mem_iff, ← Dict.get?_isSome, h]; rfl
  · intro q l h; rw [← hmem]; exact get?_invert d q l h
  · intro q
    show Dict.get? (invert d) q = none ↔ _
    rw [get?_invert_none]
    exact forall_congr' fun l => not_congr (hmem l q)

theorem build_ok (le : L → L → Bool) (d : Dict L Q) (hd : d.WF) (f : L → Option Q) (hf : ∀ l, Dict.get? d l = f l) :
    ∃ w, build le d = some w ∧ Shows w f ∧ w.data = d ∧ w.labels = natsorted le (Dict.keys d) ∧ (Order le → Natural le w) := by
  have hp : (natsorted le (Dict.keys d)).Perm (Dict.keys d) := List.mergeSort_perm _ _
  obtain ⟨qs, h1, h2⟩ := queryOrder_some d (natsorted le (Dict.keys d)) fun l hl => hp.mem_iff.1 hl
  refine ⟨⟨d, natsorted le (Dict.keys d), qs, invert d⟩, by rw [build, h1]; rfl, shows_of d hd _ hp qs h2 f hf, rfl, rfl, ?_⟩
  intro ho
  exact List.pairwise_mergeSort ho.trans ho.total _

/-! ### C48: the mapping of a workload -/

/-- The result of an operation is a workload in natural order that shows the mapping `f`. -/
def Yields (le : L → L → Bool) (r : Option (Workload L Q)) (f : L → Option Q) : Prop :=
  ∃ w, r = some w ∧ Shows w f ∧ (Order le → Natural le w)

theorem build_yields (le : L → L → Bool) (d : Dict L Q) (hd : d.WF) (f : L → Option Q)
    (hf : ∀ l, Dict.get? d l = f l) : Yields le (build le d) f := by
  obtain ⟨w, h1, h2, _, _, h3⟩ := build_ok le d hd f hf
  exact ⟨w, h1, h2, h3⟩

/-- **C48.** A workload created from a dictionary shows exactly the contents of the dictionary. -/
theorem C48_create (le : L → L → Bool) (d : Dict L Q) (hd : d.WF) : Yields le (build le d) (Dict.get? d) :=
  build_yields le d hd _ fun _ => rfl

/-- **C48.** `w + v` and `w | v`: the union; `w` wins for common labels. -/
theorem C48_union (le : L → L → Bool) {w v : Workload L Q} {f g : L → Option Q} (hw : Shows w f) (hv : Shows v g) :
    Yields le (union le w v) fun l => (f l).or (g l) := by
  refine build_yields le _ (Dict.WF_update hv.wf _) _ fun l => ?_
  rw [Dict.get?_update _ hw.wf, hw.lookup, hv.lookup]

theorem filter_yields (le : L → L → Bool) {w : Workload L Q} {f : L → Option Q} (hw : Shows w f) (p : L → Q → Bool) :
    Yields le (build le (Dict.ofList (w.data.filter fun e => p e.1 e.2))) fun l => (f l).filter (p l) := by
  refine build_yields le _ (Dict.WF_ofList _) _ fun l => ?_
  have hwf := Dict.WF_filter hw.wf fun e => p e.1 e.2
  rw [Dict.get?_ofList_wf hwf]
  ext q
  rw [Dict.get?_iff_mem hwf, List.mem_filter, ← Dict.get?_iff_mem hw.wf, hw.lookup, Option.filter_eq_some_iff]

/-- **C48.** `filter_by` keeps exactly the matching queries with their labels. -/
theorem C48_filter_by (le : L → L → Bool) {w : Workload L Q} {f : L → Option Q} (hw : Shows w f) (p : L → Q → Bool) :
    Yields le (filterBy le w p) fun l => (f l).filter (p l) := filter_yields le hw p

theorem filter_const (o : Option Q) (p : Prop) [Decidable p] :
    (o.filter fun _ => decide p) = if p then o else none := by
  cases o <;> by_cases h : p <;> simp [h]

/-- **C48.** `with_labels` keeps exactly the queries with the given labels. -/
theorem C48_with_labels (le : L → L → Bool) {w : Workload L Q} {f : L → Option Q} (hw : Shows w f) (ls : List L) :
    Yields le (withLabels le w ls) fun l => if l ∈ ls then f l else none := by
  have := filter_yields le hw fun l _ => decide (l ∈ ls)
  simp only [filter_const] at this
  exact this

/-- **C48.** `with_prefix` keeps exactly the queries whose labels have the prefix. -/
theorem C48_with_prefix (le : L → L → Bool) (startsWith : L → L → Bool) {w : Workload L Q} {f : L → Option Q}
    (hw : Shows w f) (pre : L) :
    Yields le (withPrefix le startsWith w pre) fun l => if startsWith l pre = true then f l else none := by
  have := filter_yields le hw fun l _ => decide (startsWith l pre = true)
  simp only [filter_const] at this
  simpa [withPrefix] using this

/-- **C48.** `w - labels` removes exactly the queries with these labels. -/
theorem C48_difference_labels (le : L → L → Bool) {w : Workload L Q} {f : L → Option Q} (hw : Shows w f) (ls : List L) :
    Yields le (subLabels le w ls) fun l => if l ∈ ls then none else f l := by
  have := filter_yields le hw fun l _ => decide (l ∉ ls)
  simp only [filter_const, ite_not] at this
  exact this

/-- **C48.** `w & labels` keeps exactly the queries with these labels. -/
theorem C48_intersection_labels (le : L → L → Bool) {w : Workload L Q} {f : L → Option Q} (hw : Shows w f) (ls : List L) :
    Yields le (andLabels le w ls) fun l => if l ∈ ls then f l else none := C48_with_labels le hw ls

/-- **C48.** `w - v` keeps the queries of `w` whose label is not used in `v`. -/
theorem C48_difference (le : L → L → Bool) {w v : Workload L Q} {f g : L → Option Q} (hw : Shows w f) (hv : Shows v g) :
    Yields le (sub le w v) fun l => if g l = none then f l else none := by
  have := filter_yields le hw fun l _ => decide (g l = none)
  simp only [filter_const] at this
  have he : (fun e : L × Q => decide (g e.1 = none)) = fun e => !v.data.has e.1 := by
    funext e; rw [Dict.has, hv.lookup]; cases g e.1 <;> simp
  rw [he] at this
  exact this

/-- **C48.** `w & v` keeps the queries of `w` whose label is used in `v`. -/
theorem C48_intersection (le : L → L → Bool) {w v : Workload L Q} {f g : L → Option Q} (hw : Shows w f) (hv : Shows v g) :
    Yields le (inter le w v) fun l => if g l = none then none else f l := by
  have := filter_yields le hw fun l _ => decide (¬ g l = none)
  simp only [filter_const, ite_not] at this
  have he : (fun e : L × Q => decide (¬ g e.1 = none)) = fun e => v.data.has e.1 := by
    funext e; rw [Dict.has, hv.lookup]; cases g e.1 <;> simp
  rw [he] at this
  exact this

/-- **C48.** `map` changes the queries and keeps the labels. -/
theorem C48_map (le : L → L → Bool) {w : Workload L Q} {f : L → Option Q} (hw : Shows w f) (t : Q → Q) :
    Yields le (mapQueries le w t) fun l => (f l).map t := by
  refine build_yields le _ (Dict.WF_ofList _) _ fun l => ?_
  have hwf : Dict.WF (w.data.map fun e => (e.1, t e.2)) := by
    have := hw.wf
    unfold Dict.WF Dict.keys at *
    simpa [List.map_map, Function.comp_def] using this
  rw [Dict.get?_ofList_wf hwf, Dict.get?_map_val w.data (fun _ q => t q), hw.lookup]

/-- **C48.** `transform` with different labels for different entries: exactly the transformed entries. -/
theorem C48_transform (le : M → M → Bool) {w : Workload L Q} {f : L → Option Q} (hw : Shows w f) (t : L → Q → M × Q)
    (hinj : ∀ l q l' q', f l = some q → f l' = some q' → (t l q).1 = (t l' q').1 → l = l') :
    ∃ g, Yields le (transform le w t) g ∧ ∀ m q', g m = some q' ↔ ∃ l q, f l = some q ∧ t l q = (m, q') := by
  have hwf : Dict.WF (w.data.map fun e => t e.1 e.2) := by
    have := hw.wf
    unfold Dict.WF Dict.keys at *
    rw [List.map_map]
    refine List.Nodup.map_on ?_ (List.Nodup.of_map _ this)
    rintro ⟨a, b⟩ ha ⟨c, d⟩ hc h
    rw [← Dict.get?_iff_mem hw.wf, hw.lookup] at ha hc
    have := hinj a b c d ha hc h
    subst this
    rw [ha] at hc; rw [Option.some.inj hc]
  refine ⟨Dict.get? (Dict.ofList (w.data.map fun e => t e.1 e.2)), build_yields le _ (Dict.WF_ofList _) _ fun _ => rfl, ?_⟩
  intro m q'
  rw [Dict.get?_ofList_wf hwf, Dict.get?_iff_mem hwf, List.mem_map]
  constructor
  · rintro ⟨⟨a, b⟩, h, he⟩
    rw [← Dict.get?_iff_mem hw.wf, hw.lookup] at h
    exact ⟨a, b, h, he⟩
  · rintro ⟨a, b, h, he⟩
    rw [← hw.lookup, Dict.get?_iff_mem hw.wf] at h
    exact ⟨(a, b), h, he⟩

/-- **C48.** `relabel` with unique new labels: exactly the old queries under their new labels. -/
theorem C48_relabel (le : M → M → Bool) {w : Workload L Q} {f : L → Option Q} (hw : Shows w f) (t : L → Q → M)
    (hinj : ∀ l q l' q', f l = some q → f l' = some q' → t l q = t l' q' → l = l') :
    ∃ g, Yields le (relabel le w t) g ∧ ∀ m q, g m = some q ↔ ∃ l, f l = some q ∧ t l q = m := by
  obtain ⟨g, h1, h2⟩ := C48_transform le hw (fun l q => (t l q, q)) hinj
  refine ⟨g, h1, fun m q => ?_⟩
  rw [h2]
  constructor
  · rintro ⟨l, q', h, he⟩; cases he; exact ⟨l, h, rfl⟩
  · rintro ⟨l, h, rfl⟩; exact ⟨l, q, h, rfl⟩

theorem subDict_ok (d : Dict L Q) (hd : d.WF) (ls : List L) (h : ∀ l ∈ ls, l ∈ Dict.keys d) :
    ∃ s, subDict d ls = some s ∧ s.WF ∧ ∀ l, Dict.get? s l = if l ∈ ls then Dict.get? d l else none := by
  have : ∃ es : List (L × Q), (ls.mapM fun l => (Dict.get? d l).map fun q => (l, q)) = some es ∧
      ∀ l q, (l, q) ∈ es ↔ l ∈ ls ∧ Dict.get? d l = some q := by
    induction ls with
    | nil => exact ⟨[], rfl, by simp⟩
    | cons a ls ih =>
      obtain ⟨es, h1, h2⟩ := ih fun l hl => h l (by simp [hl])
      have ha := h a (by simp)
      rw [← Dict.get?_isSome, Option.isSome_iff_exists] at ha
      obtain ⟨q, hq⟩ := ha
      refine ⟨(a, q) :: es, ?_, ?_⟩
      · rw [List.mapM_cons, h1, hq]; rfl
      · intro l q'
        rw [List.mem_cons, h2, Prod.mk.injEq, List.mem_cons]
        constructor
        · rintro (⟨rfl, rfl⟩ | ⟨h1, h2⟩)
          · exact ⟨.inl rfl, hq⟩
          · exact ⟨.inr h1, h2⟩
        · rintro ⟨rfl | h1, h2⟩
          · rw [hq] at h2; exact .inl ⟨rfl, (Option.some.inj h2).symm⟩
          · exact .inr ⟨h1, h2⟩
  obtain ⟨es, h1, h2⟩ := this
  refine ⟨Dict.ofList es, by rw [subDict, h1]; rfl, Dict.WF_ofList _, fun l => ?_⟩
  have hlook := Dict.get?_update_list [] es l
  change Dict.get? (Dict.ofList es) l = _ at hlook
  simp only [Dict.get?, Option.or_none] at hlook
  rw [hlook]
  cases hg : Dict.get? es.reverse l with
  | none =>
    rw [Dict.get?_eq_none] at hg
    split
    · rename_i hl
      have ha := h l hl
      rw [← Dict.get?_isSome, Option.isSome_iff_exists] at ha
      obtain ⟨q, hq⟩ := ha
      exact absurd (List.mem_map.2 ⟨(l, q), List.mem_reverse.2 ((h2 l q).2 ⟨hl, hq⟩), rfl⟩) hg
    · rfl
  | some q =>
    have := Dict.mem_of_get? hg
    rw [List.mem_reverse, h2] at this
    rw [if_pos this.1, this.2]

theorem sub_yields (le : L → L → Bool) {w : Workload L Q} {f : L → Option Q} (hw : Shows w f) (ls : List L)
    (h : ∀ l ∈ ls, l ∈ w.labels) :
    Yields le ((subDict w.data ls).bind (build le)) fun l => if l ∈ ls then f l else none := by
  obtain ⟨s, h1, h2, h3⟩ := subDict_ok w.data hw.wf ls fun l hl => by
    have := (hw.labels l).1 (h l hl)
    rw [← hw.lookup, Ne, Dict.get?_eq_none, not_not] at this
    exact this
  rw [h1]
  exact build_yields le s h2 _ fun l => by rw [h3, hw.lookup]

/-- **C48.** `pick_random(n)` draws `min n (number of queries)` labels and keeps exactly their queries. -/
theorem C48_pick_random (le : L → L → Bool) (sample : List L → Nat → List L) (hs : Samples sample) {w : Workload L Q}
    {f : L → Option Q} (hw : Shows w f) (n : Nat) :
    ∃ ls : List L, ls.Nodup ∧ ls ⊆ w.labels ∧ ls.length = min n w.labels.length ∧
      Yields le (pickRandom le sample w n) fun l => if l ∈ ls then f l else none := by
  obtain ⟨h1, h2⟩ := hs w.labels (min n w.queries.length) (by rw [hw.length]; omega)
  refine ⟨_, ?_, h1.subset, by rw [h2, hw.length], sub_yields le hw _ fun l hl => h1.subset hl⟩
  obtain ⟨l', hp, hsub⟩ := h1
  exact hp.nodup_iff.1 (hw.nodup.sublist hsub)

/-- **C48.** `head` is the first entry. -/
theorem C48_head {w : Workload L Q} {f : L → Option Q} (hw : Shows w f) : head w = some (entries w).head? := by
  have := hw.length
  rw [head, entries]
  rcases h1 : w.labels with _ | ⟨a, as⟩ <;> rcases h2 : w.queries with _ | ⟨b, bs⟩ <;> simp [h1, h2] at this ⊢

/-! ### C49: first and last -/

/-- **C49.** `first(n)` consists of the first `n` labels of the workload. -/
theorem C49_first (le : L → L → Bool) {w : Workload L Q} {f : L → Option Q} (hw : Shows w f) (n : Nat) :
    Yields le (first le w n) fun l => if l ∈ w.labels.take n then f l else none := by
  have h : sliceTo w.labels (n : Int) = w.labels.take n := by
    rw [sliceTo, if_neg (by omega)]; rfl
  rw [first, h]
  exact sub_yields le hw _ fun l hl => List.mem_of_mem_take hl

/-- **C49** (partial: `n > 0`). `last(n)` consists of the last `n` labels of the workload. -/
theorem C49_last_partial (le : L → L → Bool) {w : Workload L Q} {f : L → Option Q} (hw : Shows w f) (n : Nat) (hn : 0 < n) :
    Yields le (last le w n) fun l => if l ∈ w.labels.drop (w.labels.length - n) then f l else none := by
  have h : sliceFrom w.labels (-(n : Int)) = w.labels.drop (w.labels.length - n) := by
    rw [sliceFrom, if_pos (by omega), Int.natAbs_neg, Int.natAbs_natCast]
  rw [last, h]
  exact sub_yields le hw _ fun l hl => List.mem_of_mem_drop hl

/-- **C49 is violated** for `last(0)`: it returns the entire workload. -/
theorem C49_last_violated (le : L → L → Bool) {w : Workload L Q} {f : L → Option Q} (hw : Shows w f) :
    Yields le (last le w 0) f := by
  have h : sliceFrom w.labels (-0) = w.labels := by simp [sliceFrom]
  rw [last, h]
  obtain ⟨v, h1, h2, h3⟩ := sub_yields le hw w.labels fun _ h => h
  refine ⟨v, h1, ?_, h3⟩
  have : (fun l => if l ∈ w.labels then f l else none) = f := by
    funext l
    by_cases hl : l ∈ w.labels
    · rw [if_pos hl]
    · rw [if_neg hl]
      rw [hw.labels] at hl
      exact (not_not.1 hl).symm
  rwa [this] at h2

/-! ### C50: shuffling -/

theorem shuffle_ok (le : L → L → Bool) (sample : List L → Nat → List L) (hs : Samples sample) {w : Workload L Q}
    {f : L → Option Q} (hw : Shows w f) :
    ∃ w', shuffle le sample w = some w' ∧ Shows w' f ∧ w'.labels.Perm w.labels ∧ w'.data = w.data := by
  have hk : w.labels.Perm (Dict.keys w.data) := by
    rw [List.perm_ext_iff_of_nodup hw.nodup hw.wf]
    intro l
    rw [hw.labels, ← hw.lookup, Ne, Dict.get?_eq_none, not_not]
  have hlen : w.data.length = w.labels.length := by
    rw [hk.length_eq]; simp [Dict.keys]
  obtain ⟨h1, h2⟩ := hs w.labels w.data.length (by omega)
  have hp : (sample w.labels w.data.length).Perm w.labels := h1.perm_of_length_le (by omega)
  obtain ⟨w0, e1, e2, e3, e4, _⟩ := build_ok le w.data hw.wf f hw.lookup
  obtain ⟨qs, q1, q2⟩ := queryOrder_some w.data (sample w.labels w.data.length)
    fun l hl => (hp.trans hk).mem_iff.1 hl
  have hinv : w0.labelMapping = invert w.data := by
    rw [build] at e1
    obtain ⟨_, _, rfl⟩ := Option.map_eq_some_iff.1 e1
    rfl
  refine ⟨{ w0 with labels := sample w.labels w.data.length, queries := qs },
    by rw [shuffle, e1, Option.bind_some, e3, q1, Option.map_some], ?_, hp, e3⟩
  have := shows_of w.data hw.wf _ (hp.trans hk) qs q2 f hw.lookup
  rw [← hinv] at this
  simp only [e3]
  exact this

/-- **C50.** Shuffling keeps all label-query pairs and permutes the order. -/
theorem C50_shuffle (le : L → L → Bool) (sample : List L → Nat → List L) (hs : Samples sample) {w : Workload L Q}
    {f : L → Option Q} (hw : Shows w f) :
    ∃ w', shuffle le sample w = some w' ∧ Shows w' f ∧ w'.labels.Perm w.labels := by
  obtain ⟨w', h1, h2, h3, _⟩ := shuffle_ok le sample hs hw
  exact ⟨w', h1, h2, h3⟩

/-- **C50.** `ordered` restores the natural order. -/
theorem C50_ordered (le : L → L → Bool) {w : Workload L Q} {f : L → Option Q} (hw : Shows w f) :
    Yields le (ordered le w) f := build_yields le w.data hw.wf f hw.lookup

/-- **C50.** Shuffling can be undone: ordering a shuffled workload is the same as ordering the original workload. -/
theorem C50_shuffle_ordered (le : L → L → Bool) (sample : List L → Nat → List L) (hs : Samples sample)
    {w : Workload L Q} {f : L → Option Q} (hw : Shows w f) :
    (shuffle le sample w).bind (ordered le) = ordered le w := by
  obtain ⟨w', h1, _, _, h3⟩ := shuffle_ok le sample hs hw
  rw [h1, Option.bind_some, ordered, ordered, h3]

/-- **C50 is violated** for iterating over the workload itself (`for label in workload`, `workload.items()`): it follows
the underlying dictionary, so neither the natural order nor the shuffled order is used. -/
theorem C50_iteration_violated (le : L → L → Bool) (sample : List L → Nat → List L) (hs : Samples sample)
    {w : Workload L Q} {f : L → Option Q} (hw : Shows w f) (w' : Workload L Q) (h : shuffle le sample w = some w') :
    Dict.keys w'.data = Dict.keys w.data := by
  obtain ⟨w'', h1, _, _, h3⟩ := shuffle_ok le sample hs hw
  rw [h1] at h; cases h; rw [h3]

/-! ### C92: label_of -/

/-- **C92.** `label_of` finds a label of every query of the workload, and of no other query. -/
theorem C92_label_of {w : Workload L Q} {f : L → Option Q} (hw : Shows w f) (q : Q) :
    (∀ l, f l = some q → ∃ l', labelOf w q = some l' ∧ f l' = some q) ∧
    ((∀ l, f l ≠ some q) → labelOf w q = none) := by
  refine ⟨fun l hl => ?_, (hw.noLabel q).2⟩
  cases h : labelOf w q with
  | none => exact absurd hl ((hw.noLabel q).1 h l)
  | some l' => exact ⟨l', rfl, hw.labelOf q l' h⟩

/-- **C92.** If no query occurs twice, `label_of` inverts the lookup. -/
theorem C92_label_of_unique {w : Workload L Q} {f : L → Option Q} (hw : Shows w f) (q : Q) (l : L)
    (hu : ∀ l', f l' = some q → l' = l) (hl : f l = some q) : labelOf w q = some l := by
  obtain ⟨l', h1, h2⟩ := (C92_label_of hw q).1 l hl
  rw [h1, hu l' h2]

/-! ### C93: generating workloads -/

theorem zipIdx_keys {α : Type} (qs : List α) : (qs.zipIdx.map fun e => (e.1, e.2 + 1)).map Prod.fst = qs := by
  rw [List.map_map]
  exact List.zipIdx_map_fst 0 qs

/-- **C93** (partial: no query occurs twice). Generated workloads number the queries, starting with one. -/
theorem C93_generate_partial (qs : List Q) (hq : qs.Nodup) :
    Yields (fun a b => decide (a ≤ b)) (generate qs) fun n => if n = 0 then none else qs[n - 1]? := by
  have hwf : Dict.WF (qs.zipIdx.map fun e => (e.1, e.2 + 1) : Dict Q Nat) := by
    unfold Dict.WF Dict.keys; rw [zipIdx_keys]; exact hq
  refine build_yields _ _ (Dict.WF_ofList _) _ fun n => ?_
  have hnum : ∀ q n, (q, n) ∈ numbered qs ↔ n ≠ 0 ∧ qs[n - 1]? = some q := by
    intro q n
    show (q, n) ∈ Dict.ofList _ ↔ _
    rw [← Dict.get?_iff_mem (Dict.WF_ofList _), Dict.get?_ofList_wf hwf, Dict.get?_iff_mem hwf, List.mem_map]
    constructor
    · rintro ⟨⟨a, i⟩, h, he⟩
      cases he
      rw [List.mem_zipIdx_iff_getElem?] at h
      exact ⟨by simp, by simpa using h⟩
    · rintro ⟨h0, h⟩
      refine ⟨(q, n - 1), List.mem_zipIdx_iff_getElem?.2 h, ?_⟩
      simp only [Prod.mk.injEq, true_and]; omega
  have hvals : Dict.WF ((numbered qs).map fun e => (e.2, e.1) : Dict Nat Q) := by
    unfold Dict.WF Dict.keys
    rw [List.map_map]
    refine List.Nodup.map_on ?_ (List.Nodup.of_map Prod.fst (Dict.WF_ofList _))
    rintro ⟨a, i⟩ ha ⟨b, j⟩ hb hij
    simp only [Function.comp] at hij
    rw [hnum] at ha hb
    subst hij
    rw [ha.2] at hb
    rw [Option.some.inj hb.2]
  show Dict.get? (Dict.ofList _) n = _
  rw [Dict.get?_ofList_wf hvals]
  ext q
  rw [Dict.get?_iff_mem hvals, List.mem_map]
  constructor
  · rintro ⟨⟨a, i⟩, h, he⟩
    cases he
    rw [hnum] at h
    rw [if_neg h.1, h.2]
  · intro h
    split at h
    · cases h
    · exact ⟨(q, n), (hnum q n).2 ⟨by assumption, h⟩, rfl⟩

/-- **C93 is violated** if a query occurs twice: only one of its positions remains, the other label does not exist. -/
theorem C93_generate_violated : ∃ qs : List Nat, ∃ w, generate qs = some w ∧
    w.labels.length ≠ qs.length ∧ Dict.get? w.data 1 ≠ qs[0]? := by
  refine ⟨[7, 8, 7], ⟨[(3, 7), (2, 8)], [2, 3], [8, 7], [(7, 3), (8, 2)]⟩, ?_, by decide, by decide⟩
  simp [generate, generateLabelled, numbered, build, natsorted, queryOrder, invert, Dict.ofList, Dict.set, Dict.keys,
    Dict.get?, List.zipIdx, List.mergeSort, List.MergeSort.Internal.splitInTwo, List.merge]

example : ∃ w, generate [7, 8, 5] = some w ∧ entries w = [(1, 7), (2, 8), (3, 5)] := by
  refine ⟨⟨[(1, 7), (2, 8), (3, 5)], [1, 2, 3], [7, 8, 5], [(7, 1), (8, 2), (5, 3)]⟩, ?_, by decide⟩
  simp [generate, generateLabelled, numbered, build, natsorted, queryOrder, invert, Dict.ofList, Dict.set, Dict.keys,
    Dict.get?, List.zipIdx, List.mergeSort, List.MergeSort.Internal.splitInTwo, List.merge]

/-! ### C51: reading workloads -/

theorem readLoop_ok (parse : F → Option Q) (mode : OnError) (pre : String) (files : List (String × F)) (last : Option Q)
    (acc : Dict String Q) (es : List (String × Q))
    (h : (files.mapM fun f => (parse f.2).map fun q => (pre ++ f.1, q)) = some es) :
    readLoop parse mode pre files last acc = some (Dict.update acc es) := by
  induction files generalizing last acc es with
  | nil => cases h; rfl
  | cons f fs ih =>
    rw [List.mapM_cons] at h
    cases hp : parse f.2 with
    | none => rw [hp] at h; cases h
    | some q =>
      rw [hp] at h
      obtain ⟨_, h0, h⟩ := Option.bind_eq_some_iff.1 h
      cases h0
      obtain ⟨es', h1, h2⟩ := Option.bind_eq_some_iff.1 h
      cases h2
      rw [readLoop, hp]
      exact ih _ _ _ h1

theorem readLoop_raise (parse : F → Option Q) (pre : String) (files : List (String × F)) (last : Option Q)
    (acc : Dict String Q) (h : (files.mapM fun f => (parse f.2).map fun q => (pre ++ f.1, q)) = none) :
    readLoop parse .raise pre files last acc = none := by
  induction files generalizing last acc with
  | nil => cases h
  | cons f fs ih =>
    rw [List.mapM_cons] at h
    rw [readLoop]
    cases hp : parse f.2 with
    | none => rfl
    | some q =>
      rw [hp] at h
      refine ih _ _ ?_
      exact Option.eq_none_iff_forall_not_mem.2 (by simpa using h)

theorem mapM_mem {α β : Type} (g : α → Option β) (l : List α) (r : List β) (h : l.mapM g = some r) :
    List.Forall₂ (fun a b => g a = some b) l r := by
  induction l generalizing r with
  | nil => cases h; exact .nil
  | cons a l ih =>
    rw [List.mapM_cons] at h
    obtain ⟨b, h1, h2⟩ := Option.bind_eq_some_iff.1 h
    obtain ⟨bs, h3, h4⟩ := Option.bind_eq_some_iff.1 h2
    cases h4
    exact .cons h1 (ih _ h3)

theorem mapM_none {α β : Type} (g : α → Option β) (l : List α) : l.mapM g = none ↔ ∃ a ∈ l, g a = none := by
  induction l with
  | nil => simp
  | cons a l ih =>
    rw [List.mapM_cons]
    cases h : g a with
    | none => simp [h]
    | some b =>
      simp only [h, Option.bind_eq_bind, Option.bind_some, List.mem_cons, exists_eq_or_imp, false_or, reduceCtorEq, ← ih]
      cases l.mapM g <;> simp

/-- The mapping that a directory describes: the label of a file is the prefix and its stem. -/
def Described (parse : F → Option Q) (pre : String) (files : List (String × F)) (g : String → Option Q) : Prop :=
  ∀ l q, g l = some q ↔ ∃ f ∈ files, pre ++ f.1 = l ∧ parse f.2 = some q

theorem forall₂_mem {α β : Type} {R : α → β → Prop} {l : List α} {r : List β} (h : List.Forall₂ R l r) :
    (∀ a ∈ l, ∃ b ∈ r, R a b) ∧ ∀ b ∈ r, ∃ a ∈ l, R a b := by
  induction h with
  | nil => simp
  | @cons a b as bs h1 _ ih =>
    constructor
    · intro x hx
      rcases List.mem_cons.1 hx with rfl | hx
      · exact ⟨b, by simp, h1⟩
      · obtain ⟨y, hy, hr⟩ := ih.1 x hx
        exact ⟨y, by simp [hy], hr⟩
    · intro y hy
      rcases List.mem_cons.1 hy with rfl | hy
      · exact ⟨a, by simp, h1⟩
      · obtain ⟨x, hx, hr⟩ := ih.2 y hy
        exact ⟨x, by simp [hx], hr⟩

theorem str_append_cancel (p a b : String) (h : p ++ a = p ++ b) : a = b := by
  have := congrArg String.toList h
  simp only [String.toList_append] at this
  exact String.ext (List.append_cancel_left this)

theorem files_dict (parse : F → Option Q) (pre : String) (files : List (String × F)) (hn : (files.map Prod.fst).Nodup)
    (es : List (String × Q)) (h : (files.mapM fun f => (parse f.2).map fun q => (pre ++ f.1, q)) = some es) :
    Dict.WF es ∧ ∀ l q, (l, q) ∈ es ↔ ∃ f ∈ files, pre ++ f.1 = l ∧ parse f.2 = some q := by
  have h2 := mapM_mem _ _ _ h
  constructor
  · have hk : Dict.keys es = (files.map Prod.fst).map fun s => pre ++ s := by
      clear h hn
      induction h2 with
      | nil => rfl
      | @cons a b as bs hab _ ih =>
        obtain ⟨q, _, rfl⟩ := Option.map_eq_some_iff.1 hab
        rw [Dict.keys_cons, ih]; rfl
    rw [Dict.WF, hk]
    exact hn.map fun a b h => str_append_cancel _ _ _ h
  · intro l q
    constructor
    · intro hm
      obtain ⟨f, hf, hq⟩ := (forall₂_mem h2).2 _ hm
      obtain ⟨q', hq', he⟩ := Option.map_eq_some_iff.1 hq
      cases he
      exact ⟨f, hf, rfl, hq'⟩
    · rintro ⟨f, hf, rfl, hq⟩
      obtain ⟨e, he, hq'⟩ := (forall₂_mem h2).1 f hf
      rw [hq] at hq'
      cases hq'; exact he

/-- **C51.** Reading a directory with `on_error="raise"`: fails iff some file cannot be parsed, and otherwise provides every
file under its own label with its own query. -/
theorem C51_read_raise (le : String → String → Bool) (parse : F → Option Q) (pre : String) (files : List (String × F))
    (hn : (files.map Prod.fst).Nodup) :
    (readFlat le parse .raise pre files = none ↔ ∃ f ∈ files, parse f.2 = none) ∧
    ((∀ f ∈ files, parse f.2 ≠ none) → ∃ g, Yields le (readFlat le parse .raise pre files) g ∧ Described parse pre files g) := by
  have key : (files.mapM fun f => (parse f.2).map fun q => (pre ++ f.1, q)) = none ↔ ∃ f ∈ files, parse f.2 = none := by
    rw [mapM_none]; simp
  have hok : (∀ f ∈ files, parse f.2 ≠ none) →
      ∃ g, Yields le (readFlat le parse .raise pre files) g ∧ Described parse pre files g := by
    intro h
    cases hm : (files.mapM fun f => (parse f.2).map fun q => (pre ++ f.1, q)) with
    | none =>
      obtain ⟨f, hf, hn⟩ := key.1 hm
      exact absurd hn (h f hf)
    | some es =>
      obtain ⟨hw, hes⟩ := files_dict parse pre files hn es hm
      refine ⟨Dict.get? (Dict.update [] es), ?_, ?_⟩
      · rw [readFlat, readLoop_ok _ _ _ _ _ _ es hm]
        exact build_yields le _ (Dict.WF_ofList es) _ fun _ => rfl
      · intro l q
        rw [← hes, show Dict.update [] es = Dict.ofList es from rfl, Dict.get?_ofList_wf hw, Dict.get?_iff_mem hw]
  refine ⟨⟨fun h => ?_, fun h => ?_⟩, hok⟩
  · by_contra hc
    obtain ⟨g, ⟨w, hw, _⟩, _⟩ := hok (by push Not at hc; exact hc)
    rw [h] at hw; cases hw
  · rw [readFlat, readLoop_raise _ _ _ _ _ (key.2 h)]; rfl

/-- **C51** (partial: all files can be parsed). Reading a directory provides every file under its own label with its own
query, for every error handling. -/
theorem C51_read_partial (le : String → String → Bool) (parse : F → Option Q) (mode : OnError) (pre : String)
    (files : List (String × F)) (hn : (files.map Prod.fst).Nodup) (h : ∀ f ∈ files, parse f.2 ≠ none) :
    ∃ g, Yields le (readFlat le parse mode pre files) g ∧ Described parse pre files g := by
  have : readFlat le parse mode pre files = readFlat le parse .raise pre files := by
    cases hm : (files.mapM fun f => (parse f.2).map fun q => (pre ++ f.1, q)) with
    | none =>
      rw [mapM_none] at hm
      obtain ⟨f, hf, hx⟩ := hm
      exact absurd (by simpa using hx) (h f hf)
    | some es => rw [readFlat, readFlat, readLoop_ok _ _ _ _ _ _ es hm, readLoop_ok _ _ _ _ _ _ es hm]
  rw [this]
  exact (C51_read_raise le parse pre files hn).2 h

/-- **C51 is violated** for lenient reading: if the first file cannot be parsed, reading fails altogether. -/
theorem C51_lenient_violated (le : String → String → Bool) (parse : F → Option Q) (mode : OnError) (pre : String)
    (f : String × F) (fs : List (String × F)) (h : parse f.2 = none) : readFlat le parse mode pre (f :: fs) = none := by
  rw [readFlat, readLoop, h]
  cases mode <;> rfl

/-- **C51 is violated** for lenient reading: a later file that cannot be parsed receives the query of another file. -/
theorem C51_lenient_wrong_query_violated : ∃ (parse : Nat → Option Nat) (files : List (String × Nat)) (w : _),
    readFlat (fun _ _ => true) parse .warn "" files = some w ∧ parse 0 = none ∧ ("b", 0) ∈ files ∧ Dict.get? w.data "b" = some 1 := by
  refine ⟨fun n => if n = 0 then none else some n, [("a", 1), ("b", 0)],
    ⟨[("a", 1), ("b", 1)], ["a", "b"], [1, 1], [(1, "b")]⟩, ?_, rfl, by simp, by decide⟩
  simp [readFlat, readLoop, build, natsorted, queryOrder, invert, Dict.ofList, Dict.set, Dict.keys,
    Dict.get?, List.mergeSort, List.MergeSort.Internal.splitInTwo, List.merge]

/-! ### C94: reading nested directories -/

mutual
/-- All files of a directory and its subdirectories. -/
def allFiles : Dir F → List (String × F)
  | .mk files subs => files ++ subFiles subs
def subFiles : List (String × Dir F) → List (String × F)
  | [] => []
  | (_, d) :: ds => allFiles d ++ subFiles ds
end

mutual
/-- The files with the labels that the documentation promises: the prefix, the names of the subdirectories and the stem. -/
def labelled (pre : String) : Dir F → List (String × F)
  | .mk files subs => (files.map fun f => (pre ++ f.1, f.2)) ++ subLabelled pre subs
def subLabelled (pre : String) : List (String × Dir F) → List (String × F)
  | [] => []
  | (n, d) :: ds => labelled (pre ++ n ++ "/") d ++ subLabelled pre ds
end

theorem update_append {κ ν : Type} [DecidableEq κ] (d : Dict κ ν) (a b : List (κ × ν)) :
    Dict.update d (a ++ b) = Dict.update (Dict.update d a) b := by simp [Dict.update]

theorem mapM_append_some {α β : Type} (g : α → Option β) (a b : List α) (r : List β) (h : (a ++ b).mapM g = some r) :
    ∃ r1 r2, a.mapM g = some r1 ∧ b.mapM g = some r2 ∧ r = r1 ++ r2 := by
  rw [List.mapM_append] at h
  obtain ⟨r1, h1, h2⟩ := Option.bind_eq_some_iff.1 h
  obtain ⟨r2, h3, h4⟩ := Option.bind_eq_some_iff.1 h2
  cases h4
  exact ⟨r1, r2, h1, h3, rfl⟩

mutual
theorem readDir_ok (parse : F → Option Q) (mode : OnError) (pre : String) (d : Dir F) (es : List (String × Q))
    (h : ((allFiles d).mapM fun f => (parse f.2).map fun q => ("" ++ f.1, q)) = some es) :
    ∃ r, readDir parse mode pre d = some r ∧ r.WF ∧ ((es.map Prod.fst).Nodup → ∀ e, e ∈ r ↔ e ∈ es) := by
  cases d with
  | mk files subs =>
    rw [allFiles] at h
    obtain ⟨e1, e2, h1, h2, rfl⟩ := mapM_append_some _ _ _ _ h
    rw [readDir, readLoop_ok _ _ _ _ _ _ e1 h1, Option.bind_some]
    obtain ⟨r, hr, hw, hm⟩ := readSubs_ok parse mode pre (Dict.update [] e1) (Dict.WF_ofList _) subs e2 h2
    refine ⟨r, hr, hw, fun hn e => ?_⟩
    rw [List.map_append, List.nodup_append] at hn
    have hw1 : Dict.WF e1 := hn.1
    have hmem1 : ∀ e, e ∈ Dict.update [] e1 ↔ e ∈ e1 := by
      rintro ⟨k, v⟩
      rw [show Dict.update [] e1 = Dict.ofList e1 from rfl, ← Dict.get?_iff_mem (Dict.WF_ofList e1),
        ← Dict.get?_iff_mem hw1, Dict.get?_ofList_wf hw1]
    rw [hm hn.2.1 ?_, hmem1, List.mem_append]
    intro k hk hk2
    obtain ⟨⟨a, b⟩, he, rfl⟩ := List.mem_map.1 hk
    exact hn.2.2 a (List.mem_map.2 ⟨(a, b), (hmem1 _).1 he, rfl⟩) a hk2 rfl
theorem readSubs_ok (parse : F → Option Q) (mode : OnError) (pre : String) (qs : Dict String Q) (hqs : qs.WF)
    (ds : List (String × Dir F)) (es : List (String × Q))
    (h : ((subFiles ds).mapM fun f => (parse f.2).map fun q => ("" ++ f.1, q)) = some es) :
    ∃ r, readSubs parse mode pre qs ds = some r ∧ r.WF ∧
      ((es.map Prod.fst).Nodup → (∀ k ∈ Dict.keys qs, k ∉ es.map Prod.fst) → ∀ e, e ∈ r ↔ e ∈ qs ∨ e ∈ es) := by
  cases ds with
  | nil => rw [subFiles] at h; cases h; exact ⟨qs, by rw [readSubs], hqs, by simp⟩
  | cons nd ds =>
    obtain ⟨n, d⟩ := nd
    rw [subFiles] at h
    obtain ⟨e1, e2, h1, h2, rfl⟩ := mapM_append_some _ _ _ _ h
    obtain ⟨r1, hr1, hw1, hm1⟩ := readDir_ok parse mode (subPrefix pre n) d e1 h1
    obtain ⟨r, hr, hw, hm⟩ := readSubs_ok parse mode pre (Dict.update qs r1) (Dict.WF_update hqs _) ds e2 h2
    refine ⟨r, by rw [readSubs, hr1, Option.bind_some, hr], hw, fun hn hk e => ?_⟩
    rw [List.map_append, List.nodup_append] at hn
    have hm1' := hm1 hn.1
    have hdisj : ∀ k ∈ Dict.keys qs, k ∉ Dict.keys r1 := by
      intro k hk1 hk2
      obtain ⟨⟨a, b⟩, he, rfl⟩ := List.mem_map.1 hk2
      refine hk a hk1 ?_
      rw [List.map_append, List.mem_append]
      exact .inl (List.mem_map.2 ⟨(a, b), (hm1' _).1 he, rfl⟩)
    have hu : ∀ e, e ∈ Dict.update qs r1 ↔ e ∈ qs ∨ e ∈ r1 := by
      rintro ⟨k, v⟩
      rw [← Dict.get?_iff_mem (Dict.WF_update hqs _), Dict.get?_update _ hw1, ← Dict.get?_iff_mem hqs,
        ← Dict.get?_iff_mem hw1]
      cases hg : Dict.get? r1 k with
      | none => simp
      | some v' =>
        have hkr : k ∈ Dict.keys r1 := by rw [← Dict.get?_isSome, hg]; rfl
        have : Dict.get? qs k = none := by
          rw [Dict.get?_eq_none]; intro hc; exact hdisj k hc hkr
        simp [this]
    rw [hm hn.2.1 ?_, hu, hm1', List.mem_append, or_assoc]
    intro k hk1 hk2
    obtain ⟨⟨a, b⟩, he, rfl⟩ := List.mem_map.1 hk1
    rcases (hu _).1 he with he | he
    · refine hk a (List.mem_map.2 ⟨(a, b), he, rfl⟩) ?_
      rw [List.map_append, List.mem_append]
      exact .inr hk2
    · exact hn.2.2 a (List.mem_map.2 ⟨(a, b), (hm1' _).1 he, rfl⟩) a hk2 rfl
end

/-- **C94** (partial: all stems are different, all files can be parsed). Reading nested directories provides every file,
but under its stem only. -/
theorem C94_nested_partial (le : String → String → Bool) (parse : F → Option Q) (mode : OnError) (pre : String) (d : Dir F)
    (hn : ((allFiles d).map Prod.fst).Nodup) (h : ∀ f ∈ allFiles d, parse f.2 ≠ none) :
    ∃ g, Yields le (readWorkload le parse mode true pre d) g ∧ Described parse "" (allFiles d) g := by
  cases hm : ((allFiles d).mapM fun f => (parse f.2).map fun q => ("" ++ f.1, q)) with
  | none =>
    rw [mapM_none] at hm
    obtain ⟨f, hf, hx⟩ := hm
    exact absurd (by simpa using hx) (h f hf)
  | some es =>
    obtain ⟨hw, hes⟩ := files_dict parse "" _ hn es hm
    obtain ⟨r, h1, h2, h3⟩ := readDir_ok parse mode pre d es hm
    refine ⟨Dict.get? r, ?_, fun l q => ?_⟩
    · cases d
      rw [readWorkload, if_pos rfl, h1]
      exact build_yields le r h2 _ fun _ => rfl
    · rw [Dict.get?_iff_mem h2, h3 hw, hes]

/-- **C94 is violated**: the prefixes are not used, so files with the same name in different subdirectories overwrite each
other. -/
theorem C94_nested_violated : ∃ (d : Dir Nat) (w : _), readWorkload (fun _ _ => true) (some : Nat → Option Nat) .raise true "" d = some w ∧
    labelled "" d = [("x/q", 1), ("y/q", 2)] ∧ Dict.get? w.data "x/q" = none ∧ w.data = [("q", 2)] := by
  refine ⟨.mk [] [("x", .mk [("q", 1)] []), ("y", .mk [("q", 2)] [])], ⟨[("q", 2)], ["q"], [2], [(2, "q")]⟩, ?_, ?_, by decide, rfl⟩
  · simp [readWorkload, readDir, readSubs, readLoop, build, natsorted, queryOrder, invert, Dict.ofList, Dict.set, Dict.keys,
      Dict.get?, Dict.update, List.mergeSort, List.MergeSort.Internal.splitInTwo, List.merge]
  · decide +kernel

/-- Without subdirectories, `read_workload` behaves like `Workload.read` without prefix. -/
theorem C94_flat (le : String → String → Bool) (parse : F → Option Q) (mode : OnError) (pre : String)
    (files : List (String × F)) (subs : List (String × Dir F)) :
    readWorkload le parse mode false pre (.mk files subs) = readFlat le parse mode "" files := by
  rw [readWorkload, readFlat, if_neg (by simp)]

/-! ### Examples -/

/-- A workload in a different order than its dictionary. -/
def exW : Workload Nat Nat := ⟨[(2, 20), (1, 10), (3, 10)], [1, 2, 3], [10, 20, 10], [(20, 2), (10, 3)]⟩

theorem exW_shows : Shows exW (Dict.get? exW.data) := by
  refine shows_of exW.data (by unfold Dict.WF; decide) _ (by decide) _ ?_ _ fun _ => rfl
  exact .cons (by decide) (.cons (by decide) (.cons (by decide) .nil))

example : Order (fun a b : Nat => decide (a ≤ b)) :=
  ⟨fun a b c h1 h2 => by simp at *; omega, fun a b => by simp; omega⟩

example : Samples (fun (ls : List Nat) k => ls.take k) := fun ls k h =>
  ⟨(List.take_sublist _ _).subperm, by rw [List.length_take]; omega⟩

example : labelOf exW 10 = some 3 ∧ labelOf exW 20 = some 2 ∧ labelOf exW 5 = none := by decide

example : ((allFiles (.mk [("a", 1)] [("x", .mk [("q", 1)] []), ("y", .mk [("r", 2)] [])] : Dir Nat)).map Prod.fst).Nodup := by
  decide +kernel

example : ∀ l q l' q', Dict.get? exW.data l = some q → Dict.get? exW.data l' = some q' → l + 7 = l' + 7 → l = l' := by
  intros; omega

end PB.WorkloadProps
