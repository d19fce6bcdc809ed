import Verif.Model.Dicts
import Mathlib.Order.Basic
import Mathlib.Data.Rat.Floor

set_option linter.unusedSimpArgs false
set_option linter.unusedVariables false
set_option linter.unusedSectionVars false

/-! Properties C09, C10, C67, C68 (dictionary utilities). -/

namespace PB.DictProps
open PB PB.Dicts

variable {κ ν : Type} [DecidableEq κ] [DecidableEq ν]

/-! ### C09 -/

/-- C09: `difference` keeps exactly the entries of the left dictionary whose key is not in the right one. -/
theorem C09_difference (a b : Dict κ ν) (ha : a.WF) (k : κ) :
    (difference a b).get? k = if k ∈ b.keys then none else a.get? k := by
  unfold difference
  rw [Dict.get?_ofList_wf (Dict.WF_filter ha _), Dict.get?_filter a (fun k => !b.has k)]
  by_cases h : k ∈ b.keys
  · simp [h, (Dict.has_iff b k).2 h]
  · have : b.has k = false := by rw [← Bool.not_eq_true, Dict.has_iff]; exact h
    simp [h, this]

/-- C09: `intersection` keeps exactly the entries of the left dictionary whose key is in the right one. -/
theorem C09_intersection (a b : Dict κ ν) (ha : a.WF) (k : κ) :
    (intersection a b).get? k = if k ∈ b.keys then a.get? k else none := by
  unfold intersection
  rw [Dict.get?_ofList_wf (Dict.WF_filter ha _), Dict.get?_filter a (fun k => b.has k)]
  by_cases h : k ∈ b.keys
  · simp [h, (Dict.has_iff b k).2 h]
  · have : b.has k = false := by rw [← Bool.not_eq_true, Dict.has_iff]; exact h
    simp [h, this]

/-- C09: `merge` without updater: the right dictionary wins, all other entries come from the left one. -/
theorem C09_merge_plain (a b : Dict κ ν) (ha : a.WF) (hb : b.WF) (k : κ) :
    (merge a b none).get? k = (b.get? k).or (a.get? k) := by
  have : merge a b none = Dict.update (Dict.ofList a) b := by
    simp [merge, Dict.ofList, Dict.update]
  rw [this, Dict.get?_update _ hb, Dict.get?_ofList_wf ha]

/-- C09: `merge` with an updater: a key in both gets the updater's result, a key in one keeps its value. -/
theorem C09_merge_updater (a b : Dict κ ν) (ha : a.WF) (hb : b.WF) (u : κ → ν → ν → ν) (k : κ) :
    (merge a b (some u)).get? k =
      match a.get? k, b.get? k with
      | some x, some y => some (u k x y)
      | some x, none => some x
      | none, r => r := by
  have gen : ∀ (l : Dict κ ν) (m : Dict κ ν), l.WF →
      (l.foldl (mergeStep u) m).get? k =
      match m.get? k, l.get? k with
      | some x, some y => some (u k x y)
      | some x, none => some x
      | none, r => r := by
    intro l
    induction l with
    | nil => intro m _; simp [Dict.get?]; split <;> simp_all
    | cons e l ih =>
      intro m hl
      obtain ⟨x, w⟩ := e
      simp only [Dict.WF, Dict.keys_cons, List.nodup_cons] at hl
      rw [List.foldl_cons, ih _ hl.2]
      simp only [Dict.get?]
      by_cases hx : x = k
      · subst hx
        have hn : Dict.get? l x = none := (Dict.get?_eq_none l x).2 hl.1
        rw [hn]
        cases hm : Dict.get? m x <;> simp [mergeStep, Dict.get?_set, hm]
      · have : ∀ v, Dict.get? (Dict.set m x v) k = Dict.get? m k := by
          intro v; rw [Dict.get?_set, if_neg hx]
        cases hm : Dict.get? m x <;> simp [mergeStep, this, hx, hm]
  unfold merge
  simp only
  rw [gen b _ hb, Dict.get?_ofList_wf ha]

example : Dict.WF [(1, 'a'), (2, 'b')] ∧ Dict.WF [(2, 'c'), (3, 'd')] := by
  constructor <;> simp [Dict.WF, Dict.keys]

theorem get?_multiAppend (d : Dict κ (List ν)) (k k' : κ) (v : ν) :
    ((multiAppend d k v).get? k').getD [] =
      (d.get? k').getD [] ++ (if k = k' then [v] else []) := by
  unfold multiAppend
  rw [Dict.get?_set]
  by_cases h : k = k'
  · subst h; simp
  · simp [h]

/-- C09: `generate_multi` lists under each key exactly the values paired with it, in order; keys that do not
occur are absent. -/
theorem C09_generateMulti (entries : List (κ × ν)) (k : κ) :
    ((generateMulti entries).get? k).getD [] = (entries.filter (fun e => e.1 = k)).map Prod.snd ∧
    (k ∈ (generateMulti entries).keys ↔ k ∈ entries.map Prod.fst) := by
  have gen : ∀ acc : Dict κ (List ν),
      ((entries.foldl (fun d e => multiAppend d e.1 e.2) acc).get? k).getD [] =
        (acc.get? k).getD [] ++ (entries.filter (fun e => e.1 = k)).map Prod.snd ∧
      (k ∈ (entries.foldl (fun d e => multiAppend d e.1 e.2) acc).keys ↔
        k ∈ acc.keys ∨ k ∈ entries.map Prod.fst) := by
    induction entries with
    | nil => simp
    | cons e es ih =>
      intro acc
      obtain ⟨x, w⟩ := e
      rw [List.foldl_cons]
      refine ⟨?_, ?_⟩
      · rw [(ih _).1, get?_multiAppend]
        by_cases h : x = k <;> simp [h]
      · rw [(ih _).2]
        simp only [multiAppend, Dict.mem_keys_set, List.map_cons, List.mem_cons]
        tauto
  have := gen []
  simpa [generateMulti, Dict.get?] using this

/-- C09: `aggregate` lists under each key the values of this key in the dictionaries that contain it, in the order of the
dictionaries; keys that no dictionary contains are absent. -/
theorem C09_aggregate (ds : List (Dict κ ν)) (hd : ∀ d ∈ ds, d.WF) (k : κ) :
    ((aggregate ds).get? k).getD [] = ds.filterMap (fun d => d.get? k) ∧
    (k ∈ (aggregate ds).keys ↔ ∃ d ∈ ds, k ∈ d.keys) := by
  have e : aggregate ds = generateMulti ds.flatten := by
    unfold aggregate generateMulti
    rw [List.foldl_flatten]
  rw [e, (C09_generateMulti _ k).1, (C09_generateMulti _ k).2]
  constructor
  · clear e
    induction ds with
    | nil => rfl
    | cons d ds ih =>
      have hw := hd d (by simp)
      rw [List.flatten_cons, List.filter_append, List.map_append, ih (fun d' h => hd d' (by simp [h])), List.filterMap_cons]
      have : (d.filter (fun e => e.1 = k)).map Prod.snd = (d.get? k).toList := by
        clear hd ih
        induction d with
        | nil => rfl
        | cons x d ih =>
          obtain ⟨a, v⟩ := x
          have hw' : (a :: d.map Prod.fst).Nodup := hw
          rw [List.nodup_cons] at hw'
          by_cases h : a = k
          · subst h
            have hn : d.filter (fun e => e.1 = a) = [] := by
              rw [List.filter_eq_nil_iff]
              intro e he h
              exact hw'.1 (List.mem_map.2 ⟨e, he, by simpa using h⟩)
            simp [Dict.get?, hn]
          · simp only [Dict.get?, List.filter_cons, h, decide_false, Bool.false_eq_true, if_false]
            have := ih hw'.2
            simpa [Dict.get?, h] using this
      rw [this]
      cases d.get? k <;> simp
  · simp only [Dict.keys, List.mem_map, List.mem_flatten]
    constructor
    · rintro ⟨x, ⟨d, h1, h2⟩, h3⟩; exact ⟨d, h1, x, h2, h3⟩
    · rintro ⟨d, h1, x, h2, h3⟩; exact ⟨x, ⟨d, h1, h2⟩, h3⟩

example : (∀ d ∈ [[(1, 'a'), (2, 'b')], [(2, 'c')]], Dict.WF d) ∧
    aggregate [[(1, 'a'), (2, 'b')], [(2, 'c')]] = [(1, ['a']), (2, ['b', 'c'])] := by
  constructor
  · intro d hd
    simp only [List.mem_cons, List.not_mem_nil, or_false] at hd
    rcases hd with rfl | rfl <;> simp [Dict.WF, Dict.keys]
  · decide

/-! ### C10 -/

/-- C10 violated: two keys with the same value list: the first one is lost. -/
theorem C10_invertMulti_violated :
    invertMulti [("a", [1]), ("b", [1])] = [(1, ["b"])] := by
  decide

theorem get?_inner (vs : List ν) (k : κ) (l : Dict ν (List κ)) (v : ν) :
    ((vs.foldl (invertStep k) l).get? v).getD [] =
    (l.get? v).getD [] ++ (vs.filter (fun w => w = v)).map (fun _ => k) := by
  induction vs generalizing l with
  | nil => simp
  | cons w ws ih =>
    rw [List.foldl_cons, ih]
    have : ((invertStep k l w).get? v).getD [] =
        (l.get? v).getD [] ++ (if w = v then [k] else []) := by
      unfold invertStep
      cases h : Dict.get? l w with
      | none =>
        simp only [Dict.get?_set]
        by_cases hw : w = v
        · subst hw; simp [h]
        · simp [hw]
      | some ks =>
        simp only [Dict.get?_set]
        by_cases hw : w = v
        · subst hw; simp [h]
        · simp [hw]
    rw [this]
    by_cases hw : w = v <;> simp [hw]

/-- C10 partial: if no two keys have the same value list, `k` is listed under `v` in the inverse iff `v` is
listed under `k` in the mapping. Missing: keys sharing a value list. -/
theorem C10_invertMulti_partial (m : Dict κ (List ν)) (hm : m.WF) (hd : m.values.Nodup) (k : κ) (v : ν) :
    k ∈ ((invertMulti m).get? v).getD [] ↔ ∃ vs, m.get? k = some vs ∧ v ∈ vs := by
  have hl1 : Dict.WF (m.map fun e => (e.2, e.1)) := by
    unfold Dict.WF Dict.keys; rw [List.map_map]; exact hd
  have hmem : ∀ e : List ν × κ, e ∈ (Dict.ofList (m.map fun e => (e.2, e.1)) : Dict (List ν) κ) ↔
      e ∈ (m.map fun e => (e.2, e.1)) := by
    rintro ⟨vs, k⟩
    rw [← Dict.get?_iff_mem (Dict.WF_ofList _), Dict.get?_ofList_wf hl1, Dict.get?_iff_mem hl1]
  have gen : ∀ (l : Dict (List ν) κ) (acc : Dict ν (List κ)),
      k ∈ ((l.foldl (fun level2 e => e.1.foldl (invertStep e.2) level2) acc).get? v).getD [] ↔
      k ∈ (acc.get? v).getD [] ∨ ∃ vs, (vs, k) ∈ l ∧ v ∈ vs := by
    intro l
    induction l with
    | nil => simp
    | cons e l ih =>
      intro acc
      rw [List.foldl_cons, ih, get?_inner]
      obtain ⟨vs, k'⟩ := e
      simp only [List.mem_append, List.mem_map, List.mem_filter, decide_eq_true_eq, List.mem_cons,
        Prod.mk.injEq]
      constructor
      · rintro ((h | ⟨w, ⟨h1, h2⟩, h3⟩) | ⟨vs', h1, h2⟩)
        · exact Or.inl h
        · exact Or.inr ⟨vs, Or.inl ⟨rfl, h3.symm⟩, h2 ▸ h1⟩
        · exact Or.inr ⟨vs', Or.inr h1, h2⟩
      · rintro (h | ⟨vs', ⟨rfl, rfl⟩ | h1, h2⟩)
        · exact Or.inl (Or.inl h)
        · exact Or.inl (Or.inr ⟨v, ⟨h2, rfl⟩, rfl⟩)
        · exact Or.inr ⟨vs', h1, h2⟩
  unfold invertMulti
  simp only
  rw [gen]
  simp only [Dict.get?, Option.getD_none, List.not_mem_nil, false_or]
  constructor
  · rintro ⟨vs, h1, h2⟩
    rw [hmem, List.mem_map] at h1
    obtain ⟨⟨k', vs'⟩, h3, h4⟩ := h1
    simp only [Prod.mk.injEq] at h4
    obtain ⟨rfl, rfl⟩ := h4
    exact ⟨vs', Dict.get?_of_mem hm h3, h2⟩
  · rintro ⟨vs, h1, h2⟩
    refine ⟨vs, (hmem _).2 (List.mem_map.2 ⟨(k, vs), Dict.mem_of_get? h1, rfl⟩), h2⟩

example : Dict.WF [("a", [1, 2]), ("b", [2])] ∧ (Dict.values [("a", [1, 2]), ("b", [2])]).Nodup := by
  constructor <;> simp [Dict.WF, Dict.keys, Dict.values]

/-- C10: in every case the inverse contains no wrong entry. -/
theorem C10_invert_partial (m : Dict κ ν) (hm : m.WF) (hd : m.values.Nodup) (k : κ) (v : ν) :
    (invert m).get? v = some k ↔ m.get? k = some v := by
  have hl1 : Dict.WF (m.map fun e => (e.2, e.1)) := by
    unfold Dict.WF Dict.keys; rw [List.map_map]; exact hd
  unfold invert
  rw [Dict.get?_ofList_wf hl1, Dict.get?_iff_mem hl1, Dict.get?_iff_mem hm, List.mem_map]
  constructor
  · rintro ⟨⟨a, b⟩, h1, h2⟩
    simp only [Prod.mk.injEq] at h2
    obtain ⟨rfl, rfl⟩ := h2
    exact h1
  · intro h; exact ⟨(k, v), h, rfl⟩

/-! ### C68 argmin -/

/-- C68: `argmin` fails exactly on the empty mapping; otherwise it returns a key whose value is minimal, and the
first such key in insertion order. -/
theorem C68_argmin (m : Dict κ Rat) :
    (argmin m = none ↔ m = []) ∧
    ∀ k, argmin m = some k → ∃ pre v post, m = pre ++ (k, v) :: post ∧
      (∀ e ∈ pre, v < e.2) ∧ (∀ e ∈ post, v ≤ e.2) := by
  cases m with
  | nil => simp [argmin]
  | cons e rest =>
    refine ⟨by simp [argmin], ?_⟩
    intro k hk
    simp only [argmin, Option.some.injEq] at hk
    have gen : ∀ (rest pre mid : Dict κ Rat) (b : κ × Rat),
        (∀ x ∈ pre, b.2 < x.2) → (∀ x ∈ mid, b.2 ≤ x.2) →
        ∃ pre' v post, pre ++ b :: mid ++ rest = pre' ++
          ((rest.foldl (fun best e => if e.2 < best.2 then e else best) b).1, v) :: post ∧
          (∀ x ∈ pre', v < x.2) ∧ (∀ x ∈ post, v ≤ x.2) := by
      intro rest
      induction rest with
      | nil => intro pre mid b h1 h2; exact ⟨pre, b.2, mid, by simp, h1, h2⟩
      | cons c rest ih =>
        intro pre mid b h1 h2
        rw [List.foldl_cons]
        by_cases hc : c.2 < b.2
        · rw [if_pos hc]
          have := ih (pre ++ b :: mid) [] c (by
            intro x hx
            rcases List.mem_append.1 hx with hx | hx
            · exact lt_trans hc (h1 x hx)
            · rcases List.mem_cons.1 hx with rfl | hx
              · exact hc
              · exact lt_of_lt_of_le hc (h2 x hx)) (by simp)
          simpa using this
        · rw [if_neg hc]
          have := ih pre (mid ++ [c]) b h1 (by
            intro x hx
            rcases List.mem_append.1 hx with hx | hx
            · exact h2 x hx
            · simp at hx; subst hx; exact not_lt.1 hc)
          simpa using this
    obtain ⟨pre, v, post, h1, h2, h3⟩ := gen rest [] [] e (by simp) (by simp)
    rw [hk] at h1
    exact ⟨pre, v, post, by simpa using h1, h2, h3⟩

/-! ### C67 hashing of dictionaries -/

/-- C67 violated: equal frozen dictionaries can be hashed from different tuples (insertion order). -/
theorem C67_hash_violated :
    dictEq [(1, 'a'), (2, 'b')] [(2, 'b'), (1, 'a')] ∧
    hashDictKey [(1, 'a'), (2, 'b')] ≠ hashDictKey [(2, 'b'), (1, 'a')] := by
  refine ⟨?_, by decide⟩
  intro k
  simp only [Dict.get?]
  by_cases h1 : 1 = k
  · subst h1; decide
  · by_cases h2 : 2 = k
    · subst h2; decide
    · simp [h1, h2]

/-- C67 partial: equal dictionaries whose keys were inserted in the same order are hashed from equal tuples.
Missing: different insertion orders. -/
theorem C67_hash_partial (a b : Dict κ ν) (ha : a.WF) (h : dictEq a b) (hk : a.keys = b.keys) :
    hashDictKey a = hashDictKey b := by
  have : a = b := by
    induction a generalizing b with
    | nil =>
      cases b with
      | nil => rfl
      | cons _ _ => simp at hk
    | cons e a ih =>
      cases b with
      | nil => simp at hk
      | cons f b =>
        obtain ⟨x, v⟩ := e
        obtain ⟨y, w⟩ := f
        simp only [Dict.keys_cons, List.cons.injEq] at hk
        obtain ⟨rfl, hk⟩ := hk
        have h0 := h x
        simp only [Dict.get?, if_true, Option.some.injEq] at h0
        subst h0
        simp only [Dict.WF, Dict.keys_cons, List.nodup_cons] at ha
        have : a = b := by
          apply ih b ha.2 _ hk
          intro k
          by_cases hxk : x = k
          · subst hxk
            have h1 : Dict.get? a x = none := (Dict.get?_eq_none a x).2 ha.1
            have h2 : Dict.get? b x = none := (Dict.get?_eq_none b x).2 (hk ▸ ha.1)
            rw [h1, h2]
          · have := h k
            simpa [Dict.get?, hxk] using this
        rw [this]
  rw [this]

example : Dict.WF [(1, 'a'), (2, 'b')] := by simp [Dict.WF, Dict.keys]

end PB.DictProps
