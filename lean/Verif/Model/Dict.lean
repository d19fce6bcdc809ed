import Mathlib.Data.List.Nodup

/-!
Python dictionaries as association lists in insertion order. This is modelling infrastructure: it describes
the semantics of the built-in `dict` (not code of /repo) and is used by the models of the code.
-/

set_option linter.unusedSimpArgs false
set_option linter.unusedSectionVars false

namespace PB

/-- A Python `dict` in insertion order. -/
abbrev Dict (κ ν : Type) := List (κ × ν)

namespace Dict

variable {κ ν μ : Type} [DecidableEq κ]

/-- `d.get(k)` -/
def get? : Dict κ ν → κ → Option ν
  | [], _ => none
  | (k', v) :: d, k => if k' = k then some v else get? d k

/-- `k in d` -/
def has (d : Dict κ ν) (k : κ) : Bool := (get? d k).isSome

/-- `d[k] = v`: overwrite in place or append. -/
def set : Dict κ ν → κ → ν → Dict κ ν
  | [], k, v => [(k, v)]
  | (k', v') :: d, k, v => if k' = k then (k', v) :: d else (k', v') :: set d k v

/-- `del d[k]` / `d.pop(k, None)` -/
def del (d : Dict κ ν) (k : κ) : Dict κ ν := d.filter (fun e => e.1 ≠ k)

/-- `d.keys()` -/
def keys (d : Dict κ ν) : List κ := d.map Prod.fst

/-- `d.values()` -/
def values (d : Dict κ ν) : List ν := d.map Prod.snd

/-- `dict(pairs)` and dictionary comprehensions: later entries overwrite earlier ones. -/
def ofList (l : List (κ × ν)) : Dict κ ν := l.foldl (fun d e => set d e.1 e.2) []

/-- `d.update(e)` / `d | e`-style update. -/
def update (d e : Dict κ ν) : Dict κ ν := e.foldl (fun d e => set d e.1 e.2) d

/-- Keys of a Python dictionary are unique. -/
def WF (d : Dict κ ν) : Prop := d.keys.Nodup

omit [DecidableEq κ] in
@[simp] theorem keys_nil : keys ([] : Dict κ ν) = [] := rfl
omit [DecidableEq κ] in
@[simp] theorem keys_cons (e : κ × ν) (d : Dict κ ν) : keys (e :: d) = e.1 :: keys d := rfl

theorem get?_set (d : Dict κ ν) (k k' : κ) (v : ν) :
    get? (set d k v) k' = if k = k' then some v else get? d k' := by
  induction d with
  | nil => simp [set, get?]
  | cons e d ih =>
    obtain ⟨a, w⟩ := e
    unfold set
    by_cases h : a = k
    · subst h; simp only [if_true, get?]; split <;> rfl
    · rw [if_neg h]
      simp only [get?, ih]
      by_cases h2 : a = k'
      · subst h2; simp [h, Ne.symm h]
      · simp [h2]

theorem get?_eq_none (d : Dict κ ν) (k : κ) : get? d k = none ↔ k ∉ d.keys := by
  induction d with
  | nil => simp [get?]
  | cons e d ih =>
    obtain ⟨a, w⟩ := e
    simp only [get?, keys_cons, List.mem_cons, not_or]
    split
    · rename_i h; simp [h]
    · rename_i h; rw [ih]; exact ⟨fun hh => ⟨fun e => h e.symm, hh⟩, fun hh => hh.2⟩

theorem get?_isSome (d : Dict κ ν) (k : κ) : (get? d k).isSome ↔ k ∈ d.keys := by
  have := get?_eq_none d k
  cases h : get? d k
  · simp [h] at this ⊢; exact this
  · simp [h] at this ⊢; exact this

theorem has_iff (d : Dict κ ν) (k : κ) : has d k = true ↔ k ∈ d.keys := get?_isSome d k

theorem mem_of_get? {d : Dict κ ν} {k : κ} {v : ν} (h : get? d k = some v) : (k, v) ∈ d := by
  induction d with
  | nil => simp [get?] at h
  | cons e d ih =>
    obtain ⟨a, w⟩ := e
    simp only [get?] at h
    split at h
    · rename_i h'; cases h; simp [h']
    · exact List.mem_cons_of_mem _ (ih h)

theorem get?_of_mem {d : Dict κ ν} (hd : WF d) {k : κ} {v : ν} (h : (k, v) ∈ d) : get? d k = some v := by
  induction d with
  | nil => simp at h
  | cons e d ih =>
    obtain ⟨a, w⟩ := e
    simp only [WF, keys_cons, List.nodup_cons] at hd
    rcases List.mem_cons.1 h with h | h
    · cases h; simp [get?]
    · have hk : k ∈ keys d := List.mem_map_of_mem (f := Prod.fst) h
      have : a ≠ k := by intro e; subst e; exact hd.1 hk
      simp only [get?, this, if_false]
      exact ih hd.2 h

theorem get?_iff_mem {d : Dict κ ν} (hd : WF d) {k : κ} {v : ν} : get? d k = some v ↔ (k, v) ∈ d :=
  ⟨mem_of_get?, get?_of_mem hd⟩

theorem mem_keys_set (d : Dict κ ν) (k k' : κ) (v : ν) :
    k' ∈ (set d k v).keys ↔ k' = k ∨ k' ∈ d.keys := by
  rw [← get?_isSome, get?_set, ← get?_isSome]
  split
  · rename_i h; simp [h]
  · rename_i h
    constructor
    · exact Or.inr
    · rintro (h2 | h2)
      · exact absurd h2.symm h
      · exact h2

theorem WF_nil : WF ([] : Dict κ ν) := List.nodup_nil

theorem WF_set {d : Dict κ ν} (hd : WF d) (k : κ) (v : ν) : WF (set d k v) := by
  induction d with
  | nil => simp [set, WF]
  | cons e d ih =>
    obtain ⟨a, w⟩ := e
    simp only [WF, keys_cons, List.nodup_cons] at hd
    unfold set
    by_cases h : a = k
    · simp only [h, if_true, WF, keys_cons, List.nodup_cons]; subst h; exact hd
    · simp only [h, if_false, WF, keys_cons, List.nodup_cons]
      refine ⟨?_, ih hd.2⟩
      rw [mem_keys_set]
      rintro (h2 | h2)
      · exact h h2
      · exact hd.1 h2

theorem WF_update {d : Dict κ ν} (hd : WF d) (l : List (κ × ν)) : WF (update d l) := by
  unfold update
  induction l generalizing d with
  | nil => exact hd
  | cons e l ih => exact ih (WF_set hd e.1 e.2)

theorem WF_ofList (l : List (κ × ν)) : WF (ofList l) := WF_update WF_nil l

/-- Lookup in an updated dictionary: last matching new entry, otherwise the old value. -/
theorem get?_update_list (d : Dict κ ν) (l : List (κ × ν)) (k : κ) :
    get? (update d l) k = (get? l.reverse k).or (get? d k) := by
  have app : ∀ (a b : List (κ × ν)), get? (a ++ b) k = (get? a k).or (get? b k) := by
    intro a b
    induction a with
    | nil => simp [get?]
    | cons e a ih =>
      obtain ⟨x, w⟩ := e
      simp only [List.cons_append, get?]
      split
      · simp
      · exact ih
  unfold update
  induction l generalizing d with
  | nil => simp [get?]
  | cons e l ih =>
    rw [List.foldl_cons, ih, get?_set, List.reverse_cons, app]
    obtain ⟨x, w⟩ := e
    simp only [get?]
    cases get? l.reverse k <;> simp
    split <;> simp

theorem get?_reverse {l : Dict κ ν} (h : WF l) (k : κ) : get? l.reverse k = get? l k := by
  have hr : WF (l.reverse) := by
    unfold WF keys at *; rw [List.map_reverse]; exact List.nodup_reverse.2 h
  cases hg : get? l k with
  | none =>
    rw [get?_eq_none] at hg ⊢
    simpa [keys] using hg
  | some v =>
    rw [get?_iff_mem hr, List.mem_reverse]
    exact mem_of_get? hg

theorem get?_update (d : Dict κ ν) {e : Dict κ ν} (h : WF e) (k : κ) :
    get? (update d e) k = (get? e k).or (get? d k) := by
  rw [get?_update_list, get?_reverse h]

theorem get?_ofList_wf {l : Dict κ ν} (h : WF l) (k : κ) : get? (ofList l) k = get? l k := by
  have := get?_update [] h k
  simpa [get?, ofList, update] using this

theorem get?_filter (d : Dict κ ν) (p : κ → Bool) (k : κ) :
    get? (d.filter (fun e => p e.1)) k = if p k then get? d k else none := by
  induction d with
  | nil => simp [get?]
  | cons e d ih =>
    obtain ⟨a, w⟩ := e
    by_cases hp : p a = true
    · rw [List.filter_cons_of_pos (by simpa using hp)]
      simp only [get?, ih]
      by_cases h : a = k
      · subst h; simp [hp]
      · simp [h]
    · rw [List.filter_cons_of_neg (by simpa using hp), ih]
      by_cases h : a = k
      · subst h; simp [hp]
      · simp [get?, h]

theorem get?_del (d : Dict κ ν) (k k' : κ) :
    get? (del d k) k' = if k' = k then none else get? d k' := by
  have := get?_filter d (fun x => decide (x ≠ k)) k'
  unfold del
  rw [this]
  by_cases h : k' = k <;> simp [h]

theorem WF_filter {d : Dict κ ν} (hd : WF d) (p : κ × ν → Bool) : WF (d.filter p) := by
  unfold WF keys at *
  exact hd.sublist (List.filter_sublist.map _)

theorem get?_map_val (d : Dict κ ν) (f : κ → ν → μ) (k : κ) :
    get? (d.map (fun e => (e.1, f e.1 e.2))) k = (get? d k).map (f k) := by
  induction d with
  | nil => simp [get?]
  | cons e d ih =>
    obtain ⟨a, w⟩ := e
    simp only [List.map_cons, get?]
    split
    · rename_i h; subst h; simp
    · exact ih

end Dict
end PB
