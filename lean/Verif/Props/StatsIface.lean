import Mathlib.Tactic.Linarith
import Mathlib.Data.Finset.Card
import Verif.Model.StatsIface

set_option linter.unusedSimpArgs false
set_option linter.unusedVariables false
set_option linter.unnecessarySimpa false
set_option linter.unnecessarySeqFocus false

/-!
# Properties of the statistics interfaces (C186-C188)
-/

namespace PB.SIProps

open PB.SI

/-! ### Specification -/

/-- The value occurs in the column. -/
def Occurs (d : Data) (c : Col) (v : Rat) : Prop := ∃ r ∈ d c.1, r c.2 = some v

/-- The number of rows that have the value (or NULL) in the column. -/
def freq (d : Data) (c : Col) (v : V) : Nat := (d c.1).countP fun r => r c.2 == v

/-- The number of different values of a column, without NULL. -/
def IsDistinctCount (d : Data) (c : Col) (n : Nat) : Prop := ∃ S : Finset Rat, (∀ v, v ∈ S ↔ Occurs d c v) ∧ n = S.card

/-- A cache that has been filled by calls of the interface while the data was the same. -/
inductive Used (d : Data) (conf : Conf) : Cache → Prop
  | start : Used d conf []
  | rows (cache t flag) : Used d conf cache → Used d conf (calcTotalRows d conf cache t flag).2
  | distinct (cache c flag) : Used d conf cache → Used d conf (calcDistinct d conf cache c flag).2
  | minMax (cache c flag) : Used d conf cache → Used d conf (calcMinMax d conf cache c flag).2
  | mcv (cache c k flag) : Used d conf cache → Used d conf (mostCommonValues d conf cache c k flag).2

/-- The call does not use the cache, or the data has not been changed since the cache was empty. -/
def UpToDate (d : Data) (conf : Conf) (cache : Cache) (flag : Option Bool) : Prop := flag = some false ∨ Used d conf cache

/-! ### Helpers -/

theorem mem_col (d : Data) (c : Col) (v : Rat) : some v ∈ colValues d c ↔ Occurs d c v := by
  simp [colValues, Occurs]

theorem count_col (d : Data) (c : Col) (v : V) : (colValues d c).count v = freq d c v := by
  simp [colValues, freq, List.count, List.countP_map, Function.comp_def]

theorem execute_coherent (d : Data) (cache : Cache) (q : Sql) (b : Bool)
    (h : ∀ q r, Dict.get? cache q = some r → r = answer d q) :
    (execute d cache q b).1 = answer d q ∧ ∀ q' r, Dict.get? (execute d cache q b).2 q' = some r → r = answer d q' := by
  unfold execute
  cases b
  · exact ⟨rfl, h⟩
  · simp only [if_true]
    cases hg : Dict.get? cache q with
    | some r => exact ⟨h q r hg, h⟩
    | none =>
      refine ⟨rfl, ?_⟩
      intro q' r hr
      simp only [Dict.get?_set] at hr
      split at hr
      · rename_i he
        simp only [Option.some.injEq] at hr
        rw [← hr, he]
      · exact h q' r hr

theorem mostCommonValues_snd (d : Data) (conf : Conf) (cache : Cache) (c : Col) (k : Option Int) (flag : Option Bool) :
    (mostCommonValues d conf cache c k flag).2 = (calcMcv d conf cache c k flag).2 := by
  unfold mostCommonValues
  split <;> rename_i h <;> simp [h]

theorem used_coherent {d : Data} {conf : Conf} {cache : Cache} (h : Used d conf cache) :
    ∀ q r, Dict.get? cache q = some r → r = answer d q := by
  induction h with
  | start => intro q r h; simp [Dict.get?] at h
  | rows _ _ _ _ ih => exact (execute_coherent d _ _ _ ih).2
  | distinct _ _ _ _ ih => exact (execute_coherent d _ _ _ ih).2
  | minMax _ _ _ _ ih => exact (execute_coherent d _ _ _ ih).2
  | mcv _ _ _ _ _ ih =>
    rw [mostCommonValues_snd]
    exact (execute_coherent d _ _ _ ih).2

theorem execute_eq {d : Data} {conf : Conf} {cache : Cache} {flag : Option Bool} (h : UpToDate d conf cache flag) (q : Sql) :
    (execute d cache q (caching conf flag)).1 = answer d q := by
  rcases h with rfl | h
  · rfl
  · exact (execute_coherent d cache q _ (used_coherent h)).1

/-! ### Emulated statistics (C186) -/

/-- C186 (partial: no change of the data since the cache was empty, or no use of the cache): `total_rows` is the number of rows. -/
theorem C186_rows_partial (d : Data) (conf : Conf) (cache : Cache) (t : Nat) (flag : Option Bool)
    (h : UpToDate d conf cache flag) : (calcTotalRows d conf cache t flag).1 = .count (d t).length := execute_eq h _

/-- C186 (partial as above): `num_distinct` is the number of different values that are not NULL. -/
theorem C186_distinct_partial (d : Data) (conf : Conf) (cache : Cache) (c : Col) (flag : Option Bool)
    (h : UpToDate d conf cache flag) : ∃ n, (calcDistinct d conf cache c flag).1 = .count n ∧ IsDistinctCount d c n := by
  refine ⟨_, execute_eq h _, ((colValues d c).filterMap id).toFinset, ?_, ?_⟩
  · intro v
    simp only [List.mem_toFinset, List.mem_filterMap, id_eq, exists_eq_right, mem_col]
  · rw [List.card_toFinset]

theorem foldl_min (l : List Rat) (a : Rat) :
    (l.foldl min a ∈ a :: l) ∧ ∀ x ∈ a :: l, l.foldl min a ≤ x := by
  induction l generalizing a with
  | nil => simp
  | cons b l ih =>
    obtain ⟨h1, h2⟩ := ih (min a b)
    simp only [List.foldl_cons]
    constructor
    · rcases List.mem_cons.mp h1 with h1 | h1
      · rw [h1]
        rcases min_choice a b with h | h <;> simp [h]
      · simp [h1]
    · intro x hx
      simp only [List.mem_cons] at hx
      have h3 := h2 (min a b) (by simp)
      rcases hx with rfl | rfl | hx
      · exact h3.trans (min_le_left _ _)
      · exact h3.trans (min_le_right _ _)
      · exact h2 x (by simp [hx])

theorem foldl_max (l : List Rat) (a : Rat) :
    (l.foldl max a ∈ a :: l) ∧ ∀ x ∈ a :: l, x ≤ l.foldl max a := by
  induction l generalizing a with
  | nil => simp
  | cons b l ih =>
    obtain ⟨h1, h2⟩ := ih (max a b)
    simp only [List.foldl_cons]
    constructor
    · rcases List.mem_cons.mp h1 with h1 | h1
      · rw [h1]
        rcases max_choice a b with h | h <;> simp [h]
      · simp [h1]
    · intro x hx
      simp only [List.mem_cons] at hx
      have h3 := h2 (max a b) (by simp)
      rcases hx with rfl | rfl | hx
      · exact (le_max_left _ _).trans h3
      · exact (le_max_right _ _).trans h3
      · exact h2 x (by simp [hx])

/-- C186 (partial as above): `min_max` are the smallest and the largest value of the column; both are NULL iff there is none. -/
theorem C186_min_max_partial (d : Data) (conf : Conf) (cache : Cache) (c : Col) (flag : Option Bool)
    (h : UpToDate d conf cache flag) : ∃ lo hi, (calcMinMax d conf cache c flag).1 = .pair lo hi ∧
      ((∀ v, ¬ Occurs d c v) → lo = none ∧ hi = none) ∧
      ((∃ v, Occurs d c v) → ∃ a b, lo = some a ∧ hi = some b ∧ Occurs d c a ∧ Occurs d c b ∧
        ∀ v, Occurs d c v → a ≤ v ∧ v ≤ b) := by
  have hm : ∀ v, v ∈ (colValues d c).filterMap id ↔ Occurs d c v := by
    intro v
    simp only [List.mem_filterMap, id_eq, exists_eq_right, mem_col]
  refine ⟨_, _, execute_eq h _, ?_, ?_⟩
  · intro hno
    have : (colValues d c).filterMap id = [] := by
      by_contra hne
      obtain ⟨x, hx⟩ := List.exists_mem_of_ne_nil _ hne
      exact hno x ((hm x).mp hx)
    rw [this]
    exact ⟨rfl, rfl⟩
  · rintro ⟨v, hv⟩
    have hv' := (hm v).mpr hv
    cases hl : (colValues d c).filterMap id with
    | nil => rw [hl] at hv'; simp at hv'
    | cons a l =>
      rw [hl] at hm
      obtain ⟨h1, h2⟩ := foldl_min l a
      obtain ⟨h3, h4⟩ := foldl_max l a
      exact ⟨_, _, rfl, rfl, (hm _).mp h1, (hm _).mp h3, fun v hv => ⟨h2 v ((hm v).mpr hv), h4 v ((hm v).mpr hv)⟩⟩

theorem valueLe_total (a b : V) : valueLe a b = true ∨ valueLe b a = true := by
  cases a <;> cases b <;> simp [valueLe]
  exact le_total _ _

theorem valueLe_trans (a b c : V) (h1 : valueLe a b = true) (h2 : valueLe b c = true) : valueLe a c = true := by
  cases a <;> cases b <;> cases c <;> simp [valueLe] at h1 h2 ⊢
  exact le_trans h1 h2

instance : Std.Total groupBefore := ⟨by
  intro a b
  unfold groupBefore
  rcases lt_trichotomy a.2 b.2 with h | h | h
  · exact .inr (.inl h)
  · rcases valueLe_total a.1 b.1 with h2 | h2
    · exact .inl (.inr ⟨h.symm, h2⟩)
    · exact .inr (.inr ⟨h, h2⟩)
  · exact .inl (.inl h)⟩

instance : IsTrans (V × Nat) groupBefore := ⟨by
  intro a b c h1 h2
  unfold groupBefore at *
  rcases h1 with h1 | ⟨h1, h1'⟩ <;> rcases h2 with h2 | ⟨h2, h2'⟩
  · exact .inl (h2.trans h1)
  · exact .inl (h2 ▸ h1)
  · exact .inl (h1 ▸ h2)
  · exact .inr ⟨h2.trans h1, valueLe_trans _ _ _ h1' h2'⟩⟩

instance : Std.Total mcvBefore := ⟨by
  intro a b
  unfold mcvBefore
  rcases lt_trichotomy a.2 b.2 with h | h | h
  · exact .inr (.inl h)
  · rcases valueLe_total a.1 b.1 with h2 | h2
    · exact .inr (.inr ⟨h, h2⟩)
    · exact .inl (.inr ⟨h.symm, h2⟩)
  · exact .inl (.inl h)⟩

instance : IsTrans (V × Nat) mcvBefore := ⟨by
  intro a b c h1 h2
  unfold mcvBefore at *
  rcases h1 with h1 | ⟨h1, h1'⟩ <;> rcases h2 with h2 | ⟨h2, h2'⟩
  · exact .inl (h2.trans h1)
  · exact .inl (h2 ▸ h1)
  · exact .inl (h1 ▸ h2)
  · exact .inr ⟨h2.trans h1, valueLe_trans _ _ _ h2' h1'⟩⟩

/-- The rows of the query for the most common values. -/
def topGroups (d : Data) (c : Col) (k : Option Int) : List (V × Nat) :=
  match mcvLimit k with
  | none => (groups (colValues d c)).insertionSort groupBefore
  | some k => ((groups (colValues d c)).insertionSort groupBefore).take k

theorem mostCommonValues_eq {d : Data} {conf : Conf} {cache : Cache} {flag : Option Bool} (h : UpToDate d conf cache flag)
    (c : Col) (k : Option Int) : (mostCommonValues d conf cache c k flag).1 = mcvObject (topGroups d c k) := by
  have he : (calcMcv d conf cache c k flag).1 = .groups (topGroups d c k) := by
    refine (execute_eq h _).trans ?_
    unfold topGroups
    simp only [answer]
    cases mcvLimit k <;> rfl
  unfold mostCommonValues
  split
  · rename_i l cache' h1
    rw [h1] at he
    simp only [Res.groups.injEq] at he
    rw [he]
  · rename_i r cache' h1 h2
    rw [h2] at he
    exact absurd he (by intro he; exact h1 _ he)

theorem topGroups_spec (d : Data) (c : Col) (k : Option Int) :
    ∃ rest, (topGroups d c k ++ rest).Perm (groups (colValues d c)) ∧
      (∀ e ∈ topGroups d c k, ∀ x ∈ rest, x.2 ≤ e.2) ∧
      (topGroups d c k).length = (match mcvLimit k with
        | none => (colValues d c).dedup.length
        | some n => min n (colValues d c).dedup.length) := by
  have hs := List.pairwise_insertionSort groupBefore (groups (colValues d c))
  have hp := List.perm_insertionSort groupBefore (groups (colValues d c))
  have hl : ((groups (colValues d c)).insertionSort groupBefore).length = (colValues d c).dedup.length := by
    rw [hp.length_eq]; simp [groups]
  unfold topGroups
  cases mcvLimit k with
  | none => exact ⟨[], by simpa using hp, by simp, hl⟩
  | some n =>
    refine ⟨((groups (colValues d c)).insertionSort groupBefore).drop n, by simpa using hp, ?_, ?_⟩
    · intro e he x hx
      rw [← List.take_append_drop n ((groups (colValues d c)).insertionSort groupBefore)] at hs
      rcases (List.pairwise_append.mp hs).2.2 e he x hx with h | h
      · exact Nat.le_of_lt h
      · exact Nat.le_of_eq h.1
    · simp only [List.length_take, hl]

/-- C186 (partial: as above, and no value is exactly as frequent as NULL): `most_common_values` lists different values with their
frequencies, in descending order; there are `k` of them (all of them, if there are less or if `k` is not positive), and no other
value is more frequent than a listed one. -/
theorem C186_mcv_partial (d : Data) (conf : Conf) (cache : Cache) (c : Col) (k : Option Int) (flag : Option Bool)
    (h : UpToDate d conf cache flag) (hnull : ∀ v, Occurs d c v → freq d c (some v) ≠ freq d c none) :
    ∃ l, (mostCommonValues d conf cache c k flag).1 = some l ∧ (l.map (·.1)).Nodup ∧
      (∀ e ∈ l, 0 < e.2 ∧ e.2 = freq d c e.1) ∧ l.Pairwise (fun a b => b.2 ≤ a.2) ∧
      (∀ v, v ∉ l.map (·.1) → ∀ e ∈ l, freq d c v ≤ e.2) ∧
      (∀ n : Nat, k = some (n : Int) → 0 < n → l.length ≤ n ∧ (l.length < n → ∀ v, 0 < freq d c v → v ∈ l.map (·.1))) ∧
      ((k = none ∨ ∃ z, k = some z ∧ z ≤ 0) → ∀ v, 0 < freq d c v → v ∈ l.map (·.1)) := by
  obtain ⟨rest, hp, hrest, hlen⟩ := topGroups_spec d c k
  have hg : ∀ e, e ∈ groups (colValues d c) ↔ e.1 ∈ colValues d c ∧ e.2 = freq d c e.1 := by
    intro e
    simp only [groups, List.mem_map, List.mem_dedup]
    constructor
    · rintro ⟨v, hv, rfl⟩
      exact ⟨hv, count_col d c v⟩
    · rintro ⟨h1, h2⟩
      exact ⟨e.1, h1, by rw [count_col, ← h2]⟩
  have hpos : ∀ v, v ∈ colValues d c ↔ 0 < freq d c v := by
    intro v
    rw [← count_col, List.count_pos_iff]
  have hmemT : ∀ e ∈ topGroups d c k, e.1 ∈ colValues d c ∧ e.2 = freq d c e.1 := fun e he =>
    (hg e).mp (hp.mem_iff.mp (List.mem_append_left _ he))
  have hno : sortRaises (topGroups d c k) = false := by
    by_contra hcon
    simp only [Bool.not_eq_false, sortRaises, List.any_eq_true, Bool.and_eq_true, beq_iff_eq] at hcon
    obtain ⟨a, ha, han, b, hb, hbs, hab⟩ := hcon
    obtain ⟨v, hv⟩ := Option.isSome_iff_exists.mp hbs
    have h1 := (hmemT a ha).2
    have h2 := hmemT b hb
    rw [Option.isNone_iff_eq_none.mp han] at h1
    rw [hv] at h2
    exact hnull v ((mem_col d c v).mp h2.1) (by rw [← h2.2, ← h1, hab])
  have hperm := List.perm_insertionSort mcvBefore (topGroups d c k)
  have hsort := List.pairwise_insertionSort mcvBefore (topGroups d c k)
  have hnod : ((groups (colValues d c)).map (·.1)).Nodup := by
    simp only [groups, List.map_map, Function.comp_def, List.map_id']
    exact List.nodup_dedup _
  have hall : ∀ v, 0 < freq d c v → rest = [] → v ∈ (topGroups d c k).map (·.1) := by
    intro v hv hr
    have : (v, freq d c v) ∈ topGroups d c k ++ rest := hp.mem_iff.mpr ((hg _).mpr ⟨(hpos v).mpr hv, rfl⟩)
    rw [hr, List.append_nil] at this
    exact List.mem_map.mpr ⟨_, this, rfl⟩
  have hrestlen : (topGroups d c k).length + rest.length = (colValues d c).dedup.length := by
    have := hp.length_eq
    simpa [groups] using this
  refine ⟨_, by rw [mostCommonValues_eq h]; simp [mcvObject, hno]; rfl, ?_, ?_, ?_, ?_, ?_, ?_⟩
  · refine ((hperm.map (·.1)).nodup_iff).mpr ?_
    have := ((hp.map (·.1)).nodup_iff).mpr hnod
    rw [List.map_append] at this
    exact (List.nodup_append.mp this).1
  · intro e he
    obtain ⟨h1, h2⟩ := hmemT e (hperm.mem_iff.mp he)
    exact ⟨h2 ▸ (hpos _).mp h1, h2⟩
  · refine hsort.imp ?_
    rintro a b (h | h)
    · exact Nat.le_of_lt h
    · exact Nat.le_of_eq h.1
  · intro v hv e he
    by_cases h0 : freq d c v = 0
    · omega
    · have : (v, freq d c v) ∈ topGroups d c k ++ rest :=
        hp.mem_iff.mpr ((hg _).mpr ⟨(hpos v).mpr (by omega), rfl⟩)
      rcases List.mem_append.mp this with h1 | h1
      · exact absurd (((hperm.map (·.1)).mem_iff).mpr (List.mem_map.mpr ⟨_, h1, rfl⟩)) hv
      · exact hrest e (hperm.mem_iff.mp he) _ h1
  · intro n hk hn
    rw [hperm.length_eq]
    have hl : mcvLimit k = some n := by
      rw [hk]; simp only [mcvLimit]; rw [if_neg (by omega)]; simp
    rw [hl] at hlen
    simp only at hlen
    refine ⟨by omega, ?_⟩
    intro hlt v hv
    rw [(hperm.map (·.1)).mem_iff]
    exact hall v hv (List.eq_nil_of_length_eq_zero (by omega))
  · intro hk v hv
    rw [(hperm.map (·.1)).mem_iff]
    have hl : mcvLimit k = none := by
      rcases hk with rfl | ⟨z, rfl, hz⟩
      · rfl
      · simp [mcvLimit, hz]
    rw [hl] at hlen
    simp only at hlen
    exact hall v hv (List.eq_nil_of_length_eq_zero (by omega))

/-- C186 (partial as above): the bound that a non-empty list gives for the frequency of a value is never too small. -/
theorem C186_bound_partial (d : Data) (conf : Conf) (cache : Cache) (c : Col) (k : Option Int) (flag : Option Bool)
    (h : UpToDate d conf cache flag) (hnull : ∀ v, Occurs d c v → freq d c (some v) ≠ freq d c none) (l : List (V × Nat))
    (hl : (mostCommonValues d conf cache c k flag).1 = some l) (hne : l ≠ []) (v : Rat) :
    freq d c (some v) ≤ frequencyBound l v := by
  obtain ⟨l', hl', hnod, hfr, hs, hmiss, -, -⟩ := C186_mcv_partial d conf cache c k flag h hnull
  rw [hl] at hl'
  simp only [Option.some.injEq] at hl'
  subst hl'
  unfold frequencyBound
  split
  · rename_i e he
    have h1 := List.find?_some he
    simp only [beq_iff_eq] at h1
    rw [← h1]
    exact Nat.le_of_eq (hfr e (List.mem_of_find?_eq_some he)).2.symm
  · rename_i hf
    rw [List.getLast?_eq_some_getLast hne]
    simp only [Option.map_some, Option.getD_some]
    refine hmiss (some v) ?_ _ (List.getLast_mem hne)
    intro hm
    obtain ⟨e, he, hev⟩ := List.mem_map.mp hm
    have := List.find?_eq_none.mp hf e he
    simp [hev] at this

/-- Data: one table with two columns; NULL occurs in the second. -/
def exD : Data := fun t =>
  if t = 0 then [fun i => if i = 0 then some 1 else some 5, fun i => if i = 0 then some 1 else none,
    fun i => if i = 0 then some 2 else none, fun i => if i = 0 then some 3 else some 5] else []

example : UpToDate exD {} [] none ∧ (∀ v, Occurs exD (0, 0) v → freq exD (0, 0) (some v) ≠ freq exD (0, 0) none) := by
  refine ⟨Or.inr .start, ?_⟩
  intro v hv
  have h0 : freq exD (0, 0) none = 0 := by decide +kernel
  rw [h0, ← count_col]
  exact Nat.pos_iff_ne_zero.mp (List.count_pos_iff.mpr ((mem_col _ _ _).mpr hv))

example : (mostCommonValues exD {} [] (0, 0) (some 2) none).1 = some [(some 1, 2), (some 2, 1)] := by decide +kernel

/-- C186 violated (NULL): if some value is exactly as frequent as NULL, the list of all values cannot be computed. -/
theorem C186_null_violated (d : Data) (conf : Conf) (cache : Cache) (c : Col) (v : Rat)
    (h1 : 0 < freq d c none) (h2 : freq d c (some v) = freq d c none) :
    (mostCommonValues d conf cache c none (some false)).1 = none := by
  have hin : ∀ w, 0 < freq d c w → (w, freq d c w) ∈ topGroups d c none := by
    intro w hw
    refine (List.perm_insertionSort groupBefore (groups (colValues d c))).mem_iff.mpr ?_
    simp only [groups, List.mem_map, List.mem_dedup]
    exact ⟨w, by rw [← List.count_pos_iff, count_col]; exact hw, by rw [count_col]⟩
  rw [mostCommonValues_eq (Or.inl rfl)]
  have : sortRaises (topGroups d c none) = true := by
    simp only [sortRaises, List.any_eq_true, Bool.and_eq_true, beq_iff_eq]
    exact ⟨_, hin none h1, rfl, _, hin (some v) (by omega), rfl, h2⟩
  simp [mcvObject, this]

example : 0 < freq exD (0, 1) none ∧ freq exD (0, 1) (some 5) = freq exD (0, 1) none := by decide +kernel

/-- C186 violated (stale): with the default configuration a statistic is never updated, however the data changes. -/
theorem C186_stale_violated (d d' : Data) (t : Nat) :
    (calcTotalRows d' {} (calcTotalRows d {} [] t none).2 t none).1 = .count (d t).length := by
  simp [calcTotalRows, execute, caching, Dict.get?, Dict.set, answer]

/-- C186 violated (histograms): even if the cache is disabled for a histogram, its number of rows is taken from the cache. -/
theorem C186_histogram_violated (d d' : Data) (c : Col) :
    (histogramRows d' {} (calcTotalRows d {} [] c.1 none).2 c (some false)).1 = .count (d c.1).length :=
  C186_stale_violated d d' c.1

/-! ### The catalog of Postgres (C187) -/

theorem pyInt_natCast (n : Nat) : pyInt (n : Rat) = n := by
  unfold pyInt
  rw [if_pos (by exact_mod_cast Nat.zero_le n)]
  exact_mod_cast Int.floor_natCast (R := Rat) n

theorem analyzed_rows (d : Data) (est : Data → Col → Rat) (pg : Pg) (cols : List Col) (c : Col) (hc : c ∈ cols) :
    pgTotalRows (analyze d est pg cols) c.1 = (d c.1).length := by
  have : cols.any (fun x => x.1 == c.1) = true := List.any_eq_true.mpr ⟨c, hc, by simp⟩
  simp only [pgTotalRows, analyze, this, if_true]
  exact pyInt_natCast _

/-- C187 (partial: the estimate of Postgres is exact, in one of the two forms that Postgres uses; arithmetic without rounding): after
`ANALYZE`, the statistics are the number of rows and of different values. -/
theorem C187_analyzed_partial (d : Data) (est : Data → Col → Rat) (conf : Conf) (cache : Cache) (pg : Pg) (cols : List Col) (c : Col)
    (hc : c ∈ cols) (ho : pg.override c = 0) (n : Nat) (hn : IsDistinctCount d c n)
    (hest : est d c = n ∨ (0 < (d c.1).length ∧ est d c = -((n : Rat) / ((d c.1).length : Rat)))) :
    pgTotalRows (updateStatistics d est conf cache pg cols false).1 c.1 = (d c.1).length ∧
    pgDistinct (updateStatistics d est conf cache pg cols false).1 c = some (n : Int) := by
  have e : (updateStatistics d est conf cache pg cols false).1 = analyze d est pg cols := rfl
  rw [e]
  have hrows := analyzed_rows d est pg cols c hc
  refine ⟨hrows, ?_⟩
  have hd : (analyze d est pg cols).nDistinct c = some (est d c) := by
    simp [analyze, hc, ho]
  unfold pgDistinct
  rw [hd, hrows]
  simp only
  rcases hest with h | ⟨h0, h⟩
  · rw [h, if_pos (by exact_mod_cast Nat.zero_le n), pyInt_natCast]
  · have hN : ((d c.1).length : Rat) ≠ 0 := by exact_mod_cast (Nat.pos_iff_ne_zero.mp h0)
    by_cases hz : 0 ≤ est d c
    · rw [if_pos hz]
      have hn0 : (n : Rat) / ((d c.1).length : Rat) = 0 := by
        have h1 : 0 ≤ (n : Rat) / ((d c.1).length : Rat) := div_nonneg (by exact_mod_cast Nat.zero_le n) (by exact_mod_cast Nat.zero_le _)
        rw [h] at hz
        linarith
      have hnz : (n : Rat) = 0 := by
        rcases div_eq_zero_iff.mp hn0 with h | h
        · exact h
        · exact absurd h hN
      have hnz' : n = 0 := by exact_mod_cast hnz
      rw [h, hnz']
      simp [pyInt]
    · rw [if_neg hz, h]
      have : -1 * (((d c.1).length : Int) : Rat) * -((n : Rat) / ((d c.1).length : Rat)) = n := by
        push_cast
        field_simp
      rw [this, pyInt_natCast]

example : IsDistinctCount exD (0, 0) 3 ∧ 0 < (exD 0).length := by
  refine ⟨⟨{1, 2, 3}, ?_, by decide +kernel⟩, by decide⟩
  intro v
  simp [Occurs, exD]
  constructor
  · rintro (h | h | h) <;> simp [h]
  · rintro (h | h | h) <;> simp [h]

/-- C187 (partial): a rounding error of the stored ratio that changes the number of values by less than one makes the statistic at
most one too small. -/
theorem C187_rounding_partial (pg : Pg) (c : Col) (N D : Nat) (hD : 1 ≤ D) (hN : pg.reltuples c.1 = N) (h0 : 0 < N) (x : Rat)
    (hx : pg.nDistinct c = some x) (hneg : x < 0) (hr : |(N : Rat) * x + D| < 1) :
    pgDistinct pg c = some (D : Int) ∨ pgDistinct pg c = some ((D : Int) - 1) := by
  have hrows : pgTotalRows pg c.1 = N := by simp only [pgTotalRows, hN, pyInt_natCast]
  unfold pgDistinct
  rw [hx]
  simp only [if_neg (not_le.mpr hneg), hrows]
  have hval : -1 * (((N : Int)) : Rat) * x = -((N : Rat) * x) := by push_cast; ring
  rw [hval]
  obtain ⟨h1, h2⟩ := abs_lt.mp hr
  have hpos : 0 ≤ -((N : Rat) * x) := by
    have : (0 : Rat) < N := by exact_mod_cast h0
    nlinarith
  unfold pyInt
  rw [if_pos hpos]
  have hlt : ⌊-((N : Rat) * x)⌋ < (D : Int) + 1 := by
    rw [Int.floor_lt]; push_cast; linarith
  have hge : (D : Int) - 1 ≤ ⌊-((N : Rat) * x)⌋ := by
    rw [Int.le_floor]; push_cast; linarith
  have : ⌊-((N : Rat) * x)⌋ = (D : Int) ∨ ⌊-((N : Rat) * x)⌋ = (D : Int) - 1 := by omega
  rcases this with h | h
  · left; rw [h]
  · right; rw [h]

/-- C187 violated (rounding): of 29 different values among 100 rows, 28 are reported: the ratio 0.29 is stored as the floating
point number below. -/
theorem C187_rounding_violated :
    pgDistinct ⟨fun _ => 100, fun _ => some (-(5224175567749775 / 18014398509481984)), fun _ => 0⟩ (0, 0) = some 28 ∧
    |(100 : Rat) * -(5224175567749775 / 18014398509481984) + (29 : Nat)| < 1 := by
  constructor
  · unfold pgDistinct pgTotalRows pyInt
    norm_num
  · rw [abs_lt]; constructor <;> norm_num

/-- C187 violated (before the first ANALYZE): the number of rows is reported as -1. -/
theorem C187_fresh_violated (t : Nat) (c : Col) : pgTotalRows Pg.fresh t = -1 ∧ pgDistinct Pg.fresh c = none := by
  refine ⟨?_, rfl⟩
  unfold pgTotalRows pyInt Pg.fresh
  norm_num

theorem setOptions_nDistinct (pg : Pg) (l : List (Col × Nat)) :
    (setOptions pg l).nDistinct = pg.nDistinct ∧ (setOptions pg l).reltuples = pg.reltuples := by
  induction l generalizing pg with
  | nil => exact ⟨rfl, rfl⟩
  | cons a l ih => exact ⟨(ih _).1, (ih _).2⟩

theorem setOptions_override (pg : Pg) (l : List (Col × Nat)) (c : Col) (n : Nat) (hl : ∀ e ∈ l, e.1 = c → e.2 = n)
    (hm : (∃ e ∈ l, e.1 = c) ∨ pg.override c = n) : (setOptions pg l).override c = n := by
  induction l generalizing pg with
  | nil => simpa [setOptions] using hm
  | cons a l ih =>
    obtain ⟨a1, a2⟩ := a
    simp only [setOptions]
    refine ih _ (fun e he => hl e (by simp [he])) ?_
    by_cases hac : c = a1
    · right
      simp only [hac, if_true]
      exact hl (a1, a2) (by simp) hac.symm
    · simp only [hac, if_false]
      rcases hm with ⟨e, he, hec⟩ | h
      · rcases List.mem_cons.mp he with rfl | he
        · exact absurd hec.symm hac
        · exact Or.inl ⟨e, he, hec⟩
      · exact Or.inr h

/-- C187 violated (perfect numbers): `perfect_n_distinct` has no effect on the statistics that the call produces: the options are
set after the columns have been analyzed. -/
theorem C187_perfect_violated (d : Data) (est : Data → Col → Rat) (conf : Conf) (cache : Cache) (pg : Pg) (cols : List Col)
    (c : Col) : pgDistinct (updateStatistics d est conf cache pg cols true).1 c =
      pgDistinct (updateStatistics d est conf cache pg cols false).1 c := by
  have h := setOptions_nDistinct (analyze d est pg cols) (collect d conf cache cols).1
  simp only [updateStatistics, if_true, pgDistinct, pgTotalRows, h.1, h.2]
  rfl

theorem collect_spec (d : Data) (conf : Conf) (cache : Cache) (cols : List Col)
    (h : ∀ q r, Dict.get? cache q = some r → r = answer d q) :
    (collect d conf cache cols).1 = cols.map (fun c => (c, ((colValues d c).filterMap id).dedup.length)) ∧
    ∀ q r, Dict.get? (collect d conf cache cols).2 q = some r → r = answer d q := by
  induction cols generalizing cache with
  | nil => exact ⟨rfl, h⟩
  | cons c cols ih =>
    have he := execute_coherent d cache (.countDistinct c) (caching conf (some true)) h
    have h1 : calcDistinct d conf cache c (some true) =
        (.count ((colValues d c).filterMap id).dedup.length, (execute d cache (.countDistinct c) (caching conf (some true))).2) :=
      Prod.ext he.1 rfl
    obtain ⟨i1, i2⟩ := ih _ he.2
    unfold collect
    rw [h1]
    exact ⟨by simp [i1], i2⟩

/-- C187 (partial: the second of two calls, with no change of the data before and between them, and at least one value): the perfect
number of distinct values is reported, whatever Postgres estimates. -/
theorem C187_twice_partial (d : Data) (est : Data → Col → Rat) (conf : Conf) (cache : Cache) (hu : Used d conf cache) (pg : Pg)
    (cols : List Col) (c : Col) (hc : c ∈ cols) (n : Nat) (hn : IsDistinctCount d c n) (h0 : 0 < n) :
    let r := updateStatistics d est conf cache pg cols true
    pgDistinct (updateStatistics d est conf r.2 r.1 cols true).1 c = some (n : Int) := by
  intro r
  rw [C187_perfect_violated]
  have hcol := (collect_spec d conf cache cols (used_coherent hu)).1
  have hcount : ((colValues d c).filterMap id).dedup.length = n := by
    obtain ⟨S, hS, rfl⟩ := hn
    have : S = ((colValues d c).filterMap id).toFinset := by
      ext v
      rw [hS]
      simp only [List.mem_toFinset, List.mem_filterMap, id_eq, exists_eq_right, mem_col]
    rw [this, List.card_toFinset]
  have hov : r.1.override c = n := by
    refine setOptions_override _ _ c n ?_ (Or.inl ?_)
    · intro e he hec
      rw [hcol] at he
      obtain ⟨x, hx, rfl⟩ := List.mem_map.mp he
      simp only at hec
      subst hec
      exact hcount
    · rw [hcol]
      exact ⟨_, List.mem_map.mpr ⟨c, hc, rfl⟩, rfl⟩
  have : (updateStatistics d est conf r.2 r.1 cols false).1 = analyze d est r.1 cols := rfl
  rw [this]
  have hd : (analyze d est r.1 cols).nDistinct c = some (n : Rat) := by
    have hne : n ≠ 0 := by omega
    simp [analyze, hc, hov, hne]
  unfold pgDistinct
  rw [hd]
  simp only
  rw [if_pos (by exact_mod_cast Nat.zero_le n), pyInt_natCast]

example : Used exD {} [] ∧ IsDistinctCount exD (0, 1) 1 := by
  refine ⟨.start, {5}, ?_, by simp⟩
  intro v
  simp [Occurs, exD]
  constructor
  · intro h; simp [h]
  · intro h; simpa using h.symm

/-- C187 violated (sticky options): once set, the perfect number is reported after each later update of the statistics, even if the
data has changed since. -/
theorem C187_sticky_violated (d d' : Data) (est : Data → Col → Rat) (conf : Conf) (cache : Cache) (hu : Used d conf cache) (pg : Pg)
    (cols : List Col) (c : Col) (hc : c ∈ cols) (n : Nat) (hn : IsDistinctCount d c n) (h0 : 0 < n) :
    let r := updateStatistics d est conf cache pg cols true
    pgDistinct (updateStatistics d' est conf r.2 r.1 cols false).1 c = some (n : Int) := by
  intro r
  have e1 : (updateStatistics d' est conf r.2 r.1 cols false).1 = analyze d' est r.1 cols := rfl
  rw [e1]
  have hcol := (collect_spec d conf cache cols (used_coherent hu)).1
  have hov : r.1.override c = n := by
    have hcount : ((colValues d c).filterMap id).dedup.length = n := by
      obtain ⟨S, hS, rfl⟩ := hn
      have : S = ((colValues d c).filterMap id).toFinset := by
        ext v
        rw [hS]
        simp only [List.mem_toFinset, List.mem_filterMap, id_eq, exists_eq_right, mem_col]
      rw [this, List.card_toFinset]
    refine setOptions_override _ _ c n ?_ (Or.inl ?_)
    · intro e he hec
      rw [hcol] at he
      obtain ⟨x, hx, rfl⟩ := List.mem_map.mp he
      simp only at hec
      subst hec
      exact hcount
    · rw [hcol]
      exact ⟨_, List.mem_map.mpr ⟨c, hc, rfl⟩, rfl⟩
  have hd : (analyze d' est r.1 cols).nDistinct c = some (n : Rat) := by
    have hne : n ≠ 0 := by omega
    simp [analyze, hc, hov, hne]
  unfold pgDistinct
  rw [hd]
  simp only
  rw [if_pos (by exact_mod_cast Nat.zero_le n), pyInt_natCast]

/-! ### Emulation or catalog (C188) -/

/-- C188: a statistic that is asked for with emulation is computed from the data; if emulation is neither asked for nor allowed as a
fallback, no statistic is. -/
theorem C188_source (sys : System) (conf : Conf) (found : Bool) (stat : Stat) :
    source sys conf found stat (some true) = .query ∧
    (conf.fallback = false → source sys conf found stat (some false) ≠ .query) := by
  refine ⟨rfl, ?_⟩
  intro hf
  simp only [source, useEmulation, Option.getD_some, Bool.false_eq_true, if_false, hf]
  cases stat <;> cases sys <;> cases found <;> decide

/-- The catalogs of the systems have this statistic: all know the number of rows, Postgres also distinct values, common values and
histograms, MySQL distinct values. -/
inductive InCatalog : System → Stat → Prop
  | rows (sys) : InCatalog sys .totalRows
  | distinctPg : InCatalog .postgres .distinct
  | mcvPg : InCatalog .postgres .mcv
  | histogramPg : InCatalog .postgres .histogram
  | distinctMy : InCatalog .mysql .distinct

/-- C188: native statistics that the catalog has come from the catalog, with and without fallback; the others are computed from the
data or not supported. Without a choice in the call, the configuration decides. -/
theorem C188_native (sys : System) (conf : Conf) (stat : Stat) :
    (source sys conf true stat (some false) = .catalog ↔ InCatalog sys stat) ∧
    (source sys conf true stat (some false) = .query → conf.fallback = true) ∧
    (∀ found, source sys conf found stat none = source sys conf found stat (some conf.emulated)) := by
  refine ⟨?_, ?_, fun found => rfl⟩
  · simp only [source, useEmulation, Option.getD_some, Bool.false_eq_true, if_false]
    constructor
    · intro h
      cases stat <;> cases sys <;> cases hf : conf.fallback <;> simp [retrieve, hf] at h <;> constructor
    · intro h
      cases h <;> simp [retrieve]
  · intro h
    by_contra hf
    exact (C188_source sys conf true stat).2 (by simpa using hf) h

/-- C188 (partial: not MySQL): if fallbacks are allowed, there is an answer for each statistic. -/
theorem C188_answer_partial (sys : System) (hs : sys ≠ .mysql) (conf : Conf) (hf : conf.fallback = true) (found : Bool) (stat : Stat)
    (emulated : Option Bool) : source sys conf found stat emulated ≠ .unsupported ∧ constructible sys = true := by
  constructor
  · unfold source
    split
    · simp
    · rw [hf]
      cases sys
      · cases stat <;> simp [retrieve]
      · cases stat <;> simp [retrieve]
      · exact absurd rfl hs
  · cases sys
    · decide
    · decide
    · exact absurd rfl hs

example : System.duckdb ≠ .mysql ∧ ({} : Conf).fallback = true := by decide

/-- C188 violated: the statistics interface of MySQL, and so the MySQL interface, cannot be created, since the method for histograms
is missing. -/
theorem C188_mysql_violated : constructible .mysql = false := by decide

end PB.SIProps
