import Verif.Model.Shifter
import Verif.Props.Cardinality
import Mathlib.Order.WithBot
import Mathlib.Data.List.Perm.Subperm
import Mathlib.Data.List.Perm.Basic

/-!
# Data shifts: properties
-/

set_option linter.unusedSimpArgs false
set_option linter.unusedVariables false
set_option linter.unnecessarySimpa false
set_option linter.unnecessarySeqFocus false

namespace PB.ShifterProps

open PB.Shifter

variable {ρ κ α : Type}

/-! ## Specification -/

/-- NULL as the largest value. -/
def largest : Option α → WithTop α
  | none => ⊤
  | some a => a

/-- NULL as the smallest value. -/
def smallest : Option α → WithBot α
  | none => ⊥
  | some a => a

/-- The value `x` is strictly before `y` in the requested direction. By default, NULL is the largest value; otherwise, it is placed first or last. -/
def Precedes [LinearOrder α] (ascending : Bool) (place : Option Place) (x y : Option α) : Prop :=
  match ascending, place with
  | true, none => largest x < largest y
  | true, some .last => largest x < largest y
  | true, some .first => smallest x < smallest y
  | false, none => largest y < largest x
  | false, some .first => largest y < largest x
  | false, some .last => smallest y < smallest x

/-- The number of rows that have been requested: a positive number, or the share of the rows, rounded to a nearest integer. -/
def Requested (nRows : Option Int) (rowPct : Option Rat) (size : Nat) (n : Nat) : Prop :=
  match nRows, rowPct with
  | some k, none => 0 < k ∧ (n : Int) = k
  | none, some p => 0 < p ∧ p < 1 ∧ |(n : Rat) - p * size| ≤ 1 / 2
  | _, _ => False

/-! ## Lemmas -/

theorem keep_iff {σ : Type} (rows : List ρ) (sel : List σ) (cond : σ → ρ → Bool) (r : ρ) :
    r ∈ deleteExists rows sel cond ↔ r ∈ rows ∧ ∀ s ∈ sel, cond s r = false := by
  simp [deleteExists, List.mem_filter]

theorem delete_sublist {σ : Type} (rows : List ρ) (sel : List σ) (cond : σ → ρ → Bool) : (deleteExists rows sel cond).Sublist rows :=
  List.filter_sublist

/-- Deleting the rows of a list of rows by their keys. -/
theorem delete_keys [DecidableEq κ] (pk : ρ → κ) (rows sel : List ρ) (hn : (rows.map pk).Nodup) (hs : List.Subperm sel rows) (cond : ρ → ρ → Bool)
    (hc : ∀ s ∈ sel, ∀ r ∈ rows, cond s r = true ↔ pk s = pk r) :
    (deleteExists rows sel cond).length = rows.length - sel.length ∧ ∀ r ∈ rows, r ∉ deleteExists rows sel cond ↔ r ∈ sel := by
  have hinj : ∀ a ∈ rows, ∀ b ∈ rows, pk a = pk b → a = b := fun a ha b hb h => List.inj_on_of_nodup_map hn ha hb h
  have hmem : ∀ r ∈ rows, r ∉ deleteExists rows sel cond ↔ r ∈ sel := by
    intro r hr
    rw [keep_iff]
    constructor
    · intro h
      by_contra hns
      apply h
      refine ⟨hr, fun s hs' => ?_⟩
      by_contra hcc
      have : cond s r = true := by simpa using hcc
      have := hinj s (hs.subset hs') r hr ((hc s hs' r hr).mp this)
      exact hns (this ▸ hs')
    · rintro h ⟨_, h2⟩
      have := h2 r h
      rw [(hc r h r hr).mpr rfl] at this
      cases this
  refine ⟨?_, hmem⟩
  have nd : rows.Nodup := List.Nodup.of_map pk hn
  have p1 : (rows.filter fun r => (sel.any fun s => cond s r)).Perm sel := by
    rw [List.perm_ext_iff_of_nodup (nd.filter _)]
    · intro a
      simp only [List.mem_filter]
      constructor
      · rintro ⟨h1, h2⟩
        rw [← hmem a h1, keep_iff]
        rintro ⟨_, h3⟩
        obtain ⟨s, hs1, hs2⟩ := List.any_eq_true.mp h2
        rw [h3 s hs1] at hs2
        cases hs2
      · intro h
        have ha := hs.subset h
        refine ⟨ha, List.any_eq_true.mpr ⟨a, h, (hc a h a ha).mpr rfl⟩⟩
    · obtain ⟨l, hl1, hl2⟩ := hs
      exact hl1.nodup_iff.mp (hl2.nodup nd)
  have l1 := p1.length_eq
  have l2 : rows.length = (rows.filter fun r => (sel.any fun s => cond s r)).length + (deleteExists rows sel cond).length := by
    rw [deleteExists]
    exact List.length_eq_length_filter_add _
  omega

theorem valueLt_spec [LinearOrder α] (asc : Bool) (place : Option Place) (x y : Option α) :
    valueLt asc (nullsFirst asc place) x y = true ↔ Precedes asc place x y := by
  cases asc <;> rcases place with _ | _ | _ <;> cases x <;> cases y <;> simp [valueLt, nullsFirst, Precedes, largest, smallest]

theorem precedes_irrefl [LinearOrder α] (asc : Bool) (place : Option Place) (x : Option α) : ¬ Precedes asc place x x := by
  cases asc <;> rcases place with _ | _ | _ <;> simp [Precedes]

theorem precedes_trans [LinearOrder α] (asc : Bool) (place : Option Place) {x y z : Option α} (h1 : Precedes asc place x y) (h2 : Precedes asc place y z) : Precedes asc place x z := by
  cases asc <;> rcases place with _ | _ | _ <;> simp only [Precedes] at * <;> first | exact lt_trans h1 h2 | exact lt_trans h2 h1

theorem largest_inj {x y : Option α} (h : largest x = largest y) : x = y := by
  cases x <;> cases y <;> simp_all [largest]

theorem smallest_inj {x y : Option α} (h : smallest x = smallest y) : x = y := by
  cases x <;> cases y <;> simp_all [smallest]

theorem precedes_total [LinearOrder α] (asc : Bool) (place : Option Place) (x y : Option α) : Precedes asc place x y ∨ x = y ∨ Precedes asc place y x := by
  cases asc <;> rcases place with _ | _ | _ <;> simp only [Precedes]
  · rcases lt_trichotomy (largest y) (largest x) with h | h | h
    · exact .inl h
    · exact .inr (.inl (largest_inj h.symm))
    · exact .inr (.inr h)
  · rcases lt_trichotomy (largest y) (largest x) with h | h | h
    · exact .inl h
    · exact .inr (.inl (largest_inj h.symm))
    · exact .inr (.inr h)
  · rcases lt_trichotomy (smallest y) (smallest x) with h | h | h
    · exact .inl h
    · exact .inr (.inl (smallest_inj h.symm))
    · exact .inr (.inr h)
  · rcases lt_trichotomy (largest x) (largest y) with h | h | h
    · exact .inl h
    · exact .inr (.inl (largest_inj h))
    · exact .inr (.inr h)
  · rcases lt_trichotomy (smallest x) (smallest y) with h | h | h
    · exact .inl h
    · exact .inr (.inl (smallest_inj h))
    · exact .inr (.inr h)
  · rcases lt_trichotomy (largest x) (largest y) with h | h | h
    · exact .inl h
    · exact .inr (.inl (largest_inj h))
    · exact .inr (.inr h)

theorem rowLe_spec [LinearOrder α] [LinearOrder κ] (pk : ρ → κ) (col : ρ → Option α) (asc : Bool) (place : Option Place) (r s : ρ) :
    rowLe pk col asc (nullsFirst asc place) r s = true ↔ (Precedes asc place (col r) (col s) ∨ (col r = col s ∧ pk r ≤ pk s)) := by
  rw [← valueLt_spec]
  simp [rowLe]

theorem sorted_rows [LinearOrder α] [LinearOrder κ] (pk : ρ → κ) (col : ρ → Option α) (asc : Bool) (place : Option Place) (rows : List ρ) :
    (rows.mergeSort (rowLe pk col asc (nullsFirst asc place))).Pairwise (fun r s => rowLe pk col asc (nullsFirst asc place) r s = true) := by
  apply List.pairwise_mergeSort
  · intro a b c h1 h2
    rw [rowLe_spec] at *
    rcases h1 with h1 | ⟨h1, h1'⟩ <;> rcases h2 with h2 | ⟨h2, h2'⟩
    · exact .inl (precedes_trans _ _ h1 h2)
    · exact .inl (h2 ▸ h1)
    · exact .inl (h1 ▸ h2)
    · exact .inr ⟨h1.trans h2, le_trans h1' h2'⟩
  · intro a b
    rw [Bool.or_eq_true, rowLe_spec, rowLe_spec]
    rcases precedes_total asc place (col a) (col b) with h | h | h
    · exact .inl (.inl h)
    · rcases le_total (pk a) (pk b) with h' | h'
      · exact .inl (.inr ⟨h, h'⟩)
      · exact .inr (.inr ⟨h.symm, h'⟩)
    · exact .inr (.inl h)

/-! ## C209 -/

/-- C209. An ordered removal of `n` rows removes exactly `n` rows (or all rows of smaller tables) and leaves the other rows unchanged. No remaining row is before a removed row in the requested order;
among equal values, the rows with smaller keys are removed. -/
theorem C209_ordered [LinearOrder α] [LinearOrder κ] (pk : ρ → κ) (col : ρ → Option α) (ascending : Bool) (place : Option Place) (n : Nat) (rows : List ρ) (hn : (rows.map pk).Nodup) :
    (removeOrdered pk col ascending place n rows).Sublist rows
    ∧ (removeOrdered pk col ascending place n rows).length = rows.length - n
    ∧ ∀ d ∈ rows, d ∉ removeOrdered pk col ascending place n rows → ∀ k ∈ removeOrdered pk col ascending place n rows,
        Precedes ascending place (col d) (col k) ∨ (col d = col k ∧ pk d < pk k) := by
  have hperm := List.mergeSort_perm rows (rowLe pk col ascending (nullsFirst ascending place))
  have hsorted := sorted_rows pk col ascending place rows
  generalize hs : rows.mergeSort (rowLe pk col ascending (nullsFirst ascending place)) = sorted at *
  have hsub : List.Subperm (sorted.take n) rows := ((List.take_sublist n sorted).subperm).trans hperm.subperm
  have e : removeOrdered pk col ascending place n rows = deleteExists rows (sorted.take n) (fun s r => decide (pk s = pk r)) := by
    simp [removeOrdered, deleteExists, hs, ← List.map_take, List.any_map, Function.comp_def, -List.map_take]
  rw [e]
  obtain ⟨h1, h2⟩ := delete_keys pk rows (sorted.take n) hn hsub (fun s r => decide (pk s = pk r)) (fun s _ r _ => by simp)
  refine ⟨delete_sublist _ _ _, ?_, ?_⟩
  · rw [h1, List.length_take, hperm.length_eq]; omega
  · intro d hd hdn k hk
    have hd' := (h2 d hd).mp hdn
    have hkr := (delete_sublist _ _ _).subset hk
    have hk' : k ∉ sorted.take n := fun h => (h2 k hkr).mpr h hk
    have hk'' : k ∈ sorted.drop n := by
      have : k ∈ sorted := hperm.mem_iff.mpr hkr
      rw [← List.take_append_drop n sorted, List.mem_append] at this
      exact this.resolve_left hk'
    have hp := hsorted
    rw [← List.take_append_drop n sorted, List.pairwise_append] at hp
    have := hp.2.2 d hd' k hk''
    rw [rowLe_spec] at this
    rcases this with h | ⟨h, h'⟩
    · exact .inl h
    · refine .inr ⟨h, lt_of_le_of_ne h' ?_⟩
      intro he
      have := List.inj_on_of_nodup_map hn hd hkr he
      exact hk' (this ▸ hd')

/-- Rows are pairs of keys and values; NULL is removed last, and first in descending order. -/
example : (removeOrdered (Prod.fst : Nat × Option Nat → Nat) Prod.snd true none 2 [(1, none), (2, some 5), (3, some 4)] = [(1, none)])
    ∧ (removeOrdered (Prod.fst : Nat × Option Nat → Nat) Prod.snd false none 1 [(1, none), (2, some 5), (3, some 4)] = [(2, some 5), (3, some 4)])
    ∧ (([(1, none), (2, some 5), (3, some 4)] : List (Nat × Option Nat)).map Prod.fst).Nodup := by
  refine ⟨?_, ?_, ?_⟩ <;> simp [removeOrdered, deleteExists, rowLe, valueLt, nullsFirst, List.mergeSort, List.MergeSort.Internal.splitInTwo, List.merge]

/-- C209. The number of removed rows is the requested one; all invalid requests are errors, and nothing else is an error. -/
theorem C209_count (nRows : Option Int) (rowPct : Option Rat) (size : Nat) :
    (∀ c, rowCount nRows rowPct (some size) = some c → Requested nRows rowPct size c.toNat ∧ (rowPct ≠ none → c.toNat ≤ size))
    ∧ (rowCount nRows rowPct (some size) = none → ∀ n, ¬ Requested nRows rowPct size n) := by
  rcases nRows with _ | k <;> rcases rowPct with _ | p
  · simp [rowCount, Requested]
  · simp only [rowCount, Requested]
    by_cases h : 0 < p ∧ p < 1
    · simp only [h, and_self, if_true]
      refine ⟨?_, by simp⟩
      intro c hc
      obtain rfl : roundHalfEven (p * size) = c := by simpa using hc
      have hr := CardProps.round_close (p * size)
      have hs : (0 : Rat) ≤ size := by exact_mod_cast Nat.zero_le size
      have h0 : (0 : Rat) ≤ p * size := mul_nonneg (le_of_lt h.1) hs
      have hle : p * size ≤ size := by nlinarith [h.2]
      rw [abs_le] at hr
      have hnn : (0 : Int) ≤ roundHalfEven (p * size) := by
        by_contra hneg
        have : roundHalfEven (p * size) ≤ -1 := by omega
        have : (roundHalfEven (p * size) : Rat) ≤ -1 := by exact_mod_cast this
        linarith [hr.1]
      have hcast : ((roundHalfEven (p * size)).toNat : Rat) = (roundHalfEven (p * size) : Rat) := by
        have : ((roundHalfEven (p * size)).toNat : Int) = roundHalfEven (p * size) := Int.toNat_of_nonneg hnn
        exact_mod_cast this
      refine ⟨⟨trivial, trivial, ?_⟩, ?_⟩
      · rw [hcast, abs_le]; exact hr
      · intro _
        by_contra hgt
        have hgt : size + 1 ≤ (roundHalfEven (p * size)).toNat := by omega
        have : ((size : Rat) + 1) ≤ ((roundHalfEven (p * size)).toNat : Rat) := by exact_mod_cast hgt
        rw [hcast] at this
        linarith [hr.2]
    · simp only [h, if_false]
      refine ⟨by simp, ?_⟩
      intro _ n hn
      exact h ⟨hn.1, hn.2.1⟩
  · simp only [rowCount, Requested]
    by_cases h : 0 < k
    · simp [h]
      omega
    · simp [h]
  · simp [rowCount, Requested]

example : rowCount none (some (1/2)) (some 5) = some 2 ∧ rowCount (some 3) none (some 5) = some 3 ∧ rowCount (some 0) none (some 5) = none := by
  refine ⟨?_, by decide, by decide⟩
  decide +kernel

/-- C209. Both parts combined: a request is either an error, or the first rows of the requested order are removed, as many as requested. -/
theorem C209_request [LinearOrder α] [LinearOrder κ] (pk : ρ → κ) (col : ρ → Option α) (ascending : Bool) (place : Option Place) (nRows : Option Int) (rowPct : Option Rat) (rows rows' : List ρ)
    (hn : (rows.map pk).Nodup) (h : removeOrderedN pk col ascending place nRows rowPct rows = some rows') :
    ∃ n, Requested nRows rowPct rows.length n ∧ rows'.Sublist rows ∧ rows'.length = rows.length - n
      ∧ ∀ d ∈ rows, d ∉ rows' → ∀ k ∈ rows', Precedes ascending place (col d) (col k) ∨ (col d = col k ∧ pk d < pk k) := by
  rw [removeOrderedN] at h
  cases hc : rowCount nRows rowPct (some rows.length) with
  | none => simp [hc] at h
  | some c =>
    simp [hc] at h
    subst h
    exact ⟨c.toNat, ((C209_count nRows rowPct rows.length).1 c hc).1, C209_ordered pk col ascending place c.toNat rows hn⟩

example : removeOrderedN (Prod.fst : Nat × Option Nat → Nat) Prod.snd true none (some 7) none [(1, none), (2, some 5)] = some [] := by
  simp [removeOrderedN, rowCount, removeOrdered, deleteExists, rowLe, valueLt, nullsFirst, List.mergeSort, List.MergeSort.Internal.splitInTwo, List.merge]

/-- C209 (partial). A random removal of `n` rows removes exactly the `n` rows with the smallest random values. Missing: primary keys with the names `sample_id` and `_pb_rand_val` (`C209_names_violated`). -/
theorem C209_random_partial [DecidableEq κ] (pkName : String) (hname : pkName ≠ "sample_id" ∧ pkName ≠ "_pb_rand_val") (pk rand : ρ → κ) (order : List ρ) (n : Nat) (rows : List ρ)
    (hn : (rows.map pk).Nodup) (ho : order.Perm rows) :
    (removeRandom pkName pk rand order n rows).Sublist rows
    ∧ (removeRandom pkName pk rand order n rows).length = rows.length - n
    ∧ ∀ r ∈ rows, r ∉ removeRandom pkName pk rand order n rows ↔ r ∈ order.take n := by
  have e : removeRandom pkName pk rand order n rows = deleteExists rows (order.take n) (fun s r => decide (pk s = pk r)) := by
    simp [removeRandom, deleteExists, sampleCond, hname, ← List.map_take, List.any_map, Function.comp_def, -List.map_take]
  rw [e]
  obtain ⟨h1, h2⟩ := delete_keys pk rows (order.take n) hn (((List.take_sublist n order).subperm).trans ho.subperm) (fun s r => decide (pk s = pk r)) (fun s _ r _ => by simp)
  refine ⟨delete_sublist _ _ _, ?_, h2⟩
  rw [h1, List.length_take, ho.length_eq]; omega

/-- C209. Every selection of rows can be removed by a random removal: no rows are excluded. -/
theorem C209_random_any [DecidableEq κ] (pkName : String) (hname : pkName ≠ "sample_id" ∧ pkName ≠ "_pb_rand_val") (pk rand : ρ → κ) (rows sel : List ρ)
    (hn : (rows.map pk).Nodup) (hs : List.Subperm sel rows) :
    ∃ order : List ρ, order.Perm rows ∧ ∀ r ∈ rows, r ∉ removeRandom pkName pk rand order sel.length rows ↔ r ∈ sel := by
  obtain ⟨rest, hp⟩ : ∃ rest, (sel ++ rest).Perm rows := by
    obtain ⟨l, hl1, hl2⟩ := hs
    obtain ⟨rest, h⟩ := hl2.exists_perm_append
    exact ⟨rest, (hl1.symm.append_right rest).trans h.symm⟩
  refine ⟨sel ++ rest, hp, ?_⟩
  intro r hr
  have := (C209_random_partial pkName hname pk rand (sel ++ rest) sel.length rows hn hp).2.2 r hr
  rw [this]
  simp

example : ("id" ≠ "sample_id" ∧ "id" ≠ "_pb_rand_val") ∧ removeRandom "id" (fun n : Nat => n) (fun n => n) [3, 1, 2] 1 [1, 2, 3] = [1, 2] := by decide +kernel

/-- C209 is violated for tables whose primary key is called `sample_id`: all rows are deleted, no matter how many have been requested. If it is called `_pb_rand_val`, either all rows or no rows are deleted.
The reason is that the name of the key in the condition of the DELETE command is not qualified. -/
theorem C209_names_violated [DecidableEq κ] (pk rand : ρ → κ) (order : List ρ) (n : Nat) (hn : 0 < n) (rows : List ρ) (ho : order.Perm rows) :
    removeRandom "sample_id" pk rand order n rows = []
    ∧ (removeRandom "_pb_rand_val" pk rand order n rows = [] ∨ removeRandom "_pb_rand_val" pk rand order n rows = rows) := by
  constructor
  · rw [List.eq_nil_iff_forall_not_mem]
    intro r hr
    simp only [removeRandom, keep_iff] at hr
    obtain ⟨h1, h2⟩ := hr
    cases order with
    | nil => simp at ho; simp [ho] at h1
    | cons a order =>
      obtain ⟨m, rfl⟩ : ∃ m, n = m + 1 := ⟨n - 1, by omega⟩
      have := h2 (pk a, rand a) (by simp)
      simp [sampleCond] at this
  · have hx : ¬ ("_pb_rand_val" = "sample_id") := by decide
    by_cases h : ((order.take n).map fun r => (pk r, rand r)).any (fun s => decide (s.1 = s.2)) = true
    · left
      rw [List.eq_nil_iff_forall_not_mem]
      intro r hr
      simp only [removeRandom, keep_iff] at hr
      obtain ⟨s, hs1, hs2⟩ := List.any_eq_true.mp h
      have := hr.2 s hs1
      simp only [sampleCond, hx, if_false, if_true] at this
      rw [hs2] at this
      cases this
    · right
      simp only [removeRandom, deleteExists, sampleCond, hx, if_false, if_true]
      rw [List.filter_eq_self]
      intro r _
      have h' : ((order.take n).map fun r => (pk r, rand r)).any (fun s => decide (s.1 = s.2)) = false := by simpa only [Bool.not_eq_true] using h
      rw [h']
      rfl

example : removeRandom "sample_id" (fun n : Nat => n) (fun n => n) [3, 1, 2] 1 [1, 2, 3] = [] := by decide +kernel

/-! ## C210 -/

/-- The rows that are expected after the removal of marked values: a row is removed if its value has been marked. -/
def Unmarked (col : ρ → Option α) (marked : List ρ) (r : ρ) : Prop := ∀ m ∈ marked, ∀ v, col r = some v → col m ≠ some v

theorem sqlEq_iff [DecidableEq α] (x y : Option α) : sqlEq x y = true ↔ ∃ v, x = some v ∧ y = some v := by
  cases x <;> cases y <;> simp [sqlEq]
  exact eq_comm

theorem fill_ok (db : Db ρ α) (t c : String) (vals : List (Option α)) (h : ∀ m, db.markers.get? t = some m → m.column = c) :
    ∃ db', fill db t c vals = some db' ∧ db'.rows = db.rows ∧ db'.markers.get? t = some ⟨c, vals⟩ := by
  have hg : (db.markers.set t ⟨c, vals⟩).get? t = some ⟨c, vals⟩ := by rw [Dict.get?_set]; simp
  unfold fill
  split
  · exact ⟨_, rfl, rfl, hg⟩
  · rename_i m hm
    rw [if_pos (h m hm)]
    exact ⟨_, rfl, rfl, hg⟩

theorem remove_ok [DecidableEq α] (col : ρ → Option α) (target tc : String) (table column : Option String) (db : Db ρ α) (sample : List ρ)
    (h : db.markers.get? (markerTable (some target) table) = some ⟨markerColumn (some target) tc column, sample.map col⟩) :
    ∃ db', removeMarked col target tc table column db = some db' ∧ db'.rows.Sublist db.rows ∧ ∀ r, r ∈ db'.rows ↔ r ∈ db.rows ∧ Unmarked col sample r := by
  refine ⟨{ db with rows := deleteExists db.rows (sample.map col) fun v r => sqlEq v (col r) }, by simp [removeMarked, h], delete_sublist _ _ _, ?_⟩
  intro r
  simp only [keep_iff]
  constructor
  · rintro ⟨h1, h2⟩
    refine ⟨h1, fun m hm v hv hc => ?_⟩
    have := h2 (col m) (List.mem_map_of_mem hm)
    rw [(sqlEq_iff (col m) (col r)).mpr ⟨v, hc, hv⟩] at this
    cases this
  · rintro ⟨h1, h2⟩
    refine ⟨h1, fun x hx => ?_⟩
    obtain ⟨m, hm, rfl⟩ := List.mem_map.mp hx
    by_contra hc
    have : sqlEq (col m) (col r) = true := by simpa using hc
    obtain ⟨v, hv1, hv2⟩ := (sqlEq_iff _ _).mp this
    exact h2 m hm v hv2 hv1

/-- C210. Marking rows and removing them by the marker table removes exactly the rows with marked values, and it has the same effect on each copy of the database to which the marker table is transferred by
exporting and importing it: all names are consistent if the same arguments are used. Existing marker tables (of the same shape) are overwritten. The sampled rows `sample` are any rows of the table. -/
theorem C210_transfer [DecidableEq α] (col : ρ → Option α) (coin : ρ → Rat) (target tc : String) (pct : Rat) (table column type file : Option String) (db copy : Db ρ α) (fs : Files α)
    (hcopy : copy.rows = db.rows)
    (h1 : ∀ m, db.markers.get? (markerTable (some target) table) = some m → m.column = markerColumn (some target) tc column)
    (h2 : ∀ m, copy.markers.get? (markerTable (some target) table) = some m → m.column = markerColumn (some target) tc column) :
    ∃ db1 fs1 copy1 db2 copy2 sample,
      generate col coin target pct tc table column db = some db1
      ∧ exportMarkers (some target) table file db1 fs = some fs1
      ∧ importMarkers (some target) table tc column type file fs1 copy = some copy1
      ∧ removeMarked col target tc table column db1 = some db2
      ∧ removeMarked col target tc table column copy1 = some copy2
      ∧ copy2.rows = db2.rows
      ∧ sample.Sublist db.rows
      ∧ db2.rows.Sublist db.rows
      ∧ ∀ r, r ∈ db2.rows ↔ r ∈ db.rows ∧ Unmarked col sample r := by
  obtain ⟨db1, g1, g2, g3⟩ := fill_ok db (markerTable (some target) table) (markerColumn (some target) tc column) ((bernoulli (percentage pct) coin db.rows).map col) h1
  have hf : (fs.set (file.getD (markerTable (some target) table ++ ".csv")) ((bernoulli (percentage pct) coin db.rows).map col)).get? (file.getD (markerTable (some target) table ++ ".csv"))
      = some ((bernoulli (percentage pct) coin db.rows).map col) := by rw [Dict.get?_set]; simp
  obtain ⟨copy1, i1, i2, i3⟩ := fill_ok copy (markerTable (some target) table) (markerColumn (some target) tc column) ((bernoulli (percentage pct) coin db.rows).map col) h2
  obtain ⟨db2, r1, r2, r3⟩ := remove_ok col target tc table column db1 _ g3
  have hrows : copy1.rows = db1.rows := by rw [i2, hcopy, g2]
  have rc : removeMarked col target tc table column copy1 = some { copy1 with rows := db2.rows } := by
    simp only [removeMarked, g3, if_true] at r1
    simp only [removeMarked, i3, if_true, hrows]
    obtain rfl := Option.some.inj r1
    rfl
  refine ⟨db1, fs.set (file.getD (markerTable (some target) table ++ ".csv")) ((bernoulli (percentage pct) coin db.rows).map col), copy1, db2, { copy1 with rows := db2.rows }, bernoulli (percentage pct) coin db.rows, g1, ?_, ?_, r1, rc, rfl, List.filter_sublist, by rw [← g2]; exact r2, ?_⟩
  · simp only [exportMarkers, g3]
    rw [if_neg (by simp)]
  · simp only [importMarkers]
    rw [if_neg (by simp), if_neg (by simp), hf]
    exact i1
  · intro r
    rw [r3 r, g2]

/-- A database without marker tables. -/
example : ∀ m, (⟨[1, 2, 3], []⟩ : Db Nat Nat).markers.get? (markerTable (some "title") none) = some m → m.column = markerColumn (some "title") "id" none := by
  intro m h
  simp [Dict.get?] at h

/-- C210 (partial). If the values of the column are unique and not NULL, exactly the sampled rows are removed, where the share is given in whole percents. Missing: other columns
(`C210_null_violated`, `C210_duplicates_violated`) and smaller shares (`C210_share_violated`). -/
theorem C210_exact_partial [DecidableEq α] (col : ρ → Option α) (coin : ρ → Rat) (target tc : String) (pct : Rat) (table column : Option String) (db : Db ρ α)
    (h1 : ∀ m, db.markers.get? (markerTable (some target) table) = some m → m.column = markerColumn (some target) tc column)
    (hu : (db.rows.map col).Nodup) (hnn : ∀ r ∈ db.rows, col r ≠ none) (k : Int) (hk : pct * 100 = k) :
    ∃ db1 db2, generate col coin target pct tc table column db = some db1 ∧ removeMarked col target tc table column db1 = some db2
      ∧ db2.rows.Sublist db.rows ∧ ∀ r ∈ db.rows, r ∈ db2.rows ↔ ¬ coin r < pct * 100 := by
  obtain ⟨db1, g1, g2, g3⟩ := fill_ok db (markerTable (some target) table) (markerColumn (some target) tc column) ((bernoulli (percentage pct) coin db.rows).map col) h1
  obtain ⟨db2, r1, r2, r3⟩ := remove_ok col target tc table column db1 _ g3
  refine ⟨db1, db2, g1, r1, by rw [← g2]; exact r2, ?_⟩
  intro r hr
  have hp : percentage pct = k := by rw [percentage, hk]; exact CardProps.round_int k
  rw [r3 r, g2]
  have hb : ∀ m, m ∈ bernoulli (percentage pct) coin db.rows ↔ m ∈ db.rows ∧ coin m < pct * 100 := by
    intro m; simp [bernoulli, hp, hk]
  constructor
  · rintro ⟨_, h⟩ hc
    cases hv : col r with
    | none => exact hnn r hr hv
    | some v => exact h r ((hb r).mpr ⟨hr, hc⟩) v hv hv
  · intro hc
    refine ⟨hr, fun m hm v hv hmv => ?_⟩
    have := (hb m).mp hm
    have e := List.inj_on_of_nodup_map hu this.1 hr (by rw [hmv, hv])
    exact hc (e ▸ this.2)

example : ((⟨[1, 2, 3], []⟩ : Db Nat Nat).rows.map some).Nodup ∧ (1/2 : Rat) * 100 = (50 : Int) := by
  refine ⟨by decide, by norm_num⟩

/-- C210 is violated for NULL: rows whose value is NULL are never removed, even if they are marked. -/
theorem C210_null_violated [DecidableEq α] (col : ρ → Option α) (target tc : String) (table column : Option String) (db db' : Db ρ α) (h : removeMarked col target tc table column db = some db')
    (r : ρ) (hr : r ∈ db.rows) (hc : col r = none) : r ∈ db'.rows := by
  unfold removeMarked at h
  split at h
  · simp at h
  · split at h
    · obtain rfl := Option.some.inj h
      simp only [keep_iff]
      refine ⟨hr, fun s _ => ?_⟩
      rw [hc]
      cases s <;> rfl
    · simp at h

example : ∃ db', removeMarked (fun _ : Nat => (none : Option Nat)) "t" "c" none none ⟨[1], [("t_delete_marker", ⟨"t_c", [none]⟩)]⟩ = some db' ∧ (1 ∈ db'.rows) := by
  refine ⟨⟨[1], [("t_delete_marker", ⟨"t_c", [none]⟩)]⟩, ?_, by simp⟩
  have h1 : markerTable (some "t") none = "t_delete_marker" := by decide +kernel
  have h2 : markerColumn (some "t") "c" none = "t_c" := by decide +kernel
  simp [removeMarked, h1, h2, Dict.get?, deleteExists, sqlEq]

/-- C210 is violated for columns with duplicates: if a row is marked, all rows with the same value are removed as well. -/
theorem C210_duplicates_violated [DecidableEq α] (col : ρ → Option α) (coin : ρ → Rat) (target tc : String) (pct : Rat) (table column : Option String) (db db1 db2 : Db ρ α)
    (h1 : generate col coin target pct tc table column db = some db1) (h2 : removeMarked col target tc table column db1 = some db2)
    (r s : ρ) (hr : r ∈ db.rows) (hs : s ∈ db.rows) (v : α) (hrv : col r = some v) (hsv : col s = some v) (hc : coin r < percentage pct) : r ∉ db2.rows ∧ s ∉ db2.rows := by
  have hm : ∀ m, db.markers.get? (markerTable (some target) table) = some m → m.column = markerColumn (some target) tc column := by
    intro m hm
    simp only [generate, fill, hm] at h1
    by_contra hne
    rw [if_neg hne] at h1
    cases h1
  obtain ⟨db1', g1, g2, g3⟩ := fill_ok db (markerTable (some target) table) (markerColumn (some target) tc column) ((bernoulli (percentage pct) coin db.rows).map col) hm
  have : db1' = db1 := by
    have := h1
    simp only [generate] at this
    rw [g1] at this
    exact Option.some.inj this
  subst this
  obtain ⟨db2', r1, r2, r3⟩ := remove_ok col target tc table column db1' _ g3
  rw [h2] at r1
  obtain rfl := Option.some.inj r1
  have hb : r ∈ bernoulli (percentage pct) coin db.rows := by simp [bernoulli, hr, hc]
  refine ⟨fun h => ?_, fun h => ?_⟩
  · exact ((r3 r).mp h).2 r hb v hrv hrv
  · exact ((r3 s).mp h).2 r hb v hsv hrv

example : ∃ db1 db2, generate (fun _ : Nat => some 7) (fun n => if n = 1 then 0 else 99) "t" (1/2) "c" none none (⟨[1, 2], []⟩ : Db Nat Nat) = some db1
    ∧ removeMarked (fun _ => some 7) "t" "c" none none db1 = some db2 ∧ (2 ∉ db2.rows) ∧ ¬ ((fun n : Nat => if n = 1 then (0 : Rat) else 99) 2 < 50) := by
  obtain ⟨db1, g1, g2, g3⟩ := fill_ok (⟨[1, 2], []⟩ : Db Nat Nat) (markerTable (some "t") none) (markerColumn (some "t") "c" none)
    ((bernoulli (percentage (1/2)) (fun n => if n = 1 then 0 else 99) [1, 2]).map fun _ => some 7) (by intro m h; simp [Dict.get?] at h)
  obtain ⟨db2, r1, r2, r3⟩ := remove_ok (fun _ : Nat => some 7) "t" "c" none none db1 _ g3
  have hp : percentage (1/2) = 50 := by decide +kernel
  exact ⟨db1, db2, g1, r1, (C210_duplicates_violated _ _ _ _ _ _ _ _ _ _ g1 r1 1 2 (by simp) (by simp) 7 rfl rfl (by rw [hp]; norm_num)).2, by norm_num⟩

/-- C210 is violated for small shares: the share is rounded to whole percents, so that nothing is marked if it is at most half a percent, independently of the size of the table. -/
theorem C210_share_violated [DecidableEq α] (col : ρ → Option α) (coin : ρ → Rat) (hcoin : ∀ r, 0 ≤ coin r) (target tc : String) (pct : Rat) (h0 : 0 ≤ pct) (hp : pct ≤ 1 / 200) (table column : Option String) (db db1 db2 : Db ρ α)
    (h1 : generate col coin target pct tc table column db = some db1) (h2 : removeMarked col target tc table column db1 = some db2) : db2.rows = db.rows := by
  have hz : percentage pct = 0 := by
    unfold percentage roundHalfEven
    by_cases he : pct * 100 < 1 / 2
    · have hf : (pct * 100).floor = 0 := by
        have a1 : (((pct * 100).floor : Int) : Rat) ≤ pct * 100 := Rat.floor_le _
        have a2 : pct * 100 < ((pct * 100).floor : Rat) + 1 := by exact_mod_cast Rat.lt_floor_add_one (pct * 100)
        have b1 : ((pct * 100).floor : Rat) < 1 := by linarith
        have b2 : (-1 : Rat) < ((pct * 100).floor : Rat) := by linarith
        have c1 : (pct * 100).floor < 1 := by exact_mod_cast b1
        have c2 : -1 < (pct * 100).floor := by exact_mod_cast b2
        omega
      simp only [hf]
      rw [if_pos (by push_cast; linarith)]
    · have : pct * 100 = 1 / 2 := by linarith
      rw [this]
      decide +kernel
  have hm : ∀ m, db.markers.get? (markerTable (some target) table) = some m → m.column = markerColumn (some target) tc column := by
    intro m hm
    simp only [generate, fill, hm] at h1
    by_contra hne
    rw [if_neg hne] at h1
    cases h1
  obtain ⟨db1', g1, g2, g3⟩ := fill_ok db (markerTable (some target) table) (markerColumn (some target) tc column) ((bernoulli (percentage pct) coin db.rows).map col) hm
  have : db1' = db1 := by
    have := h1
    simp only [generate] at this
    rw [g1] at this
    exact Option.some.inj this
  subst this
  have hb : bernoulli (percentage pct) coin db.rows = [] := by
    rw [hz, bernoulli, List.filter_eq_nil_iff]
    intro r _
    have := hcoin r
    simpa using this
  rw [hb] at g3
  simp only [removeMarked, g3, List.map_nil, if_true] at h2
  obtain rfl := Option.some.inj h2
  simp [deleteExists, g2]

example : (0 : Rat) ≤ 1 / 300 ∧ (1 / 300 : Rat) ≤ 1 / 200 := by norm_num

/-- C210 is violated if a marker table is imported by the name of the marker table only, which is allowed if the type is given: the marker column is called "None_..." and the marked rows cannot be removed. -/
theorem C210_import_violated [DecidableEq α] (col : ρ → Option α) (target tc marker type : String) (ht : target ≠ "None") (file : Option String) (fs : Files α) (db db1 : Db ρ α)
    (h : importMarkers none (some marker) tc none (some type) file fs db = some db1) : removeMarked col target tc (some marker) none db1 = none := by
  have hc : markerColumn none tc none ≠ markerColumn (some target) tc none := by
    intro e
    simp only [markerColumn, Option.getD_none, Option.getD_some] at e
    have e' := congrArg String.toList e
    simp only [String.toList_append] at e'
    have e2 := List.append_cancel_right (List.append_cancel_right e')
    exact ht (String.toList_inj.mp e2.symm)
  simp only [importMarkers] at h
  rw [if_neg (by simp), if_neg (by simp)] at h
  cases hf : fs.get? (file.getD (markerTable none (some marker) ++ ".csv")) with
  | none => simp [hf] at h
  | some vals =>
    simp only [hf] at h
    have hm : ∀ m, db.markers.get? (markerTable none (some marker)) = some m → m.column = markerColumn none tc none := by
      intro m hm
      simp only [fill, hm] at h
      by_contra hne
      rw [if_neg hne] at h
      cases h
    obtain ⟨db1', g1, g2, g3⟩ := fill_ok db (markerTable none (some marker)) (markerColumn none tc none) vals hm
    rw [g1] at h
    obtain rfl := Option.some.inj h
    have : markerTable (some target) (some marker) = markerTable none (some marker) := rfl
    simp only [removeMarked, this, g3]
    rw [if_neg hc]

example : ∃ db1, importMarkers none (some "m") "id" none (some "int") none [("m.csv", [some 1])] (⟨[1, 2], []⟩ : Db Nat Nat) = some db1 := by
  have h1 : (Option.getD none (markerTable none (some "m") ++ ".csv")) = "m.csv" := by decide +kernel
  refine ⟨⟨[1, 2], [("m", ⟨markerColumn none "id" none, [some 1]⟩)]⟩, ?_⟩
  simp only [importMarkers, h1]
  rw [if_neg (by simp), if_neg (by simp)]
  simp [Dict.get?, fill, markerTable, Dict.set]

end PB.ShifterProps
