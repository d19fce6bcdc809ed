import Verif.Model.DictTools
import Verif.Props.Dicts
import Mathlib.Data.List.Sort
set_option linter.unusedVariables false
set_option linter.unusedSimpArgs false
set_option linter.unusedSectionVars false

namespace PB.DictToolsProps
open PB PB.DictTools PB.Dicts PB.DictProps

variable {κ ν μ : Type} [DecidableEq κ]

/-- A dictionary with distinct keys built from its own entries is unchanged. -/
theorem ofList_wf (l : List (κ × ν)) (h : (l.map Prod.fst).Nodup) : Dict.ofList l = l := by
  have gen : ∀ (l acc : List (κ × ν)), ((acc ++ l).map Prod.fst).Nodup → l.foldl (fun d e => Dict.set d e.1 e.2) acc = acc ++ l := by
    intro l
    induction l with
    | nil => simp
    | cons e l ih =>
      intro acc hn
      have hset : ∀ acc : List (κ × ν), e.1 ∉ acc.map Prod.fst → Dict.set acc e.1 e.2 = acc ++ [e] := by
        intro acc
        induction acc with
        | nil => intro _; rfl
        | cons a acc iha =>
          intro hm
          simp only [List.map_cons, List.mem_cons, not_or] at hm
          obtain ⟨a1, a2⟩ := a
          simp only [Dict.set, if_neg (Ne.symm hm.1), iha hm.2, List.cons_append]
      rw [List.foldl_cons, hset acc, ih (acc ++ [e])]
      · simp
      · simpa using hn
      · intro hm
        rw [List.map_append, List.nodup_append] at hn
        exact hn.2.2 _ hm _ (by simp) rfl
  simpa [Dict.ofList] using gen l [] (by simpa using h)

/-- **C262.** The only key and the only value of a dictionary are found, and it is an error if there is not exactly one entry. -/
theorem C262_single (d : Dict κ ν) (k : κ) (v : ν) : (key d = some k ↔ ∃ w, d = [(k, w)]) ∧ (value d = some v ↔ ∃ j, d = [(j, v)]) := by
  unfold key value
  match d with
  | [] => simp
  | [(a, b)] => simp [Dict.keys, Dict.values]
  | a :: b :: c => simp

/-- **C262.** Updating replaces each value and keeps the keys and their order. -/
theorem C262_update (d : Dict κ ν) (hd : (d.map Prod.fst).Nodup) (u : κ → ν → μ) : update d u = d.map (fun e => (e.1, u e.1 e.2)) := by
  unfold update
  rw [ofList_wf]
  rw [List.map_map]; exact hd

/-- **C262.** Reducing replaces each list by one value and keeps the keys and their order. -/
theorem C262_reduce (d : Dict κ (List ν)) (hd : (d.map Prod.fst).Nodup) (r : κ → List ν → μ) : reduceMulti d r = d.map (fun e => (e.1, r e.1 e.2)) := by
  unfold reduceMulti
  rw [ofList_wf]
  rw [List.map_map]; exact hd

theorem explode_eq (d : Dict κ (List ν)) : explode d = d.flatMap fun e => e.2.map fun v => (e.1, v) := by
  have gen : ∀ (d : Dict κ (List ν)) (acc : List (κ × ν)), d.foldl (fun acc e => acc ++ e.2.map fun v => (e.1, v)) acc = acc ++ d.flatMap fun e => e.2.map fun v => (e.1, v) := by
    intro d
    induction d with
    | nil => simp
    | cons e d ih => intro acc; rw [List.foldl_cons, ih]; simp
  simpa [explode] using gen d []

/-- **C262.** Exploding lists each key with each of its values; the values of each key remain in order. -/
theorem C262_explode (d : Dict κ (List ν)) (hd : (d.map Prod.fst).Nodup) :
    (∀ k v, (k, v) ∈ explode d ↔ ∃ vs, (k, vs) ∈ d ∧ v ∈ vs) ∧ (∀ k vs, (k, vs) ∈ d → ((explode d).filter (fun e => e.1 = k)).map Prod.snd = vs) := by
  rw [explode_eq]
  refine ⟨fun k v => ?_, ?_⟩
  · simp only [List.mem_flatMap, List.mem_map, Prod.mk.injEq]
    constructor
    · rintro ⟨⟨a, vs⟩, he, w, hw, rfl, rfl⟩; exact ⟨vs, he, hw⟩
    · rintro ⟨vs, he, hv⟩; exact ⟨_, he, v, hv, rfl, rfl⟩
  · induction d with
    | nil => simp
    | cons e d ih =>
      obtain ⟨a, ws⟩ := e
      simp only [List.map_cons, List.nodup_cons] at hd
      intro k vs hm
      rw [List.flatMap_cons, List.filter_append, List.map_append]
      rcases List.mem_cons.1 hm with h | h
      · cases h
        have h1 : (ws.map fun v => (a, v)).filter (fun e => e.1 = a) = ws.map fun v => (a, v) := by
          rw [List.filter_eq_self]; intro x hx; obtain ⟨w, -, rfl⟩ := List.mem_map.1 hx; simp
        have h2 : (d.flatMap fun e => e.2.map fun v => (e.1, v)).filter (fun e => e.1 = a) = [] := by
          rw [List.filter_eq_nil_iff]
          intro x hx hxa
          obtain ⟨e, he, hx⟩ := List.mem_flatMap.1 hx
          obtain ⟨w, -, rfl⟩ := List.mem_map.1 hx
          simp only [decide_eq_true_eq] at hxa
          exact hd.1 (List.mem_map.2 ⟨e, he, hxa⟩)
        rw [h1, h2]; simp
      · have hne : a ≠ k := by rintro rfl; exact hd.1 (List.mem_map.2 ⟨_, h, rfl⟩)
        have h1 : (ws.map fun v => (a, v)).filter (fun e => e.1 = k) = [] := by
          rw [List.filter_eq_nil_iff]; intro x hx; obtain ⟨w, -, rfl⟩ := List.mem_map.1 hx; simpa using hne
        rw [h1, ih hd.2 k vs h]; rfl

/-- **C262.** Collecting exploded entries again yields the lists of the dictionary; only keys with empty lists are lost. -/
theorem C262_explode_generate [DecidableEq ν] (d : Dict κ (List ν)) (hd : (d.map Prod.fst).Nodup) (k : κ) (vs : List ν) :
    (generateMulti (explode d)).get? k = some vs ↔ (k, vs) ∈ d ∧ vs ≠ [] := by
  obtain ⟨h1, h2⟩ := C09_generateMulti (explode d) k
  obtain ⟨e1, e2⟩ := C262_explode d hd
  have hkey : k ∈ (explode d).map Prod.fst ↔ ∃ ws, (k, ws) ∈ d ∧ ws ≠ [] := by
    simp only [List.mem_map]
    constructor
    · rintro ⟨⟨a, v⟩, he, rfl⟩
      obtain ⟨ws, hw, hv⟩ := (e1 a v).1 he
      exact ⟨ws, hw, List.ne_nil_of_mem hv⟩
    · rintro ⟨ws, hw, hn⟩
      obtain ⟨v, hv⟩ := List.exists_mem_of_ne_nil ws hn
      exact ⟨(k, v), (e1 k v).2 ⟨ws, hw, hv⟩, rfl⟩
  have hmem : k ∈ (generateMulti (explode d)).keys ↔ ((generateMulti (explode d)).get? k).isSome := by
    generalize generateMulti (explode d) = g
    induction g with
    | nil => simp [Dict.get?]
    | cons e g ih =>
      obtain ⟨a, b⟩ := e
      simp only [Dict.keys_cons, List.mem_cons, Dict.get?]
      by_cases h : a = k
      · simp [h]
      · rw [if_neg h, ← ih]; simp [Ne.symm h]
  constructor
  · intro hg
    have hk := (hkey.1 (h2.1 (hmem.2 (by rw [hg]; rfl))))
    obtain ⟨ws, hw, hn⟩ := hk
    rw [hg, e2 k ws hw] at h1
    simp only [Option.getD_some] at h1
    subst h1; exact ⟨hw, hn⟩
  · rintro ⟨hw, hn⟩
    have := hmem.1 (h2.2 (hkey.2 ⟨vs, hw, hn⟩))
    rw [e2 k vs hw] at h1
    rcases hg : (generateMulti (explode d)).get? k with _ | x
    · rw [hg] at this; simp at this
    · rw [hg] at h1; simpa using h1

/-- The values belong to the keys in ascending order: some order of the entries with ascending keys lists them. -/
def InOrder (d : Dict Int ν) (vs : List ν) : Prop := ∃ es : List (Int × ν), es.Perm d ∧ (es.map Prod.fst).Pairwise (· < ·) ∧ es.map Prod.snd = vs

/-- **C262.** The array of a dictionary contains its values in the order of its keys. -/
theorem C262_numpy (d : Dict Int ν) (hd : (d.map Prod.fst).Nodup) : InOrder d (toNumpy d) := by
  have hget : ∀ (d : Dict Int ν), (d.map Prod.fst).Nodup → ∀ k v, (k, v) ∈ d → d.get? k = some v := by
    intro d
    induction d with
    | nil => simp
    | cons e d ih =>
      obtain ⟨a, b⟩ := e
      intro hn k v hm
      simp only [List.map_cons, List.nodup_cons] at hn
      rcases List.mem_cons.1 hm with h | h
      · cases h; simp [Dict.get?]
      · have : a ≠ k := by rintro rfl; exact hn.1 (List.mem_map.2 ⟨_, h, rfl⟩)
        simp only [Dict.get?, if_neg this]; exact ih hn.2 k v h
  set f : Int → Option (Int × ν) := fun k => (d.get? k).map fun v => (k, v) with hf
  set ks := d.keys.mergeSort (fun a b => decide (a ≤ b)) with hks
  have hperm : ks.Perm (d.map Prod.fst) := List.mergeSort_perm _ _
  have hself : (d.map Prod.fst).filterMap f = d := by
    have : ∀ l : List (Int × ν), (∀ e ∈ l, e ∈ d) → (l.map Prod.fst).filterMap f = l := by
      intro l
      induction l with
      | nil => simp
      | cons e l ih =>
        intro hl
        have he : f e.1 = some e := by simp [hf, hget d hd e.1 e.2 (hl e (by simp))]
        rw [List.map_cons, List.filterMap_cons_some he, ih fun x hx => hl x (by simp [hx])]
    exact this d fun _ h => h
  have hp2 : (ks.filterMap f).Perm d := by
    have := hperm.filterMap f
    rwa [hself] at this
  have hkeys : (ks.filterMap f).map Prod.fst = ks := by
    have : ∀ l : List Int, (∀ k ∈ l, k ∈ d.map Prod.fst) → (l.filterMap f).map Prod.fst = l := by
      intro l
      induction l with
      | nil => simp
      | cons k l ih =>
        intro hl
        obtain ⟨e, he, hek⟩ := List.mem_map.1 (hl k (by simp))
        have hk : f k = some e := by subst hek; simp [hf, hget d hd e.1 e.2 he]
        rw [List.filterMap_cons_some hk, List.map_cons, ih fun x hx => hl x (by simp [hx]), hek]
    exact this ks fun k hk => hperm.subset hk
  have hnd : ks.Nodup := hperm.nodup_iff.2 hd
  have hsort : ks.Pairwise (· ≤ ·) := by
    have := List.pairwise_mergeSort (le := fun a b : Int => decide (a ≤ b)) (by intro a b c; simp; omega) (by intro a b; simp; omega) d.keys
    exact this.imp (by intro a b h; simpa using h)
  refine ⟨ks.filterMap f, hp2, ?_, ?_⟩
  · rw [hkeys]
    exact (hsort.and hnd).imp (by rintro a b ⟨h1, h2⟩; omega)
  · unfold toNumpy
    rw [ofList_wf]
    · rfl
    · show ((ks.filterMap f).map Prod.fst).Nodup
      rw [hkeys]; exact hnd

/-- The hypotheses are met. -/
example : (([(2, "b"), (1, "a")] : Dict Int String).map Prod.fst).Nodup ∧ ((["x", "y"].map fun k => (k, [1, 2])).map Prod.fst).Nodup := by decide

end PB.DictToolsProps
