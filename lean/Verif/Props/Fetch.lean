import Verif.Model.Fetch
import Mathlib.Logic.Function.Iterate
set_option linter.unusedVariables false
set_option linter.unusedSimpArgs false

namespace PB.FetchProps
open PB.Fetch

theorem run_append (a b : List Step) (p q : Place) (h : run a p = (true, q)) : run (a ++ b) p = run b q := by
  induction a generalizing p with
  | nil => simp only [run, Prod.mk.injEq, true_and] at h; subst h; rfl
  | cons s a ih =>
    rw [List.cons_append]
    simp only [run] at h ⊢
    rcases hs : step p s with _ | p'
    · rw [hs] at h; simp at h
    · rw [hs] at h; exact ih p' h

theorem run_extract (fs : List File) : ∀ (l : List File) (d : Option (List File)) (z : Bool) (t : Option (List File)), (fs = [] → t = some l) → t.getD [] = l → run (fs.map .extract) ⟨d, t, z⟩ = (true, ⟨d, some (l ++ fs), z⟩) := by
  induction fs with
  | nil => intro l d z t h _; rw [h rfl]; simp [run]
  | cons f fs ih =>
    intro l d z t _ ht
    rw [List.map_cons]
    simp only [run, step]
    rw [ih (l ++ [f]) d z _ (fun _ => by rw [ht]) (by simp [ht])]
    simp

theorem run_move (fs : List File) : ∀ (l : List File) (z : Bool), run (fs.map .move) ⟨some l, some fs, z⟩ = (true, ⟨some (l ++ fs), some [], z⟩) := by
  induction fs with
  | nil => intro l z; simp [run]
  | cons f fs ih =>
    intro l z
    rw [List.map_cons]
    simp only [run, step, Option.map_some, List.erase_cons_head]
    rw [ih (l ++ [f]) z]
    simp

theorem run_program (files : List File) (hf : files ≠ []) : run (program files) ⟨none, none, false⟩ = (true, ⟨some files, none, false⟩) := by
  unfold program
  have h1 : run ([.mkdir, .download] : List Step) ⟨none, none, false⟩ = (true, ⟨some [], none, true⟩) := rfl
  have h2 := run_extract files [] (some []) true none (fun h => absurd h hf) rfl
  have h3 := run_move files [] true
  simp only [List.append_assoc]
  rw [run_append _ _ _ _ h1, run_append _ _ _ _ h2]
  simp only [List.nil_append] at h3 ⊢
  have h4 : run ([.iterdir] : List Step) ⟨some [], some files, true⟩ = (true, ⟨some [], some files, true⟩) := rfl
  rw [run_append _ _ _ _ h4, run_append _ _ _ _ h3]
  rfl

/-- Nothing was stored for the workload. -/
def Absent (d : Disk) (name : String) : Prop := d name = ⟨none, none, false⟩

/-- **C265 (partial).** A workload that is not there is downloaded: its directory contains exactly the files of the archive, and nothing else remains. The case of its name does not matter, and other workloads do not change. (Missing: interrupted downloads,
see `C265_crash_violated`, and workloads without archive, see `C265_unknown_violated`.) -/
theorem C265_download_partial (src : String → Option (List File)) (d : Disk) (name : String) (files : List File) (ha : Absent d name.toLower) (hs : src name.toLower = some files) (hf : files ≠ []) :
    ∃ d', fetch src none d name = (.files files, d') ∧ d' name.toLower = ⟨some files, none, false⟩ ∧ ∀ n, n ≠ name.toLower → d' n = d n := by
  unfold Absent at ha
  refine ⟨fun n => if n = name.toLower then ⟨some files, none, false⟩ else d n, ?_, by simp, fun n hn => by simp [hn]⟩
  simp [fetch, ha, hs, run_program files hf]

/-- **C265.** A workload whose directory exists is not downloaded again; nothing changes. -/
theorem C265_existing (src : String → Option (List File)) (crash : Option Nat) (d : Disk) (name : String) (l : List File) (h : (d name.toLower).dir = some l) : fetch src crash d name = (.files l, d) := by
  simp [fetch, h]

/-- The hypotheses are met. -/
example : ∃ d : Disk, Absent d "stats" ∧ (d "job").dir = some ["1a.sql"] := ⟨fun n => if n = "job" then ⟨some ["1a.sql"], none, false⟩ else ⟨none, none, false⟩, by simp [Absent], by simp⟩

/-- **C265.** Loaded workloads have queries: exactly the query files of the archive or of the existing directory. -/
theorem C265_load (src : String → Option (List File)) (isQuery : File → Bool) (d : Disk) (name : String) :
    (∀ qs d', load src isQuery d name = (some qs, d') → qs ≠ []) ∧
    (∀ files, Absent d name.toLower → src name.toLower = some files → files.filter isQuery ≠ [] → (load src isQuery d name).1 = some (files.filter isQuery)) ∧
    (∀ l, (d name.toLower).dir = some l → (l.filter isQuery ≠ [] → load src isQuery d name = (some (l.filter isQuery), d)) ∧ (l.filter isQuery = [] → load src isQuery d name = (none, d))) := by
  refine ⟨?_, ?_, ?_⟩
  · intro qs d' h
    unfold load at h
    simp only [] at h
    split at h
    · simp only [Prod.mk.injEq] at h
      split_ifs at h with he
      · simp at h
      · rw [← Option.some.inj h.1]; exact he
    · simp at h
  · intro files ha hs hq
    have hf : files ≠ [] := by rintro rfl; simp at hq
    obtain ⟨d', h, -⟩ := C265_download_partial src d name files ha hs hf
    simp [load, h, hq]
  · intro l hl
    have h := C265_existing src none d name l hl
    exact ⟨fun hq => by simp [load, h, hq], fun hq => by simp [load, h, hq]⟩

theorem run_take_extract (files : List File) (k : Nat) : ∃ t z, run ((program files).take (k + 1)) ⟨none, none, false⟩ = (true, ⟨some [], t, z⟩) ∨ files.length + 2 ≤ k := by
  by_cases hk : files.length + 2 ≤ k
  · exact ⟨none, false, .inr hk⟩
  · match k with
    | 0 => exact ⟨none, false, .inl rfl⟩
    | k + 1 =>
      have h1 : run ([.mkdir, .download] : List Step) ⟨none, none, false⟩ = (true, ⟨some [], none, true⟩) := rfl
      have hp : (program files).take (k + 1 + 1) = [.mkdir, .download] ++ (files.take k).map .extract := by
        have hkl : k ≤ files.length := by omega
        unfold program
        simp only [List.append_assoc, List.cons_append, List.nil_append, List.take_succ_cons]
        rw [List.take_append_of_le_length (by simpa using hkl), List.map_take]
      rw [hp, run_append _ _ _ _ h1]
      rcases hc : files.take k with _ | ⟨f, fs⟩
      · exact ⟨none, true, .inl rfl⟩
      · have := run_extract (f :: fs) [] (some []) true none (fun h => nomatch h) rfl
        exact ⟨_, _, .inl this⟩

theorem run_take_move (files : List File) (hf : files ≠ []) (j : Nat) (hj : j ≤ files.length) : ∃ t, run ((program files).take (files.length + 3 + j)) ⟨none, none, false⟩ = (true, ⟨some (files.take j), t, true⟩) := by
  have h1 : run ([.mkdir, .download] : List Step) ⟨none, none, false⟩ = (true, ⟨some [], none, true⟩) := rfl
  have h2 := run_extract files [] (some []) true none (fun h => absurd h hf) rfl
  have h4 : run ([.iterdir] : List Step) ⟨some [], some files, true⟩ = (true, ⟨some [], some files, true⟩) := rfl
  have hp : (program files).take (files.length + 3 + j) = [.mkdir, .download] ++ (files.map .extract ++ ([.iterdir] ++ (files.take j).map .move)) := by
    unfold program
    simp only [List.append_assoc]
    rw [show files.length + 3 + j = ([.mkdir, .download] : List Step).length + (files.length + 1 + j) by simp; omega, List.take_length_add_append]
    rw [show files.length + 1 + j = (files.map Step.extract).length + (1 + j) by simp; omega, List.take_length_add_append]
    rw [show 1 + j = ([.iterdir] : List Step).length + j by simp, List.take_length_add_append]
    rw [List.take_append_of_le_length (by simpa using hj), List.map_take]
  rw [hp, run_append _ _ _ _ h1, run_append _ _ _ _ h2, List.nil_append, run_append _ _ _ _ h4]
  have gen : ∀ (fs rest l : List File), run (fs.map .move) ⟨some l, some (fs ++ rest), true⟩ = (true, ⟨some (l ++ fs), some rest, true⟩) := by
    intro fs
    induction fs with
    | nil => intro rest l; simp [run]
    | cons f fs ih =>
      intro rest l
      rw [List.map_cons]
      simp only [run, step, Option.map_some, List.cons_append, List.erase_cons_head]
      rw [ih rest (l ++ [f])]
      simp
  have := gen (files.take j) (files.drop j) []
  rw [List.take_append_drop] at this
  exact ⟨_, by simpa using this⟩

/-- **C265 (violated).** After an interrupted download, the next call succeeds with an incomplete workload: without any file if the process ended during download or extraction, or with the files that were moved until then. -/
theorem C265_crash_violated (src : String → Option (List File)) (d : Disk) (name : String) (files : List File) (ha : Absent d name.toLower) (hs : src name.toLower = some files) (hf : files ≠ []) :
    (∀ k, 1 ≤ k → k ≤ files.length + 2 → ∃ d', fetch src (some k) d name = (.crashed, d') ∧ fetch src none d' name = (.files [], d')) ∧
    (∀ j, j ≤ files.length → ∃ d', fetch src (some (files.length + 3 + j)) d name = (.crashed, d') ∧ fetch src none d' name = (.files (files.take j), d')) := by
  unfold Absent at ha
  refine ⟨fun k h1 h2 => ?_, fun j hj => ?_⟩
  · obtain ⟨k, rfl⟩ : ∃ m, k = m + 1 := ⟨k - 1, by omega⟩
    obtain ⟨t, z, h | h⟩ := run_take_extract files k
    · refine ⟨_, by simp only [fetch, ha, hs, h]; rfl, ?_⟩
      exact C265_existing src none _ name [] (by simp)
    · omega
  · obtain ⟨t, h⟩ := run_take_move files hf j hj
    refine ⟨_, by simp only [fetch, ha, hs, h]; rfl, ?_⟩
    exact C265_existing src none _ name _ (by simp)

/-- **C265 (violated).** After a download or extraction was interrupted, loading the workload fails at each later attempt, although the archive could be downloaded again. -/
theorem C265_stuck_violated (src : String → Option (List File)) (isQuery : File → Bool) (d : Disk) (name : String) (files : List File) (ha : Absent d name.toLower) (hs : src name.toLower = some files) (hf : files ≠ []) (k : Nat) (h1 : 1 ≤ k)
    (h2 : k ≤ files.length + 2) (n : Nat) : ∃ d', fetch src (some k) d name = (.crashed, d') ∧ ((fun d => (load src isQuery d name).2)^[n] d') = d' ∧ (load src isQuery d' name).1 = none := by
  obtain ⟨d', h3, h4⟩ := (C265_crash_violated src d name files ha hs hf).1 k h1 h2
  have hl : load src isQuery d' name = (none, d') := by simp [load, h4]
  refine ⟨d', h3, ?_, by rw [hl]⟩
  induction n with
  | zero => rfl
  | succ n ih => rw [Function.iterate_succ_apply', ih, hl]

/-- **C265 (violated).** A workload without known archive is an error at first, but the next call succeeds with an empty directory. -/
theorem C265_unknown_violated (src : String → Option (List File)) (d : Disk) (name : String) (ha : Absent d name.toLower) (hs : src name.toLower = none) : ∃ d', fetch src none d name = (.error, d') ∧ fetch src none d' name = (.files [], d') := by
  unfold Absent at ha
  have h : run [.mkdir] ⟨none, none, false⟩ = (true, ⟨some [], none, false⟩) := rfl
  refine ⟨_, by simp only [fetch, ha, hs, h]; rfl, ?_⟩
  exact C265_existing src none _ name [] (by simp)

/-- The hypotheses are met. -/
example : ∃ (src : String → Option (List File)) (d : Disk), Absent d "stats" ∧ src "stats" = some ["q1.sql", "q2.sql"] ∧ src "tpch" = none :=
  ⟨fun n => if n = "stats" then some ["q1.sql", "q2.sql"] else none, fun _ => ⟨none, none, false⟩, rfl, by simp, by simp⟩

end PB.FetchProps
