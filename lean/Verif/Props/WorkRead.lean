import Verif.Model.WorkRead
import Verif.Props.Workload
import Mathlib.Data.List.Induction
import Mathlib.Tactic.Tauto

/-!
# Workloads in a single file (C231)
-/

set_option linter.unusedSimpArgs false
set_option linter.unusedVariables false
set_option linter.unusedSectionVars false
set_option linter.unnecessarySimpa false
set_option linter.unnecessarySeqFocus false

namespace PB.WorkReadProps

open PB PB.Workload PB.WorkRead PB.WorkloadProps PB.Dicts

variable {L Q : Type} [DecidableEq L] [DecidableEq Q]

/-! ### Specification -/

/-- A file with the given lines. The last line may lack its line break. -/
def fileOf (lines : List (List Char)) (last : List Char) : List Char := (lines.map (· ++ ['\n'])).flatten ++ last

/-- The raw lines of the file. -/
def rawLines (lines : List (List Char)) (last : List Char) : List (List Char) :=
  lines.map (· ++ ['\n']) ++ (if last = [] then [] else [last])

/-- The last position of an element. -/
def LastAt (qs : List Q) (i : Nat) (q : Q) : Prop := qs[i]? = some q ∧ ∀ j, i < j → qs[j]? ≠ some q

/-! ### Lemmas -/

theorem aux_line (l rest cur : List Char) (hl : '\n' ∉ l) :
    readlinesAux cur (l ++ '\n' :: rest) = (cur ++ l ++ ['\n']) :: readlinesAux [] rest := by
  induction l generalizing cur with
  | nil => simp [readlinesAux]
  | cons c l ih =>
    have hc : (c == '\n') = false := by
      have : c ≠ '\n' := fun h => hl (by simp [h])
      simpa using this
    have hl' : '\n' ∉ l := fun h => hl (List.mem_cons_of_mem _ h)
    simp only [List.cons_append, readlinesAux, hc, Bool.false_eq_true, if_false]
    rw [ih _ hl']
    simp

theorem aux_last (l cur : List Char) (hl : '\n' ∉ l) : readlinesAux cur l = if (cur ++ l).isEmpty then [] else [cur ++ l] := by
  induction l generalizing cur with
  | nil => simp [readlinesAux]
  | cons c l ih =>
    have hc : (c == '\n') = false := by
      have : c ≠ '\n' := fun h => hl (by simp [h])
      simpa using this
    have hl' : '\n' ∉ l := fun h => hl (List.mem_cons_of_mem _ h)
    simp only [readlinesAux, hc, Bool.false_eq_true, if_false]
    rw [ih _ hl']
    simp

theorem readlines_file (lines : List (List Char)) (last : List Char) (h : ∀ l ∈ lines, '\n' ∉ l) (hlast : '\n' ∉ last) :
    readlines (fileOf lines last) = rawLines lines last := by
  induction lines with
  | nil =>
    unfold readlines fileOf rawLines
    rw [List.map_nil, List.flatten_nil, List.nil_append, aux_last last [] hlast]
    cases last <;> simp
  | cons l lines ih =>
    have e : fileOf (l :: lines) last = l ++ '\n' :: fileOf lines last := by
      simp [fileOf]
    have ih' := ih fun x hx => h x (List.mem_cons_of_mem _ hx)
    unfold readlines at ih' ⊢
    rw [e, aux_line l _ [] (h l (by simp)), ih']
    simp [rawLines]

theorem raw_nonempty (lines : List (List Char)) (last : List Char) :
    ((rawLines lines last).filter fun raw => !raw.isEmpty) = rawLines lines last := by
  rw [List.filter_eq_self]
  intro x hx
  unfold rawLines at hx
  rcases List.mem_append.1 hx with hx | hx
  · obtain ⟨l, -, rfl⟩ := List.mem_map.1 hx
    simp
  · split at hx
    · cases hx
    · rename_i hne
      simp only [List.mem_singleton] at hx
      subst hx
      cases x with
      | nil => exact absurd rfl hne
      | cons => rfl

theorem batch_eq (parse : List Char → Option Q) (lines : List (List Char)) (last : List Char) (h : ∀ l ∈ lines, '\n' ∉ l)
    (hlast : '\n' ∉ last) : readBatch parse (fileOf lines last) = ((rawLines lines last).mapM parse).bind generate := by
  unfold readBatch
  rw [readlines_file lines last h hlast, raw_nonempty]

theorem mapM_none {α β : Type} (f : α → Option β) (l : List α) (x : α) (hx : x ∈ l) (hf : f x = none) : l.mapM f = none := by
  induction l with
  | nil => cases hx
  | cons a l ih =>
    rw [List.mapM_cons]
    rcases List.mem_cons.1 hx with rfl | hx
    · rw [hf]; rfl
    · cases f a with
      | none => rfl
      | some b => rw [ih hx]; rfl

/-- The dictionary of numbers: the last position of each query. -/
theorem numbered_get (qs : List Q) (q : Q) (n : Nat) : Dict.get? (numbered qs) q = some n ↔ n ≠ 0 ∧ LastAt qs (n - 1) q := by
  induction qs using List.reverseRecOn generalizing n with
  | nil => simp [numbered, Dict.ofList, Dict.get?, LastAt]
  | append_singleton l x ih =>
    have e : numbered (l ++ [x]) = Dict.set (numbered l) x (l.length + 1) := by
      simp [numbered, Dict.ofList, List.zipIdx_append, List.foldl_append]
    rw [e, Dict.get?_set]
    unfold LastAt at ih ⊢
    by_cases hx : x = q
    · subst hx
      simp only [if_true, Option.some.injEq]
      constructor
      · rintro rfl
        refine ⟨by omega, by simp, fun j hj => ?_⟩
        rw [List.getElem?_eq_none (by simp; omega)]
        simp
      · rintro ⟨h0, h1, h2⟩
        have hlt : n - 1 < (l ++ [x]).length := (List.getElem?_eq_some_iff.1 h1).1
        by_contra hne
        have hlt' : n - 1 < l.length := by simp at hlt; omega
        exact h2 l.length hlt' (by simp)
    · have hx' : ¬ q = x := fun h => hx h.symm
      have hset : (if q = x then some (l.length + 1) else Dict.get? (numbered l) q) = Dict.get? (numbered l) q := by simp [hx']
      have key : ∀ i : Nat, (l ++ [x])[i]? = some q ↔ l[i]? = some q := by
        intro i
        by_cases hi : i < l.length
        · rw [List.getElem?_append_left hi]
        · rw [List.getElem?_append_right (by omega), List.getElem?_eq_none (l := l) (by omega)]
          by_cases hz : i - l.length = 0
          · rw [hz]; simp [hx]
          · rw [List.getElem?_eq_none (by simp; omega)]
      simp only [hx, hx', if_false, key, ne_eq]
      simpa only [ne_eq] using ih n

/-! ### C231 -/

/-- The workload of a file whose lines are all queries: the labels are the numbers of the lines. A query that occurs more than once has the
number of its last line only. -/
theorem C231_batch (parse : List Char → Option Q) (lines : List (List Char)) (last : List Char) (h : ∀ l ∈ lines, '\n' ∉ l)
    (hlast : '\n' ∉ last) (qs : List Q) (hq : (rawLines lines last).mapM parse = some qs) :
    ∃ w, readBatch parse (fileOf lines last) = some w ∧ ∃ f, Shows w f ∧ ∀ n q, f n = some q ↔ n ≠ 0 ∧ LastAt qs (n - 1) q := by
  rw [batch_eq parse lines last h hlast, hq]
  have hvals : Dict.WF ((numbered qs).map fun e => (e.2, e.1) : Dict Nat Q) := by
    unfold Dict.WF Dict.keys
    rw [List.map_map]
    refine List.Nodup.map_on ?_ (List.Nodup.of_map Prod.fst (Dict.WF_ofList _))
    rintro ⟨a, i⟩ ha ⟨b, j⟩ hb hij
    simp only [Function.comp] at hij
    subst hij
    have wf : Dict.WF (numbered qs) := Dict.WF_ofList _
    have h1 := ((numbered_get qs a i).1 (Dict.get?_of_mem wf ha)).2.1
    have h2 := ((numbered_get qs b i).1 (Dict.get?_of_mem wf hb)).2.1
    rw [h1] at h2
    rw [Option.some.inj h2]
  obtain ⟨w, hw, hs, -⟩ := build_ok (fun a b : Nat => decide (a ≤ b)) (invert (numbered qs)) (Dict.WF_ofList _) _ (fun _ => rfl)
  refine ⟨w, hw, _, hs, fun n q => ?_⟩
  have wf : Dict.WF (numbered qs) := Dict.WF_ofList _
  have e : Dict.get? (invert (numbered qs)) n = Dict.get? ((numbered qs).map fun e => (e.2, e.1)) n := Dict.get?_ofList_wf hvals n
  rw [e, Dict.get?_iff_mem hvals, List.mem_map, ← numbered_get, Dict.get?_iff_mem wf]
  constructor
  · rintro ⟨⟨a, i⟩, h, he⟩
    cases he; exact h
  · intro h; exact ⟨(q, n), h, rfl⟩

/-- If no query occurs twice, each line has its number as label. -/
theorem C231_batch_partial (parse : List Char → Option Q) (lines : List (List Char)) (last : List Char) (h : ∀ l ∈ lines, '\n' ∉ l)
    (hlast : '\n' ∉ last) (qs : List Q) (hq : (rawLines lines last).mapM parse = some qs) (hn : qs.Nodup) :
    Yields (fun a b => decide (a ≤ b)) (readBatch parse (fileOf lines last)) fun n => if n = 0 then none else qs[n - 1]? := by
  rw [batch_eq parse lines last h hlast, hq]
  exact C93_generate_partial qs hn

/-- If a query is written on two lines, there is no query with the number of the first line. -/
theorem C231_duplicate_violated (parse : List Char → Option Q) (lines : List (List Char)) (last : List Char) (h : ∀ l ∈ lines, '\n' ∉ l)
    (hlast : '\n' ∉ last) (qs : List Q) (hq : (rawLines lines last).mapM parse = some qs) (i j : Nat) (hij : i < j) (q : Q)
    (hi : qs[i]? = some q) (hj : qs[j]? = some q) :
    ∃ w, readBatch parse (fileOf lines last) = some w ∧ Dict.get? w.data (i + 1) = none := by
  obtain ⟨w, hw, f, hs, hf⟩ := C231_batch parse lines last h hlast qs hq
  refine ⟨w, hw, ?_⟩
  rw [hs.lookup]
  cases hc : f (i + 1) with
  | none => rfl
  | some q' =>
    obtain ⟨-, h1, h2⟩ := (hf (i + 1) q').1 hc
    simp only [Nat.add_sub_cancel] at h1 h2
    rw [hi] at h1
    cases h1
    exact absurd hj (h2 j hij)

/-- A line that is no query makes reading fail. -/
theorem C231_error (parse : List Char → Option Q) (lines : List (List Char)) (last : List Char) (h : ∀ l ∈ lines, '\n' ∉ l)
    (hlast : '\n' ∉ last) (raw : List Char) (hr : raw ∈ rawLines lines last) (hp : parse raw = none) :
    readBatch parse (fileOf lines last) = none := by
  rw [batch_eq parse lines last h hlast, mapM_none parse _ raw hr hp]
  rfl

/-- Empty lines are not skipped: a line break without a query makes reading fail. -/
theorem C231_empty_line_violated (parse : List Char → Option Q) (hparse : parse ['\n'] = none) (lines : List (List Char)) (last : List Char)
    (h : ∀ l ∈ lines, '\n' ∉ l) (hlast : '\n' ∉ last) (he : [] ∈ lines) : readBatch parse (fileOf lines last) = none :=
  C231_error parse lines last h hlast ['\n'] (by
    unfold rawLines
    exact List.mem_append_left _ (List.mem_map.2 ⟨[], he, rfl⟩)) hparse

/-- A CSV file without labels: the numbers of the rows, if no query occurs twice. -/
theorem C231_csv_partial (parse : List Char → Option Q) (cells : List (List Char)) (qs : List Q) (hq : cells.mapM parse = some qs) (hn : qs.Nodup) :
    Yields (fun a b => decide (a ≤ b)) (readCsv parse cells) fun n => if n = 0 then none else qs[n - 1]? := by
  unfold readCsv
  rw [hq]
  exact C93_generate_partial qs hn

/-- A CSV file with labels: each row, if neither queries nor labels occur twice. -/
theorem C231_labels_partial (le : L → L → Bool) (parse : List Char → Option Q) (rows : List (List Char × L)) (es : List (Q × L))
    (hes : (rows.mapM fun r => (parse r.1).map fun q => (q, r.2)) = some es) (hne : es ≠ []) (hq : (es.map Prod.fst).Nodup)
    (hl : (es.map Prod.snd).Nodup) :
    ∃ w, readCsvLabelled le parse rows = some (.labelled w) ∧ ∃ f, Shows w f ∧ ∀ l q, f l = some q ↔ (q, l) ∈ es := by
  have hwf : Dict.WF (es : Dict Q L) := hq
  have hget : ∀ q l, Dict.get? (Dict.ofList es) q = some l ↔ (q, l) ∈ es := by
    intro q l
    rw [Dict.get?_ofList_wf hwf, Dict.get?_iff_mem hwf]
  have hne' : (Dict.ofList es : Dict Q L).isEmpty = false := by
    obtain ⟨e, es', rfl⟩ := List.exists_cons_of_ne_nil hne
    cases hd : (Dict.ofList (e :: es') : Dict Q L) with
    | cons => rfl
    | nil =>
      have := (hget e.1 e.2).2 (by simp)
      rw [hd] at this
      cases this
  have hmem : ∀ q l, (q, l) ∈ (Dict.ofList es : Dict Q L) ↔ (q, l) ∈ es := by
    intro q l
    rw [← hget, Dict.get?_iff_mem (Dict.WF_ofList _)]
  have hvals : Dict.WF ((Dict.ofList es : Dict Q L).map fun e => (e.2, e.1) : Dict L Q) := by
    unfold Dict.WF Dict.keys
    rw [List.map_map]
    refine List.Nodup.map_on ?_ (List.Nodup.of_map Prod.fst (Dict.WF_ofList _))
    rintro ⟨a, i⟩ ha ⟨b, j⟩ hb hij
    simp only [Function.comp] at hij
    rw [hmem] at ha hb
    exact List.inj_on_of_nodup_map hl ha hb hij
  obtain ⟨w, hw, hs, -⟩ := build_ok le (invert (Dict.ofList es)) (Dict.WF_ofList _) _ (fun _ => rfl)
  refine ⟨w, ?_, _, hs, fun l q => ?_⟩
  · unfold readCsvLabelled
    rw [hes]
    show (if (Dict.ofList es : Dict Q L).isEmpty = true then _ else _) = _
    rw [hne']
    simp [generateLabelled, hw]
  · have e : Dict.get? (invert (Dict.ofList es)) l = Dict.get? ((Dict.ofList es : Dict Q L).map fun e => (e.2, e.1)) l := Dict.get?_ofList_wf hvals l
    rw [e, Dict.get?_iff_mem hvals, List.mem_map, ← hmem]
    constructor
    · rintro ⟨⟨a, i⟩, h, he⟩
      cases he; exact h
    · intro h; exact ⟨(q, l), h, rfl⟩

/-- A query with two labels is only found with the second label. -/
theorem C231_labels_violated (le : L → L → Bool) (parse : List Char → Option Q) (c : List Char) (q : Q) (hp : parse c = some q) (a b : L)
    (hab : a ≠ b) : ∃ w, readCsvLabelled le parse [(c, a), (c, b)] = some (.labelled w) ∧ Shows w (fun l => if l = b then some q else none) := by
  obtain ⟨w, hw, hs, -⟩ := build_ok le (invert (Dict.ofList [(q, a), (q, b)])) (Dict.WF_ofList _) (fun l => if l = b then some q else none)
    (fun l => by
      have : b = l ↔ l = b := eq_comm
      simp [invert, Dict.ofList, Dict.set, Dict.get?, this])
  refine ⟨w, ?_, hs⟩
  simp [readCsvLabelled, hp, generateLabelled, hw, Dict.ofList, Dict.set] at hw ⊢
  exact hw

/-- The names of the pre-defined workloads: six workloads, everything else is rejected. -/
theorem C231_fetch (name : String) :
    (fetch name = some .job ↔ name ∈ ["job", "imdb"]) ∧ (fetch name = some .jobLight ↔ name ∈ ["job-light", "joblight"]) ∧
      (fetch name = some .jobComplex ↔ name ∈ ["job-complex", "jobcomplex"]) ∧ (fetch name = some .stats ↔ name = "stats") ∧
      (fetch name = some .stack ↔ name = "stack") ∧ (fetch name = some .ssb ↔ name = "ssb") := by
  have cases9 : name = "job" ∨ name = "imdb" ∨ name = "job-light" ∨ name = "joblight" ∨ name = "job-complex" ∨ name = "jobcomplex" ∨
      name = "stats" ∨ name = "stack" ∨ name = "ssb" ∨
      (name ≠ "job" ∧ name ≠ "imdb" ∧ name ≠ "job-light" ∧ name ≠ "joblight" ∧ name ≠ "job-complex" ∧ name ≠ "jobcomplex" ∧
        name ≠ "stats" ∧ name ≠ "stack" ∧ name ≠ "ssb") := by tauto
  rcases cases9 with rfl | rfl | rfl | rfl | rfl | rfl | rfl | rfl | rfl | ⟨h1, h2, h3, h4, h5, h6, h7, h8, h9⟩
  all_goals try decide
  simp [fetch, h1, h2, h3, h4, h5, h6, h7, h8, h9]

/-! Witnesses. -/

def exParse (l : List Char) : Option Nat :=
  match l with
  | 'q' :: _ => some l.length
  | _ => none

example : (rawLines [['q'], ['q', 'x']] ['q', 'x', 'y', 'z']).mapM exParse = some [2, 3, 4] ∧ [2, 3, 4].Nodup := by decide
example : readlines "a\n\nb".toList = ["a\n".toList, "\n".toList, "b".toList] := by decide
example : exParse ['\n'] = none := by decide
example : ([(['q'], "a"), (['q', 'x'], "b")].mapM fun r => (exParse r.1).map fun q => (q, r.2)) = some [(1, "a"), (2, "b")] := by decide

end PB.WorkReadProps
