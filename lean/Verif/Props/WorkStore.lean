import Verif.Model.WorkStore
import Verif.Props.Workload

/-! # C267: workloads that are stored in directories -/

namespace PB.WorkStoreProps
open PB PB.WorkRead PB.Workload PB.WorkStore PB.WorkloadProps

/-! ## Vocabulary -/

/-- Every line break twice. -/
def dbl : Text → Text
  | [] => []
  | c :: t => if c = '\n' then '\n' :: '\n' :: dbl t else c :: dbl t

/-- The file of a label. -/
def fileOf (l : Text) : Text := l ++ ['.', 's', 'q', 'l']

/-- A query file. -/
def IsSql (n : Text) : Prop := ∃ l, n = fileOf l

/-- Labels that can be used for files: they are different, not empty, and have no slashes. -/
structure Usable (ws : List (Text × Text)) : Prop where
  nodup : (ws.map Prod.fst).Nodup
  noSlash : ∀ w ∈ ws, '/' ∉ w.1
  nonempty : ∀ w ∈ ws, w.1 ≠ []

/-- The text between the first two quotes. -/
def firstLiteral (t : Text) : Text := ((t.dropWhile (· ≠ '\'')).drop 1).takeWhile (· ≠ '\'')

/-! ## Lemmas -/

theorem fileOf_inj {a b : Text} (h : fileOf a = fileOf b) : a = b := List.append_cancel_right h

theorem isSql_iff (n : Text) : ending.isSuffixOf n = true ↔ IsSql n := by
  rw [List.isSuffixOf_iff_suffix]
  constructor
  · rintro ⟨l, h⟩; exact ⟨l, h.symm⟩
  · rintro ⟨l, h⟩; exact ⟨l, h.symm⟩

theorem stem_file {l : Text} (h : l ≠ []) : stem (fileOf l) = l := by
  have : (fileOf l).reverse = 'l' :: 'q' :: 's' :: '.' :: l.reverse := by simp [fileOf]
  simp [stem, this, h]

theorem joinNl_cons (l : Text) {ls : List Text} (h : ls ≠ []) : joinNl (l :: ls) = l ++ '\n' :: joinNl ls := by
  cases ls with
  | nil => exact absurd rfl h
  | cons m ls => rfl

theorem readlinesAux_ne (cur t : Text) : readlinesAux cur (t ++ ['\n']) ≠ [] := by
  induction t generalizing cur with
  | nil => simp [readlinesAux]
  | cons c t ih =>
    simp only [List.cons_append, readlinesAux]
    split
    · simp
    · exact ih _

theorem joinNl_readlines (cur t : Text) : joinNl (readlinesAux cur (t ++ ['\n'])) = cur ++ dbl t ++ ['\n'] := by
  induction t generalizing cur with
  | nil => simp [readlinesAux, joinNl, dbl]
  | cons c t ih =>
    simp only [List.cons_append, readlinesAux, dbl, beq_iff_eq]
    split
    · rename_i h
      rw [joinNl_cons _ (readlinesAux_ne _ _), ih]
      simp [h]
    · rw [ih]; simp

theorem contents_stored (t : Text) : contents (t ++ ['\n']) = dbl t ++ ['\n'] := by
  rw [contents, readlines, joinNl_readlines]; rfl

theorem dbl_append (a b : Text) : dbl (a ++ b) = dbl a ++ dbl b := by
  induction a with
  | nil => rfl
  | cons c a ih => simp only [List.cons_append, dbl]; split <;> simp [ih]

theorem dbl_of_not_mem {t : Text} (h : '\n' ∉ t) : dbl t = t := by
  induction t with
  | nil => rfl
  | cons c t ih =>
    simp only [List.mem_cons, not_or] at h
    simp [dbl, Ne.symm h.1, ih h.2]

theorem le_length_dbl (t : Text) : t.length ≤ (dbl t).length := by
  induction t with
  | nil => simp [dbl]
  | cons c t ih => simp only [dbl]; split <;> simp <;> omega

theorem mem_dbl (t : Text) (c : Char) : c ∈ dbl t ↔ c ∈ t := by
  induction t with
  | nil => simp [dbl]
  | cons d t ih => simp only [dbl]; split <;> simp_all

theorem persist_wf {fs : Files} (h : fs.WF) (ws : List (Text × Text)) : (persist fs ws).1.WF := by
  induction ws generalizing fs with
  | nil => exact h
  | cons w ws ih =>
    obtain ⟨l, t⟩ := w
    rw [persist]; split
    · exact h
    · exact ih (Dict.WF_set h _ _)

theorem persist_get {fs : Files} {ws : List (Text × Text)} (hs : ∀ w ∈ ws, '/' ∉ w.1) (hn : (ws.map Prod.fst).Nodup) :
    (persist fs ws).2 = true ∧ (∀ w ∈ ws, (persist fs ws).1.get? (fileOf w.1) = some (w.2 ++ ['\n']))
      ∧ ∀ n, (∀ w ∈ ws, fileOf w.1 ≠ n) → (persist fs ws).1.get? n = fs.get? n := by
  induction ws generalizing fs with
  | nil => exact ⟨rfl, by simp, fun n _ => rfl⟩
  | cons w ws ih =>
    obtain ⟨l, t⟩ := w
    have h1 : '/' ∉ l := hs (l, t) (by simp)
    rw [persist, if_neg h1]
    simp only [List.map_cons, List.nodup_cons] at hn
    obtain ⟨i1, i2, i3⟩ := ih (fs := fs.set (l ++ ending) (t ++ ['\n'])) (fun w hw => hs w (by simp [hw])) hn.2
    have hl : ∀ w ∈ ws, fileOf w.1 ≠ fileOf l := fun w hw h => hn.1 (List.mem_map.2 ⟨w, hw, fileOf_inj h⟩)
    refine ⟨i1, ?_, ?_⟩
    · intro w hw
      rcases List.mem_cons.1 hw with rfl | hw
      · show Dict.get? _ (fileOf l) = _
        rw [i3 _ hl, Dict.get?_set]; simp [fileOf, ending]
      · exact i2 w hw
    · intro n hn2
      rw [i3 n (fun w hw => hn2 w (by simp [hw])), Dict.get?_set]
      have : l ++ ending ≠ n := hn2 (l, t) (by simp)
      simp [this]

/-! ## Theorems -/

/-- Storing a workload writes one file for each query, named by its label, with its text and a line break; nothing else in the
directory is touched. -/
theorem C267_store {ws : List (Text × Text)} (h : Usable ws) (fs : Files) :
    (persist fs ws).2 = true ∧ (∀ w ∈ ws, (persist fs ws).1.get? (fileOf w.1) = some (w.2 ++ ['\n']))
      ∧ ∀ n, (∀ w ∈ ws, fileOf w.1 ≠ n) → (persist fs ws).1.get? n = fs.get? n :=
  persist_get h.noSlash h.nodup

/-- What is read afterwards: the labels of the workload, each with its text in which all line breaks are doubled and one more is
added; and the query files that have been in the directory under other names. -/
theorem C267_read {ws : List (Text × Text)} (h : Usable ws) {fs : Files} (hfs : fs.WF) (l t : Text) :
    (l, t) ∈ texts (persist fs ws).1 ↔
      (∃ w ∈ ws, w.1 = l ∧ t = dbl w.2 ++ ['\n'])
        ∨ ∃ n c, (n, c) ∈ fs ∧ IsSql n ∧ (∀ w ∈ ws, fileOf w.1 ≠ n) ∧ l = stem n ∧ t = contents c := by
  obtain ⟨-, h2, h3⟩ := C267_store h fs
  have hwf := persist_wf hfs ws
  simp only [texts, List.mem_map, List.mem_filter, isSql_iff, Prod.mk.injEq, Prod.exists]
  constructor
  · rintro ⟨n, c, ⟨hm, hn⟩, rfl, rfl⟩
    by_cases hw : ∃ w ∈ ws, fileOf w.1 = n
    · obtain ⟨w, hw, rfl⟩ := hw
      have := h2 w hw
      rw [Dict.get?_of_mem hwf hm] at this
      cases this
      exact .inl ⟨w.1, w.2, hw, (stem_file (h.nonempty w hw)).symm, contents_stored _⟩
    · have hw : ∀ w ∈ ws, fileOf w.1 ≠ n := fun w hm h => hw ⟨w, hm, h⟩
      have := h3 n hw
      rw [Dict.get?_of_mem hwf hm] at this
      exact .inr ⟨n, c, Dict.mem_of_get? this.symm, hn, hw, rfl, rfl⟩
  · rintro (⟨a, b, hw, rfl, rfl⟩ | ⟨n, c, hm, hn, hw, rfl, rfl⟩)
    · exact ⟨fileOf a, b ++ ['\n'], ⟨Dict.mem_of_get? (h2 _ hw), a, rfl⟩, stem_file (h.nonempty _ hw), contents_stored _⟩
    · refine ⟨n, c, ⟨Dict.mem_of_get? ?_, hn⟩, rfl, rfl⟩
      rw [h3 n hw]
      exact Dict.get?_of_mem hfs hm

/-- A stored workload is read back, if the directory had no query files and the parser does not mind blank lines: every label has
the query that its text stands for, and there are no other labels.
Missing: texts for which blank lines matter, see `C267_literal_violated`, and directories with other query files, see
`C267_stale_violated`. -/
theorem C267_roundtrip_partial {Q : Type} [DecidableEq Q] (le : String → String → Bool) (parse : Text → Option Q)
    {ws : List (Text × Text)} (h : Usable ws) {fs : Files} (hfs : fs.WF) (hno : ∀ n ∈ fs.map Prod.fst, ¬ IsSql n)
    (hp : ∀ w ∈ ws, parse (dbl w.2 ++ ['\n']) = parse w.2) (hq : ∀ w ∈ ws, parse w.2 ≠ none) :
    ∃ g, Yields le (load le parse (persist fs ws).1) g
      ∧ ∀ l q, g l = some q ↔ ∃ w ∈ ws, String.ofList w.1 = l ∧ parse w.2 = some q := by
  have hread : ∀ l t, (l, t) ∈ texts (persist fs ws).1 ↔ ∃ w ∈ ws, w.1 = l ∧ t = dbl w.2 ++ ['\n'] := by
    intro l t
    rw [C267_read h hfs]
    refine or_iff_left ?_
    rintro ⟨n, c, hm, hn, -⟩
    exact hno n (List.mem_map.2 ⟨_, hm, rfl⟩) hn
  have hwf := persist_wf hfs ws
  have hnd : ((texts (persist fs ws).1).map fun f => f.1).Nodup := by
    have he : (texts (persist fs ws).1).map (fun f => f.1)
        = (((persist fs ws).1.filter fun f => ending.isSuffixOf f.1).map Prod.fst).map stem := by
      simp [texts, List.map_map, Function.comp_def]
    rw [he]
    have h1 : (((persist fs ws).1.filter fun f => ending.isSuffixOf f.1).map Prod.fst).Nodup := Dict.WF_filter hwf _
    refine List.Nodup.map_on ?_ h1
    have hform : ∀ x ∈ ((persist fs ws).1.filter fun f => ending.isSuffixOf f.1).map Prod.fst, ∃ w ∈ ws, x = fileOf w.1 := by
      intro x hx
      obtain ⟨⟨n, c⟩, hm, rfl⟩ := List.mem_map.1 hx
      obtain ⟨hm, hs⟩ := List.mem_filter.1 hm
      by_contra hc
      have hc : ∀ w ∈ ws, fileOf w.1 ≠ n := fun w hw he => hc ⟨w, hw, he.symm⟩
      have := (C267_store h fs).2.2 n hc
      rw [Dict.get?_of_mem hwf hm] at this
      exact hno n (List.mem_map.2 ⟨_, Dict.mem_of_get? this.symm, rfl⟩) ((isSql_iff n).1 hs)
    intro x hx y hy hxy
    obtain ⟨v, hv, rfl⟩ := hform x hx
    obtain ⟨w, hw, rfl⟩ := hform y hy
    rw [stem_file (h.nonempty v hv), stem_file (h.nonempty w hw)] at hxy
    rw [hxy]
  have hinj : ∀ a b : Text, String.ofList a = String.ofList b → a = b := fun a b hab => by
    have := congrArg String.toList hab
    simpa using this
  obtain ⟨g, hy, hd⟩ := (C51_read_raise le parse "" ((texts (persist fs ws).1).map fun f => (String.ofList f.1, f.2)) (by
    rw [List.map_map]
    have : (Prod.fst ∘ fun f : Text × Text => (String.ofList f.1, f.2)) = String.ofList ∘ fun f => f.1 := rfl
    rw [this, ← List.map_map]
    exact hnd.map hinj)).2 (by
    intro f hf
    obtain ⟨⟨l, t⟩, hm, rfl⟩ := List.mem_map.1 hf
    obtain ⟨w, hw, rfl, rfl⟩ := (hread _ _).1 hm
    rw [hp w hw]; exact hq w hw)
  refine ⟨g, hy, fun l q => ?_⟩
  rw [hd l q]
  constructor
  · rintro ⟨f, hf, hl, hq⟩
    obtain ⟨⟨a, t⟩, hm, rfl⟩ := List.mem_map.1 hf
    obtain ⟨w, hw, rfl, rfl⟩ := (hread _ _).1 hm
    exact ⟨w, hw, by simpa using hl, by rw [← hp w hw]; exact hq⟩
  · rintro ⟨w, hw, rfl, hq⟩
    exact ⟨(String.ofList w.1, dbl w.2 ++ ['\n']), List.mem_map.2 ⟨(w.1, dbl w.2 ++ ['\n']), (hread _ _).2 ⟨w, hw, rfl, rfl⟩, rfl⟩,
      by simp, by rw [← hq, ← hp w hw]⟩

/-- Texts on a single line are read as they were written, with the line break. -/
theorem C267_single_line (t : Text) (h : '\n' ∉ t) : contents (t ++ ['\n']) = t ++ ['\n'] := by
  rw [contents_stored, dbl_of_not_mem h]

/-- Line breaks in string literals are doubled: the query that is read compares with another value than the one that was stored.
`p` is what comes before the literal, `a` and `b` are its parts. -/
theorem C267_literal_violated (p a b r : Text) (hp : '\'' ∉ p) (ha : '\'' ∉ a) (hb : '\'' ∉ b) :
    let t := p ++ '\'' :: (a ++ '\n' :: b) ++ '\'' :: r
    firstLiteral t = a ++ '\n' :: b ∧ firstLiteral (contents (t ++ ['\n'])) = dbl a ++ '\n' :: '\n' :: dbl b
      ∧ firstLiteral (contents (t ++ ['\n'])) ≠ firstLiteral t := by
  have key : ∀ p x r : Text, '\'' ∉ p → '\'' ∉ x → firstLiteral (p ++ '\'' :: x ++ '\'' :: r) = x := by
    intro p x r hp hx
    have h1 : (p ++ '\'' :: x ++ '\'' :: r).dropWhile (· ≠ '\'') = '\'' :: x ++ '\'' :: r := by
      rw [List.append_assoc, List.dropWhile_append_of_pos (fun c hc => by simpa using fun h : c = '\'' => hp (h ▸ hc))]
      simp
    rw [firstLiteral, h1]
    show (x ++ '\'' :: r).takeWhile _ = x
    rw [List.takeWhile_append_of_pos (fun c hc => by simpa using fun h : c = '\'' => hx (h ▸ hc))]
    simp
  intro t
  have e1 : firstLiteral t = a ++ '\n' :: b := key p _ r hp (by simp [ha, hb])
  have e2 : contents (t ++ ['\n']) = dbl p ++ '\'' :: (dbl a ++ '\n' :: '\n' :: dbl b) ++ '\'' :: (dbl r ++ ['\n']) := by
    rw [contents_stored]
    simp [t, dbl_append, dbl]
  have e3 : firstLiteral (contents (t ++ ['\n'])) = dbl a ++ '\n' :: '\n' :: dbl b := by
    rw [e2]
    exact key _ _ _ (by rwa [mem_dbl]) (by simp [mem_dbl, ha, hb])
  refine ⟨e1, e3, fun h => ?_⟩
  rw [e1, e3] at h
  have := congrArg List.length h
  have h1 := le_length_dbl a
  have h2 := le_length_dbl b
  simp at this; omega

/-- Query files that have been in the directory before are read as part of the workload. -/
theorem C267_stale_violated {ws : List (Text × Text)} (h : Usable ws) {fs : Files} (hfs : fs.WF) (l c : Text) (hl : l ≠ [])
    (hm : (fileOf l, c) ∈ fs) (hw : l ∉ ws.map Prod.fst) : (l, contents c) ∈ texts (persist fs ws).1 :=
  (C267_read h hfs l _).2 (.inr ⟨fileOf l, c, hm, ⟨l, rfl⟩, fun w hws he => hw (List.mem_map.2 ⟨w, hws, fileOf_inj he⟩),
    (stem_file hl).symm, rfl⟩)

/-- Labels with slashes, as they are read from subdirectories, cannot be stored: the queries before the first of them are
written, then an error is raised. -/
theorem C267_slash_violated (fs : Files) (before after : List (Text × Text)) (l t : Text) (h : ∀ w ∈ before, '/' ∉ w.1)
    (hl : '/' ∈ l) : persist fs (before ++ (l, t) :: after) = ((persist fs before).1, false) := by
  induction before generalizing fs with
  | nil => simp [persist, hl]
  | cons w ws ih =>
    obtain ⟨a, b⟩ := w
    have : '/' ∉ a := h (a, b) (by simp)
    simp only [List.cons_append, persist, this, ↓reduceIte]
    exact ih _ fun w hw => h w (by simp [hw])

/-- An empty label does not survive: its file is called `.sql`, which is then its label. -/
theorem C267_empty_label_violated (t : Text) : texts (persist [] [([], t)]).1 = [(['.', 's', 'q', 'l'], dbl t ++ ['\n'])] := by
  have h := contents_stored t
  simp [persist, texts, Dict.set, ending, stem, h, List.isSuffixOf]

/-- When the process ends while a workload is stored, the queries before that point are complete, the one at that point is cut off,
and the others are as they were; so are all other files. -/
theorem C267_crash {before after : List (Text × Text)} {l t : Text} (h : Usable (before ++ (l, t) :: after)) (fs : Files) (m : Nat) :
    let s := cut fs (before ++ (l, t) :: after) before.length m
    (∀ w ∈ before, s.get? (fileOf w.1) = some (w.2 ++ ['\n'])) ∧ s.get? (fileOf l) = some ((t ++ ['\n']).take m)
      ∧ (∀ n, (∀ w ∈ before, fileOf w.1 ≠ n) → fileOf l ≠ n → s.get? n = fs.get? n) := by
  have hs : ∀ w ∈ before, '/' ∉ w.1 := fun w hw => h.noSlash w (by simp [hw])
  have hnd := h.nodup
  rw [List.map_append, List.nodup_append] at hnd
  have hl : ∀ w ∈ before, w.1 ≠ l := fun w hw => hnd.2.2 _ (List.mem_map.2 ⟨w, hw, rfl⟩) l (by simp)
  obtain ⟨-, h2, h3⟩ := persist_get (fs := fs) hs hnd.1
  have e : cut fs (before ++ (l, t) :: after) before.length m = (persist fs before).1.set (fileOf l) ((t ++ ['\n']).take m) := by
    simp [cut, fileOf, ending]
  intro s
  simp only [s, e]
  refine ⟨fun w hw => ?_, by rw [Dict.get?_set]; simp, fun n hn hln => ?_⟩
  · rw [Dict.get?_set, if_neg (fun he => hl w hw (fileOf_inj he).symm)]
    exact h2 w hw
  · rw [Dict.get?_set, if_neg hln]
    exact h3 n hn

/-- Storing is not atomic: a query that was there before can be lost, without the new one being there. -/
theorem C267_lost_violated (l t old : Text) (hold : old ≠ []) :
    let s := cut [(fileOf l, old)] [(l, t)] 0 0
    s.get? (fileOf l) = some [] ∧ s.get? (fileOf l) ≠ some old ∧ s.get? (fileOf l) ≠ some (t ++ ['\n']) := by
  have e : (cut [(fileOf l, old)] [(l, t)] 0 0).get? (fileOf l) = some [] := by
    simp [cut, persist, Dict.set, Dict.get?, fileOf, ending]
  simp only [e]
  refine ⟨trivial, fun h => hold (by cases h; rfl), by simp⟩

/-! ## Examples -/

/-- Two queries. -/
def ex : List (Text × Text) := [("1a".toList, "SELECT *\nFROM t".toList), ("1b".toList, "SELECT 1".toList)]

example : Usable ex := ⟨by decide, by decide, by decide⟩

/-- A directory without query files. -/
example : Dict.WF ([("readme.md".toList, [])] : Files) ∧ ∀ n ∈ ([("readme.md".toList, ([] : Text))] : Files).map Prod.fst, ¬ IsSql n := by
  refine ⟨by unfold Dict.WF; decide, ?_⟩
  intro n hn
  rw [← isSql_iff]
  revert n; decide

/-- What is read of it: blank lines have been added. -/
example : texts (persist [("readme.md".toList, [])] ex).1
    = [("1a".toList, "SELECT *\n\nFROM t\n".toList), ("1b".toList, "SELECT 1\n".toList)] := by decide

/-- A parser that does not mind blank lines. -/
example : ∀ w ∈ ex, (fun t : Text => some (t.filter (· ≠ '\n'))) (dbl w.2 ++ ['\n']) = (fun t : Text => some (t.filter (· ≠ '\n'))) w.2 := by
  decide

end PB.WorkStoreProps
