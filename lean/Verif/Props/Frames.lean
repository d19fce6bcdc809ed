import Verif.Model.Frames
set_option linter.unusedVariables false
set_option linter.unusedSimpArgs false

namespace PB.FramesProps
open PB.Frames

/-- The file formats and their suffixes. -/
def Suffixes : List (Fmt × List String) :=
  [(.csv, [".csv"]), (.parquet, [".parquet"]), (.excel, [".xlsx", ".xls"]), (.json, [".json"]), (.hdf, [".hdf", ".h5", ".hdf5"]), (.feather, [".feather"]), (.orc, [".orc"])]

/-- The suffix belongs to the format, in any case of its letters. -/
def IsFmt (suffix : String) (fmt : Fmt) : Prop := ∃ ss, (fmt, ss) ∈ Suffixes ∧ suffix.toLower ∈ ss

/-- **C261.** Reading and writing use the same format for each suffix, whatever the case of its letters; other suffixes are errors. -/
theorem C261_formats (suffix : String) (fmt : Fmt) : (writeFmt suffix = some fmt ↔ IsFmt suffix fmt) ∧ (readFmt suffix = some fmt ↔ IsFmt suffix fmt) := by
  have key : writeFmt suffix = readFmt suffix := rfl
  rw [key, and_self]
  unfold readFmt IsFmt Suffixes
  generalize suffix.toLower = s
  simp only [List.mem_cons, Prod.mk.injEq, List.not_mem_nil, or_false]
  constructor
  · intro h
    split_ifs at h with h1 h2 h3 h4 h5 h6 h7 <;> (simp only [Option.some.injEq] at h; subst h)
    · exact ⟨[".csv"], by simp, by simp [h1]⟩
    · exact ⟨[".parquet"], by simp, by simp [h2]⟩
    · exact ⟨[".xlsx", ".xls"], by simp, by simpa using h3⟩
    · exact ⟨[".json"], by simp, by simp [h4]⟩
    · exact ⟨[".hdf", ".h5", ".hdf5"], by simp, by simpa using h5⟩
    · exact ⟨[".feather"], by simp, by simp [h6]⟩
    · exact ⟨[".orc"], by simp, by simp [h7]⟩
  · rintro ⟨ss, h, hs⟩
    rcases h with ⟨rfl, rfl⟩ | ⟨rfl, rfl⟩ | ⟨rfl, rfl⟩ | ⟨rfl, rfl⟩ | ⟨rfl, rfl⟩ | ⟨rfl, rfl⟩ | ⟨rfl, rfl⟩ <;> simp only [List.mem_cons, List.not_mem_nil, or_false] at hs
    · subst hs; rfl
    · subst hs; rfl
    · rcases hs with rfl | rfl <;> rfl
    · subst hs; rfl
    · rcases hs with rfl | rfl | rfl <;> rfl
    · subst hs; rfl
    · subst hs; rfl

/-- Columns without complex objects: columns of type `object` contain texts only. -/
def PlainCol (c : Column) : Prop := c.object = true → ∀ x ∈ c.cells, ∃ s, x = .text s

theorem convert_plain (dumps : Cell → String) (c : Column) (h : PlainCol c) : convert dumps c = c := by
  unfold convert
  split_ifs with h1 h2
  · rfl
  · rfl
  · exfalso
    apply h2
    rw [List.all_eq_true]
    intro x hx
    obtain ⟨s, rfl⟩ := h (by simpa using h1) x hx
    rfl

theorem map_plain (dumps : Cell → String) : (f : Frame) → (∀ c ∈ f, PlainCol c) → f.map (convert dumps) = f
  | [], _ => rfl
  | c :: f, h => by rw [List.map_cons, convert_plain dumps c (h c (by simp)), map_plain dumps f fun x hx => h x (by simp [hx])]

theorem read_write (dumps : Cell → String) (d : Disk) (f : Frame) (dir name suffix : String) (fmt : Fmt) (hf : IsFmt suffix fmt) :
    ∃ d', writeDf dumps d f dir name suffix = (true, f.map (convert dumps), d') ∧ dir ∈ d'.dirs ∧ (∀ x ∈ d.dirs, x ∈ d'.dirs) ∧ readDf d' dir name suffix = some (f.map (convert dumps)) ∧
      ∀ p, p ≠ (dir, name, suffix) → d'.files p = d.files p := by
  have hw := (C261_formats suffix fmt).1.2 hf
  have hr := (C261_formats suffix fmt).2.2 hf
  unfold writeDf
  rw [hw]
  refine ⟨_, rfl, ?_, ?_, ?_, ?_⟩
  · simp only []
    split_ifs with h
    · exact h
    · simp
  · intro x hx
    simp only []
    split_ifs with h
    · exact hx
    · simp [hx]
  · simp [readDf, hr]
  · intro p hp
    simp only [if_neg hp]
    split_ifs <;> rfl

/-- **C261 (partial).** A data frame without complex objects that is written to a file is read again as it was, and it does not change. The directory exists afterwards, and no other file changes. (Missing: complex objects, see `C261_objects`, and texts with missing
values, see `C261_missing_violated`.) -/
theorem C261_roundtrip_partial (dumps : Cell → String) (d : Disk) (f : Frame) (dir name suffix : String) (fmt : Fmt) (hf : IsFmt suffix fmt) (hp : ∀ c ∈ f, PlainCol c) :
    ∃ d', writeDf dumps d f dir name suffix = (true, f, d') ∧ dir ∈ d'.dirs ∧ (∀ x ∈ d.dirs, x ∈ d'.dirs) ∧ readDf d' dir name suffix = some f ∧ ∀ p, p ≠ (dir, name, suffix) → d'.files p = d.files p := by
  have := read_write dumps d f dir name suffix fmt hf
  rwa [map_plain dumps f hp] at this

/-- The hypotheses are met. -/
example : IsFmt ".CSV" .csv ∧ PlainCol ⟨"label", true, [.text "1a", .text "1b"]⟩ ∧ PlainCol ⟨"time", false, [.num 1, .missing]⟩ := by
  refine ⟨⟨[".csv"], by simp [Suffixes], ?_⟩, ?_, ?_⟩
  · rw [show String.toLower ".CSV" = ".csv" by decide +kernel]; simp
  · intro _ x hx; simp at hx; rcases hx with rfl | rfl <;> exact ⟨_, rfl⟩
  · intro h; simp at h

/-- **C261.** In columns with complex objects each value is replaced by its JSON text; missing values remain. Names and number of rows are kept. -/
theorem C261_objects (dumps : Cell → String) (d : Disk) (f : Frame) (dir name suffix : String) (fmt : Fmt) (hf : IsFmt suffix fmt) (i : Nat) (c : Column) (hc : f[i]? = some c) (ho : c.object = true) (x : Cell) (hx : x ∈ c.cells) (hn : ∀ s, x ≠ .text s) :
    ∃ d' f' c', writeDf dumps d f dir name suffix = (true, f', d') ∧ readDf d' dir name suffix = some f' ∧ f'[i]? = some c' ∧ c'.name = c.name ∧ c'.cells.length = c.cells.length ∧
      ∀ (j : Nat) (y : Cell), c.cells[j]? = some y → (y = .missing → c'.cells[j]? = some .missing) ∧ (y ≠ .missing → c'.cells[j]? = some (.text (dumps y))) := by
  obtain ⟨d', h1, -, -, h2, -⟩ := read_write dumps d f dir name suffix fmt hf
  have hcv : convert dumps c = { c with cells := c.cells.map (toJson dumps) } := by
    unfold convert
    rw [if_neg (by simp [ho]), if_neg]
    intro hall
    have := List.all_eq_true.1 hall x hx
    cases x with
    | text s => exact hn s rfl
    | num | missing | other => simp [isText] at this
  refine ⟨d', _, convert dumps c, h1, h2, by rw [List.getElem?_map, hc]; rfl, by rw [hcv], by rw [hcv]; simp, fun j y hy => ?_⟩
  rw [hcv]
  simp only [List.getElem?_map, hy, Option.map_some]
  constructor
  · rintro rfl; rfl
  · intro h
    cases y with
    | missing => exact absurd rfl h
    | num | text | other => rfl

/-- The hypotheses are met. -/
example : ∀ s, Cell.other 1 ≠ .text s := fun s h => nomatch h

/-- **C261 (violated).** Writing changes the data frame of the caller if a column contains complex objects, even if the format is not supported. -/
theorem C261_changes_violated (dumps : Cell → String) (d : Disk) (dir name suffix col : String) (n : Nat) : (writeDf dumps d [⟨col, true, [.other n]⟩] dir name suffix).2.1 = [⟨col, true, [.text (dumps (.other n))]⟩] := by
  unfold writeDf
  cases writeFmt suffix <;> simp [convert, isText, toJson]

/-- **C261 (violated).** Texts in a column with a missing value are quoted: other texts are read than were written. -/
theorem C261_missing_violated (dumps : Cell → String) (hd : ∀ s, dumps (.text s) ≠ s) (d : Disk) (dir name suffix col s : String) (fmt : Fmt) (hf : IsFmt suffix fmt) :
    ∃ d' f', writeDf dumps d [⟨col, true, [.text s, .missing]⟩] dir name suffix = (true, f', d') ∧ readDf d' dir name suffix = some [⟨col, true, [.text (dumps (.text s)), .missing]⟩] ∧ dumps (.text s) ≠ s := by
  obtain ⟨d', h1, -, -, h2, -⟩ := read_write dumps d [⟨col, true, [.text s, .missing]⟩] dir name suffix fmt hf
  refine ⟨d', _, h1, ?_, hd s⟩
  rw [h2]
  simp [convert, isText, toJson]

/-- The hypotheses are met: JSON texts are quoted. -/
example : ∀ s, (fun c => match c with | Cell.text s => "\"" ++ s ++ "\"" | _ => "") (.text s) ≠ s := by
  intro s h
  have := congrArg String.length h
  simp only [String.length_append] at this
  have h1 : "\"".length = 1 := by decide +kernel
  omega

/-- **C261.** Other suffixes are errors, and no file changes. -/
theorem C261_unsupported (dumps : Cell → String) (d : Disk) (f : Frame) (dir name suffix : String) (h : ∀ fmt, ¬ IsFmt suffix fmt) :
    (writeDf dumps d f dir name suffix).1 = false ∧ (writeDf dumps d f dir name suffix).2.2.files = d.files ∧ readDf d dir name suffix = none := by
  have hw : writeFmt suffix = none := by
    rcases hx : writeFmt suffix with _ | fmt
    · rfl
    · exact absurd ((C261_formats suffix fmt).1.1 hx) (h fmt)
  have hr : readFmt suffix = none := hw
  unfold writeDf readDf
  rw [hw, hr]
  refine ⟨rfl, ?_, rfl⟩
  simp only []
  split_ifs <;> rfl

/-- The hypotheses are met. -/
example : ∀ fmt, ¬ IsFmt ".txt" fmt := by
  rintro fmt ⟨ss, h, hs⟩
  rw [show String.toLower ".txt" = ".txt" by decide +kernel] at hs
  simp only [Suffixes, List.mem_cons, Prod.mk.injEq, List.not_mem_nil, or_false] at h
  rcases h with ⟨rfl, rfl⟩ | ⟨rfl, rfl⟩ | ⟨rfl, rfl⟩ | ⟨rfl, rfl⟩ | ⟨rfl, rfl⟩ | ⟨rfl, rfl⟩ | ⟨rfl, rfl⟩ <;> simp at hs

end PB.FramesProps
