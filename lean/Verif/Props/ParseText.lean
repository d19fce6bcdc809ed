import Verif.Model.ParseText
import Mathlib.Tactic.Common
import Mathlib.Data.List.Infix

/-!
# C164–C167: hint comments, SET commands, EXPLAIN and the options of the parser
-/

set_option linter.unusedSimpArgs false
set_option linter.unusedVariables false
set_option linter.unnecessarySimpa false
set_option linter.unnecessarySeqFocus false

namespace PB.PTextProps

open PB.PText

/-! ## Specification: comments in SQL texts -/

/-- A comment of SQL. -/
inductive Comment where
  /-- `-- …` up to the end of the line -/
  | line (body : Txt)
  /-- `/* … */` -/
  | block (body : Txt)

/-- How a comment is written in the text of a query. -/
def Comment.text : Comment → Txt
  | .line b => '-' :: '-' :: (b ++ ['\n'])
  | .block b => '/' :: '*' :: (b ++ ['*', '/'])

/-- A line comment ends at the end of the line; a block comment is closed by the first `*/`. -/
def Comment.Ok : Comment → Prop
  | .line b => '\n' ∉ b
  | .block b => ¬ ['*', '/'] <:+: '*' :: b

/-- White space. -/
def Blank (s : Txt) : Prop := ∀ c ∈ s, c = ' ' ∨ c = '\n' ∨ c = '\t' ∨ c = '\r' ∨ c = Char.ofNat 11 ∨ c = Char.ofNat 12

/-- `s` without white space at its end. -/
def TrimmedEnd (s t : Txt) : Prop := ∃ w, Blank w ∧ s = t ++ w ∧ ∀ c t', t = t' ++ [c] → ¬ Blank [c]

/-- How a comment should appear in the hint block: as it was written, without the white space at the end of the line. -/
def Comment.Shown : Comment → Txt → Prop
  | .line b, t => ∃ b', TrimmedEnd b b' ∧ t = '-' :: '-' :: b'
  | .block b, t => t = '/' :: '*' :: (b ++ ['*', '/'])

/-- A query text that starts with the given comments, separated by white space. -/
inductive Leads : List Comment → Txt → Txt → Prop
  | done (w rest : Txt) (hw : Blank w) : Leads [] rest (w ++ rest)
  | comment (w : Txt) (c : Comment) (cs : List Comment) (rest more : Txt) (hw : Blank w) (hc : c.Ok)
      (h : Leads cs rest more) : Leads (c :: cs) rest (w ++ c.text ++ more)

/-- The query after its leading comments: starts with neither white space nor a comment. -/
def Starts (rest : Txt) : Prop :=
  (∀ c t, rest = c :: t → ¬ Blank [c]) ∧ ¬ ['-', '-'] <+: rest

/-! ## Lemmas about texts -/

theorem ws_iff (c : Char) : ws c = true ↔ Blank [c] := by
  simp [ws, Blank, or_assoc]

theorem blank_all {w : Txt} (h : Blank w) : ∀ c ∈ w, ws c = true := by
  intro c hc
  rw [ws_iff]
  intro d hd
  rw [List.mem_singleton.mp hd]
  exact h c hc

theorem lstrip_blank {w : Txt} (h : Blank w) (s : Txt) : lstrip (w ++ s) = lstrip s := by
  unfold lstrip
  rw [List.dropWhile_append_of_pos (blank_all h)]

theorem lstrip_cons {c : Char} {s : Txt} (h : ¬ Blank [c]) : lstrip (c :: s) = c :: s := by
  unfold lstrip
  rw [List.dropWhile_cons_of_neg]
  rw [ws_iff]; exact h

theorem not_blank_dash : ¬ Blank ['-'] := by rw [← ws_iff]; decide
theorem not_blank_slash : ¬ Blank ['/'] := by rw [← ws_iff]; decide

theorem dropWhile_split (s : Txt) : ∃ w, Blank w ∧ s = w ++ s.dropWhile ws ∧
    ∀ c t, s.dropWhile ws = c :: t → ¬ Blank [c] := by
  induction s with
  | nil => exact ⟨[], by simp [Blank], by simp, by simp⟩
  | cons a s ih =>
    obtain ⟨w, hw, he, hn⟩ := ih
    by_cases h : ws a = true
    · refine ⟨a :: w, ?_, ?_, ?_⟩
      · intro c hc
        rcases List.mem_cons.mp hc with rfl | hc
        · exact (ws_iff _).mp h _ (List.mem_singleton.mpr rfl)
        · exact hw _ hc
      · rw [List.dropWhile_cons_of_pos h, List.cons_append, ← he]
      · rw [List.dropWhile_cons_of_pos h]; exact hn
    · refine ⟨[], by simp [Blank], by rw [List.dropWhile_cons_of_neg h]; rfl, ?_⟩
      rw [List.dropWhile_cons_of_neg h]
      intro c t ht
      cases ht
      rwa [← ws_iff]

theorem rstrip_spec (s : Txt) : TrimmedEnd s ((s.reverse.dropWhile ws).reverse) := by
  obtain ⟨w, hw, he, hn⟩ := dropWhile_split s.reverse
  refine ⟨w.reverse, fun c hc => hw c (by simpa using hc), ?_, ?_⟩
  · have := congrArg List.reverse he
    simpa using this
  · intro c t' ht
    have := congrArg List.reverse ht
    simp at this
    exact hn c _ this

theorem findSub_none {p : Txt} (hp : p ≠ []) {s : Txt} (h : ¬ p <:+: s) : findSub p s = none := by
  induction s with
  | nil => simp [findSub, hp]
  | cons c s ih =>
    have h1 : ¬ p <+: c :: s := fun x => h x.isInfix
    have h2 : ¬ p <:+: s := fun x => h (x.trans (List.suffix_cons c s).isInfix)
    simp [findSub, h1, ih h2]

theorem find_pair {a b : Char} (hab : a ≠ b) (x rest : Txt) (h : ¬ [a, b] <:+: x) :
    findSub [a, b] (x ++ a :: b :: rest) = some x.length := by
  induction x with
  | nil => simp [findSub]
  | cons c x ih =>
    have h2 : ¬ [a, b] <:+: x := fun y => h (y.trans (List.suffix_cons c x).isInfix)
    have h1 : ¬ [a, b] <+: c :: (x ++ a :: b :: rest) := by
      intro y
      rw [List.cons_prefix_cons] at y
      obtain ⟨rfl, y⟩ := y
      cases x with
      | nil => simp [hab.symm] at y
      | cons d x =>
        simp at y
        apply h
        refine ⟨[], x, ?_⟩
        simp [← y]
    rw [List.cons_append, findSub, ih h2]
    simp only [List.isPrefixOf_iff_prefix, h1, if_false, Option.map_some, List.length_cons]

theorem find_newline (x rest : Txt) (h : '\n' ∉ x) : findSub ['\n'] (x ++ '\n' :: rest) = some x.length := by
  induction x with
  | nil => simp [findSub]
  | cons c x ih =>
    simp only [List.mem_cons, not_or] at h
    rw [List.cons_append, findSub, ih h.2]
    simp [h.1]

/-! ### The recursion needs no bound -/

theorem hintLoop_acc (n : Nat) (s : Txt) (acc : List Txt) :
    hintLoop n s acc = (hintLoop n s []).map (acc ++ ·) := by
  induction n generalizing s acc with
  | zero => simp [hintLoop]
  | succ n ih =>
    simp only [hintLoop]
    split
    · split
      · simp
      · rw [ih, ih (acc := [] ++ _)]
        cases hintLoop n _ [] <;> simp
    · split
      · simp
      · split
        · simp
        · rw [ih, ih (acc := [] ++ _)]
          cases hintLoop n _ [] <;> simp

theorem lstrip_length (s : Txt) : (lstrip s).length ≤ s.length := by
  unfold lstrip
  exact (List.dropWhile_sublist ws).length_le

theorem findSub_pos {p s : Txt} (hp : p ≠ []) {e : Nat} (h : findSub p s = some e) : e + p.length ≤ s.length := by
  induction s generalizing e with
  | nil => simp [findSub, hp] at h
  | cons c s ih =>
    rw [findSub] at h
    split at h
    · rename_i hpre
      rw [List.isPrefixOf_iff_prefix] at hpre
      cases h
      simpa using hpre.length_le
    · cases h' : findSub p s with
      | none => simp [h'] at h
      | some j =>
        simp [h'] at h
        have := ih h'
        simp
        omega

theorem fuel_enough (s : Txt) (acc : List Txt) (n m : Nat) (hn : s.length < n) (hm : s.length < m) :
    hintLoop n s acc = hintLoop m s acc := by
  induction n generalizing s acc m with
  | zero => omega
  | succ n ih =>
    cases m with
    | zero => omega
    | succ m =>
      have hl := lstrip_length s
      simp only [hintLoop]
      split
      · rename_i hdash
        split
        · rfl
        · rename_i e he
          have h0 : e ≠ 0 := by
            rintro rfl
            cases hr : lstrip s with
            | nil => simp [hr] at hdash
            | cons c r =>
              rw [hr] at he hdash
              rw [List.isPrefixOf_iff_prefix, List.cons_prefix_cons] at hdash
              rw [findSub, ← hdash.1] at he
              simp at he
          have := findSub_pos (by simp) he
          simp at this
          apply ih <;> simp only [List.length_drop] <;> omega
      · split
        · rfl
        · split
          · rfl
          · rename_i e he
            have := findSub_pos (by simp) he
            simp at this
            apply ih <;> simp only [List.length_drop] <;> omega

/-! ### One step for each kind of leading comment -/

theorem step_line (w b more : Txt) (hw : Blank w) (hb : '\n' ∉ b) :
    hintComments (w ++ (Comment.line b).text ++ more) =
      (hintComments more).map (('-' :: '-' :: (b.reverse.dropWhile ws).reverse) :: ·) := by
  have hl : lstrip (w ++ (Comment.line b).text ++ more) = ('-' :: '-' :: b) ++ '\n' :: more := by
    rw [List.append_assoc, lstrip_blank hw]
    simp only [Comment.text, List.cons_append, List.append_assoc, List.nil_append]
    rw [lstrip_cons not_blank_dash]
  have hf : findSub ['\n'] (('-' :: '-' :: b) ++ '\n' :: more) = some (b.length + 2) := by
    rw [find_newline]
    · rfl
    · simp [hb]
  unfold hintComments
  rw [hintLoop]
  simp only [hl, hf]
  rw [if_pos (by simp)]
  have ht : (('-' :: '-' :: b) ++ '\n' :: more).take (b.length + 2) = '-' :: '-' :: b := by
    simp
  have hd : (('-' :: '-' :: b) ++ '\n' :: more).drop (b.length + 2) = '\n' :: more := by
    simp
  have hs : strip ('-' :: '-' :: b) = '-' :: '-' :: (b.reverse.dropWhile ws).reverse := by
    unfold strip
    rw [lstrip_cons not_blank_dash]
    have e1 : ('-' :: '-' :: b).reverse = b.reverse ++ ['-', '-'] := by simp
    have e2 : ['-', '-'].dropWhile ws = ['-', '-'] := by decide
    rw [e1, List.dropWhile_append]
    split
    · rename_i hz
      rw [e2]
      rw [List.isEmpty_iff] at hz
      rw [hz]; rfl
    · simp
  rw [ht, hd, hs, hintLoop_acc]
  have : hintLoop (w ++ (Comment.line b).text ++ more).length ('\n' :: more) [] = hintLoop (more.length + 1) more [] := by
    rw [fuel_enough _ _ _ (more.length + 2) (by simp [Comment.text]; omega) (by simp)]
    have : lstrip ('\n' :: more) = lstrip more := by
      have := lstrip_blank (w := ['\n']) (by simp [Blank]) more
      simpa using this
    rw [fuel_enough more _ (more.length + 1) (more.length + 2) (by simp) (by simp)]
    simp only [hintLoop, this]
  rw [this]
  simp

theorem step_block (w b more : Txt) (hw : Blank w) (hb : ¬ ['*', '/'] <:+: '*' :: b) :
    hintComments (w ++ (Comment.block b).text ++ more) =
      (hintComments more).map ((Comment.block b).text :: ·) := by
  have hl : lstrip (w ++ (Comment.block b).text ++ more) = '/' :: (('*' :: b) ++ '*' :: '/' :: more) := by
    rw [List.append_assoc, lstrip_blank hw]
    simp only [Comment.text, List.cons_append, List.append_assoc, List.nil_append]
    rw [lstrip_cons not_blank_slash]
  have hf : findSub ['*', '/'] ('/' :: (('*' :: b) ++ '*' :: '/' :: more)) = some (b.length + 2) := by
    rw [findSub, find_pair (by decide) _ _ hb]
    simp
  have ho : findSub ['/', '*'] ('/' :: (('*' :: b) ++ '*' :: '/' :: more)) = some 0 := by
    simp [findSub]
  unfold hintComments
  rw [hintLoop]
  simp only [hl, hf, ho]
  rw [if_neg (by simp)]
  have ht : strip (slice ('/' :: (('*' :: b) ++ '*' :: '/' :: more)) 0 (b.length + 2 + 2)) = (Comment.block b).text := by
    have : slice ('/' :: (('*' :: b) ++ '*' :: '/' :: more)) 0 (b.length + 2 + 2) = (Comment.block b).text := by
      simp [slice, Comment.text]
      rw [List.take_append]
      simp
    rw [this]
    unfold strip
    rw [Comment.text, lstrip_cons not_blank_slash]
    have e1 : ('/' :: '*' :: (b ++ ['*', '/'])).reverse = '/' :: '*' :: ('/' :: '*' :: b).reverse := by simp
    rw [e1, List.dropWhile_cons_of_neg (by decide)]
    simp
  have hd : ('/' :: (('*' :: b) ++ '*' :: '/' :: more)).drop (b.length + 2 + 2) = more := by
    simp
  rw [ht, hd, hintLoop_acc]
  rw [fuel_enough more _ _ (more.length + 1) (by simp [Comment.text]; omega) (by simp)]
  simp

theorem step_done (w rest : Txt) (hw : Blank w) (hs : Starts rest) (hc : ¬ ['/', '*'] <:+: rest) :
    hintComments (w ++ rest) = some [] := by
  have hl : lstrip (w ++ rest) = rest := by
    rw [lstrip_blank hw]
    cases rest with
    | nil => rfl
    | cons c t => exact lstrip_cons (hs.1 c t rfl)
  unfold hintComments
  rw [hintLoop]
  simp only [hl]
  rw [if_neg (by rw [List.isPrefixOf_iff_prefix]; exact hs.2), findSub_none (by simp) hc]

/-! ## C164: the hint block consists of the leading comments -/

/-- **C164** (partial).  If a query text consists of comments followed by a query that contains no block comment (and no
`/*` in any other place), the hint block consists of exactly these comments, in this order, as they were written; the
*SET* commands become its preparatory statements.  There is no hint block exactly if there are no comments and no
commands.

Missing: texts with `/*` after the leading comments, see the `_violated` theorems. -/
theorem C164_leading_comments_partial (cs : List Comment) (rest text : Txt) (h : Leads cs rest text)
    (hs : Starts rest) (hc : ¬ ['/', '*'] <:+: rest) (cmds : List Txt) (hcmds : ∀ c ∈ cmds, c ≠ []) :
    ∃ shown : List Txt, List.Forall₂ Comment.Shown cs shown ∧
      hintBlock text cmds =
        some (if cs = [] ∧ cmds = [] then none
          else some ⟨List.intercalate ['\n'] cmds, List.intercalate ['\n'] shown⟩) := by
  have key : ∃ shown : List Txt, List.Forall₂ Comment.Shown cs shown ∧ hintComments text = some shown := by
    induction h with
    | done w rest hw => exact ⟨[], .nil, step_done w rest hw hs hc⟩
    | comment w c cs rest more hw hok h ih =>
      obtain ⟨shown, hf, he⟩ := ih hs hc
      cases c with
      | line b =>
        refine ⟨_ :: shown, .cons ?_ hf, by rw [step_line w b more hw hok, he]; rfl⟩
        exact ⟨_, rstrip_spec b, rfl⟩
      | block b =>
        exact ⟨_ :: shown, .cons rfl hf, by rw [step_block w b more hw hok, he]; rfl⟩
  obtain ⟨shown, hf, he⟩ := key
  refine ⟨shown, hf, ?_⟩
  have hj : ∀ l : List Txt, joinLines l = List.intercalate ['\n'] l := by
    intro l
    induction l with
    | nil => rfl
    | cons a l ih =>
      cases l with
      | nil => simp [joinLines, List.intercalate]
      | cons b l => rw [joinLines, ih]; simp [List.intercalate]; simp
  have hne : ∀ l : List Txt, (∀ c ∈ l, c ≠ []) → (joinLines l = [] ↔ l = []) := by
    intro l hl
    cases l with
    | nil => simp [joinLines]
    | cons a l =>
      have := hl a (by simp)
      cases l <;> simp [joinLines, this]
  have hshown : ∀ c ∈ shown, c ≠ [] := by
    clear he h
    induction hf with
    | nil => simp
    | @cons a b l₁ l₂ hab _ ih =>
      intro c hc
      rcases List.mem_cons.mp hc with rfl | hc
      · cases a with
        | line x => obtain ⟨b', _, rfl⟩ := hab; simp
        | block x => rw [show c = _ from hab]; simp
      · exact ih c hc
  have hempty : shown = [] ↔ cs = [] := by
    cases hf <;> simp
  unfold hintBlock
  rw [he]
  have e1 := hne _ hshown
  have e2 := hne _ hcmds
  simp only [Option.map_some, mkHint, Option.some.injEq, Bool.and_eq_true, List.isEmpty_iff, e1, e2, hempty, ← hj]
  by_cases h1 : cs = [] <;> by_cases h2 : cmds = [] <;> simp [h1, h2]

/-- The hypotheses of `C164_leading_comments_partial` are met by a text with both kinds of comments. -/
example : Leads [.block "=pg_lab= Card(R S #42) ".toList, .line " by hand  ".toList] "SELECT 1".toList
      "  /*=pg_lab= Card(R S #42) */-- by hand  \n SELECT 1".toList ∧
    Starts "SELECT 1".toList ∧ ¬ ['/', '*'] <:+: "SELECT 1".toList := by
  refine ⟨?_, ⟨?_, by decide⟩, by decide⟩
  · exact .comment "  ".toList _ _ _ "-- by hand  \n SELECT 1".toList (by simp [Blank]) (by simp only [Comment.Ok]; decide)
      (.comment [] _ _ _ " SELECT 1".toList (by simp [Blank]) (by simp only [Comment.Ok]; decide)
        (.done " ".toList _ (by simp [Blank])))
  · rintro c t h
    cases h
    rw [← ws_iff]; decide

theorem step_inner (p b rest : Txt) (hp : Starts p) (hp0 : p ≠ []) (hd : p ≠ ['-']) (h1 : ¬ ['/', '*'] <:+: p)
    (h2 : ¬ ['*', '/'] <:+: p ++ '/' :: '*' :: b) :
    hintComments (p ++ (Comment.block b).text ++ rest) = (hintComments rest).map ((Comment.block b).text :: ·) := by
  obtain ⟨c, p', rfl⟩ : ∃ c p', p = c :: p' := by
    cases p with
    | nil => exact absurd rfl hp0
    | cons c p' => exact ⟨c, p', rfl⟩
  have hl : lstrip ((c :: p') ++ (Comment.block b).text ++ rest) = (c :: p') ++ (Comment.block b).text ++ rest := by
    simp only [List.cons_append]
    exact lstrip_cons (hp.1 c p' rfl)
  have hdash : ¬ ['-', '-'] <+: (c :: p') ++ (Comment.block b).text ++ rest := by
    intro h
    apply hp.2
    simp only [List.cons_append, List.cons_prefix_cons] at h ⊢
    refine ⟨h.1, ?_⟩
    cases p' with
    | nil => exact absurd (by rw [h.1]) hd
    | cons d p'' =>
      have := h.2
      simp only [List.cons_append, List.cons_prefix_cons] at this
      simp [← this.1]
  have ho : findSub ['/', '*'] ((c :: p') ++ (Comment.block b).text ++ rest) = some (c :: p').length := by
    have := find_pair (a := '/') (b := '*') (by decide) (c :: p') (b ++ ['*', '/'] ++ rest) h1
    simpa [Comment.text] using this
  have hc : findSub ['*', '/'] ((c :: p') ++ (Comment.block b).text ++ rest) = some ((c :: p').length + b.length + 2) := by
    have := find_pair (a := '*') (b := '/') (by decide) ((c :: p') ++ '/' :: '*' :: b) rest h2
    simp only [Comment.text]
    simp only [List.append_assoc, List.cons_append, List.nil_append] at this ⊢
    rw [this]
    simp
    omega
  have hs : slice ((c :: p') ++ (Comment.block b).text ++ rest) (c :: p').length ((c :: p').length + b.length + 2 + 2) =
      (Comment.block b).text := by
    unfold slice
    rw [List.append_assoc, List.drop_left]
    have : (c :: p').length + b.length + 2 + 2 - (c :: p').length = (Comment.block b).text.length := by
      simp [Comment.text]; omega
    rw [this, List.take_left]
  have hst : strip (Comment.block b).text = (Comment.block b).text := by
    unfold strip
    rw [Comment.text, lstrip_cons not_blank_slash]
    have e1 : ('/' :: '*' :: (b ++ ['*', '/'])).reverse = '/' :: '*' :: ('/' :: '*' :: b).reverse := by simp
    rw [e1, List.dropWhile_cons_of_neg (by decide)]
    simp
  have hr : ((c :: p') ++ (Comment.block b).text ++ rest).drop ((c :: p').length + b.length + 2 + 2) = rest := by
    have : (c :: p').length + b.length + 2 + 2 = ((c :: p') ++ (Comment.block b).text).length := by
      simp [Comment.text]; omega
    rw [this, List.drop_left]
  unfold hintComments
  rw [hintLoop]
  simp only [hl, ho, hc, hs, hst, hr]
  rw [if_neg (by rw [List.isPrefixOf_iff_prefix]; exact hdash), hintLoop_acc]
  rw [fuel_enough rest _ _ (rest.length + 1) (by simp [Comment.text]; omega) (by simp)]
  simp

/-- Comments are also taken from the inside of the query, and in particular from string constants: whatever precedes the
first `/*`, the text up to the next `*/` becomes a hint. -/
theorem C164_inner_violated (p b rest : Txt) (hp : Starts p) (hp0 : p ≠ []) (hd : p ≠ ['-'])
    (h1 : ¬ ['/', '*'] <:+: p) (h2 : ¬ ['*', '/'] <:+: p ++ '/' :: '*' :: b) (h3 : Starts rest)
    (h4 : ¬ ['/', '*'] <:+: rest) :
    hintBlock (p ++ (Comment.block b).text ++ rest) [] = some (some ⟨[], (Comment.block b).text⟩) := by
  unfold hintBlock
  rw [step_inner p b rest hp hp0 hd h1 h2]
  have := step_done [] rest (by simp [Blank]) h3 h4
  rw [List.nil_append] at this
  rw [this]
  simp [mkHint, joinLines, Comment.text]

/-- For example, a string constant of the query becomes its hint block. -/
example : hintBlock "SELECT '/* no hint */' FROM r".toList [] = some (some ⟨[], "/* no hint */".toList⟩) := by
  decide +kernel

/-- Valid queries are rejected if `/*` occurs in a string constant (or in a line comment) and nothing closes it. -/
theorem C164_rejected_violated (p : Txt) (hp : Starts p) (h1 : ['/', '*'] <:+: p) (h2 : ¬ ['*', '/'] <:+: p)
    (cmds : List Txt) : hintBlock p cmds = none := by
  have hl : lstrip p = p := by
    cases p with
    | nil => rfl
    | cons c t => exact lstrip_cons (hp.1 c t rfl)
  have ho : ∃ i, findSub ['/', '*'] p = some i := by
    clear hp h2 hl
    induction p with
    | nil => simp at h1
    | cons c p ih =>
      rw [findSub]
      split
      · exact ⟨_, rfl⟩
      · rename_i hn
        rw [List.infix_cons_iff] at h1
        rcases h1 with h1 | h1
        · exact absurd (List.isPrefixOf_iff_prefix.mpr h1) hn
        · obtain ⟨i, hi⟩ := ih h1
          exact ⟨i + 1, by rw [hi]; rfl⟩
  obtain ⟨i, hi⟩ := ho
  unfold hintBlock hintComments
  rw [hintLoop]
  simp only [hl]
  rw [if_neg (by rw [List.isPrefixOf_iff_prefix]; exact hp.2), hi, findSub_none (by simp) h2]
  rfl

example : Starts "SELECT '/*' FROM r".toList ∧ ['/', '*'] <:+: "SELECT '/*' FROM r".toList ∧
    ¬ ['*', '/'] <:+: "SELECT '/*' FROM r".toList := by
  refine ⟨⟨?_, by decide⟩, by decide, by decide⟩
  rintro c t h
  cases h
  rw [← ws_iff]; decide

/-- Block comments of Postgres can be nested, but the first `*/` ends the hint block; the hint block is then the beginning
of a comment that is not closed. -/
theorem C164_nested_violated :
    hintBlock "/*+ a /* b */ c */ SELECT 1".toList [] = some (some ⟨[], "/*+ a /* b */".toList⟩) := by
  decide +kernel

/-- The end of a comment is searched from its first character on: `/*/` counts as a complete comment. -/
theorem C164_slash_violated :
    hintBlock "/*/ x */ SELECT 1".toList [] = some (some ⟨[], "/*/".toList⟩) := by
  decide +kernel

/-- Line comments after a *SET* command are lost, although such block comments are kept. -/
theorem C164_after_set_violated :
    hintBlock "SET x TO 'y'; -- hint\nSELECT 1".toList [] = some none ∧
    hintBlock "SET x TO 'y'; /* hint */\nSELECT 1".toList [] = some (some ⟨[], "/* hint */".toList⟩) := by
  decide +kernel

/-! ## C165: SET commands -/

/-- A string constant of SQL: quotes are doubled. -/
def sqlString (v : Txt) : Txt := '\'' :: v.flatMap (fun c => if c = '\'' then ['\'', '\''] else [c]) ++ ['\'']

/-- A *SET* command of SQL that assigns a string. -/
def setCommand (name v : Txt) : Txt := "SET ".toList ++ name ++ " TO ".toList ++ sqlString v ++ ";".toList

theorem flatMap_plain (v : Txt) (h : '\'' ∉ v) :
    v.flatMap (fun c => if c = '\'' then ['\'', '\''] else [c]) = v := by
  induction v with
  | nil => rfl
  | cons c v ih =>
    simp only [List.mem_cons, not_or] at h
    rw [List.flatMap_cons, ih h.2, if_neg (fun e => h.1 e.symm)]
    rfl

/-- What surrounds the SELECT statement of a text. -/
def body {σ : Type} (e : Option (List ExplainOpt)) (q : σ) : Stmt σ :=
  match e with
  | none => .select q
  | some opts => .explain opts (.select q)

theorem parseSets_some {σ : Type} (stmts : List (Stmt σ)) (cmds : List Txt) (s : Stmt σ)
    (hs : ∀ v, s ≠ .set v) :
    parseSets stmts = some (cmds, [s]) ↔
      ∃ sets : List SetStmt, stmts = sets.map .set ++ [s] ∧ List.Forall₂ (fun v t => setText v = some t) sets cmds := by
  induction stmts generalizing cmds with
  | nil => simp [parseSets]
  | cons a rest ih =>
    cases a with
    | set v =>
      cases rest with
      | nil =>
        constructor
        · intro h
          cases ht : setText v with
          | none => simp [parseSets, ht] at h
          | some t =>
            simp [parseSets, ht] at h
            exact absurd h.2.symm (hs v)
        · rintro ⟨sets, h, _⟩
          cases sets with
          | nil => simp at h; exact absurd h.symm (hs v)
          | cons x xs => simp at h
      | cons r more =>
        cases ht : setText v with
        | none =>
          simp only [parseSets, ht, Option.bind_eq_bind, Option.bind_none, reduceCtorEq, false_iff]
          rintro ⟨sets, h, hf⟩
          cases sets with
          | nil => simp at h
          | cons x xs =>
            simp at h
            obtain ⟨rfl, _⟩ := h
            cases hf with
            | cons h1 _ => rw [ht] at h1; exact absurd h1 (by simp)
        | some t =>
          constructor
          · intro h
            simp only [parseSets, ht, Option.bind_eq_bind, Option.bind_some] at h
            cases hr : parseSets (r :: more) with
            | none => simp [hr] at h
            | some p =>
              obtain ⟨c', s'⟩ := p
              simp [hr] at h
              obtain ⟨rfl, rfl⟩ := h
              obtain ⟨sets, he, hf⟩ := (ih c').mp hr
              exact ⟨v :: sets, by rw [he]; rfl, .cons ht hf⟩
          · rintro ⟨sets, h, hf⟩
            cases sets with
            | nil => simp at h
            | cons x xs =>
              simp only [List.map_cons, List.cons_append, List.cons.injEq, Stmt.set.injEq] at h
              obtain ⟨rfl, h⟩ := h
              cases hf with
              | @cons _ t' _ c' h1 h2 =>
                rw [ht] at h1
                cases h1
                have := (ih c').mpr ⟨xs, h, h2⟩
                simp [parseSets, ht, this]
    | explain o i =>
      constructor
      · intro h
        simp [parseSets] at h
        obtain ⟨rfl, rfl, rfl⟩ := h
        exact ⟨[], rfl, .nil⟩
      · rintro ⟨sets, h, hf⟩
        cases sets with
        | nil => cases hf; simp at h; simp [parseSets, h]
        | cons x xs => simp at h
    | select q =>
      constructor
      · intro h
        simp [parseSets] at h
        obtain ⟨rfl, rfl, rfl⟩ := h
        exact ⟨[], rfl, .nil⟩
      · rintro ⟨sets, h, hf⟩
        cases sets with
        | nil => cases hf; simp at h; simp [parseSets, h]
        | cons x xs => simp at h
    | other =>
      constructor
      · intro h
        simp [parseSets] at h
        obtain ⟨rfl, rfl, rfl⟩ := h
        exact ⟨[], rfl, .nil⟩
      · rintro ⟨sets, h, hf⟩
        cases sets with
        | nil => cases hf; simp at h; simp [parseSets, h]
        | cons x xs => simp at h

/-- The clause that belongs to the options of a text. -/
def Explained : Option (List ExplainOpt) → Option Explain → Prop
  | none, x => x = none
  | some o, y => ∃ x, parseExplain o = some x ∧ y = some x

/-- What `unwrap` accepts. -/
theorem unwrap_some {σ : Type} (s : Stmt σ) (e : Option Explain) (q : σ) :
    unwrap s = some (e, q) ↔ ∃ opts : Option (List ExplainOpt), s = body opts q ∧ Explained opts e := by
  cases s with
  | set v => simp [unwrap, body]; intro o h; cases o <;> simp at h
  | other => simp [unwrap, body]; intro o h; cases o <;> simp at h
  | select q' =>
    simp only [unwrap, Option.some.injEq, Prod.mk.injEq]
    constructor
    · rintro ⟨rfl, rfl⟩; exact ⟨none, rfl, rfl⟩
    · rintro ⟨o, h, h'⟩
      cases o with
      | none => simp [body] at h; exact ⟨h'.symm, h⟩
      | some o => simp [body] at h
  | explain opts inner =>
    cases hx : parseExplain opts with
    | none =>
      simp only [unwrap, hx, Option.bind_eq_bind, Option.bind_none, reduceCtorEq, false_iff]
      rintro ⟨o, h, h'⟩
      cases o with
      | none => simp [body] at h
      | some o =>
        simp [body] at h
        obtain ⟨rfl, _⟩ := h
        obtain ⟨x, h1, _⟩ := h'
        rw [hx] at h1; exact absurd h1 (by simp)
    | some x =>
      cases inner with
      | select q' =>
        simp only [unwrap, hx, Option.bind_eq_bind, Option.bind_some, Option.some.injEq, Prod.mk.injEq]
        constructor
        · rintro ⟨rfl, rfl⟩; exact ⟨some opts, rfl, x, hx, rfl⟩
        · rintro ⟨o, h, h'⟩
          cases o with
          | none => simp [body] at h
          | some o =>
            simp [body] at h
            obtain ⟨rfl, rfl⟩ := h
            obtain ⟨y, h1, rfl⟩ := h'
            rw [hx] at h1
            cases h1
            exact ⟨rfl, rfl⟩
      | set v => simp [unwrap, hx, body]; intro o h; cases o <;> simp at h
      | other => simp [unwrap, hx, body]; intro o h; cases o <;> simp at h
      | explain o' i' => simp [unwrap, hx, body]; intro o h; cases o <;> simp at h

theorem unwrap_set {σ : Type} (v : SetStmt) : unwrap (.set v : Stmt σ) = none := rfl

/-- The outcome of `parseQuery`, step by step. -/
theorem parseQuery_some {S σ τ : Type} (parseStmt : Option S → σ → Option τ) (o : Options S) (query : Txt)
    (stmts : Option (List (Stmt σ))) (r : Parsed τ) :
    parseQuery parseStmt o query stmts = some r ↔
      query ≠ [] ∧ ∃ (sets : List SetStmt) (cmds : List Txt) (e : Option (List ExplainOpt)) (q : σ),
        stmts = some (sets.map .set ++ [body e q]) ∧ List.Forall₂ (fun v t => setText v = some t) sets cmds ∧
        parseStmt (chooseSchema o) q = some r.query ∧
        Explained e r.explain ∧
        (if o.includeHints then hintBlock query cmds = some r.hint else r.hint = none) := by
  have hb : ∀ (e : Option (List ExplainOpt)) (q : σ) v, body e q ≠ .set v := by
    intro e q v; cases e <;> simp [body]
  unfold parseQuery
  constructor
  · intro h
    split at h
    · exact absurd h (by simp)
    · rename_i hq
      refine ⟨by simpa using hq, ?_⟩
      cases stmts with
      | none => simp at h
      | some ss =>
        cases hp : parseSets ss with
        | none => simp [hp] at h
        | some pr =>
          obtain ⟨cmds, rest⟩ := pr
          simp only [hp, Option.bind_eq_bind, Option.bind_some] at h
          cases rest with
          | nil => simp at h
          | cons s rest =>
            cases rest with
            | cons _ _ => simp at h
            | nil =>
              simp only at h
              cases hu : unwrap s with
              | none => simp [hu] at h
              | some pq =>
                obtain ⟨e, q⟩ := pq
                simp only [hu, Option.bind_some] at h
                cases hps : parseStmt (chooseSchema o) q with
                | none => simp [hps] at h
                | some t =>
                  simp only [hps, Option.bind_some, Bool.and_false, Bool.false_eq_true, if_false] at h
                  obtain ⟨opts, rfl, ho⟩ := (unwrap_some s e q).mp hu
                  obtain ⟨sets, hss, hf⟩ := (parseSets_some ss cmds _ (hb opts q)).mp hp
                  by_cases hi : o.includeHints = true
                  · cases hh : hintBlock query cmds with
                    | none => simp [hi, hh] at h
                    | some hint =>
                      simp only [hi, if_true, hh, Option.bind_some, Option.some.injEq] at h
                      subst h
                      exact ⟨sets, cmds, opts, q, by rw [hss], hf, hps, ho, by simp [hi, hh]⟩
                  · simp only [hi, Bool.false_eq_true, if_false, Option.bind_some, Option.some.injEq] at h
                    subst h
                    exact ⟨sets, cmds, opts, q, by rw [hss], hf, hps, ho, by simp [hi]⟩
  · rintro ⟨hq, sets, cmds, opts, q, rfl, hf, hps, ho, hh⟩
    have h1 := (parseSets_some (sets.map .set ++ [body opts q]) cmds _ (hb opts q)).mpr ⟨sets, rfl, hf⟩
    have h2 := (unwrap_some (body opts q) r.explain q).mpr ⟨opts, rfl, ho⟩
    rw [if_neg (by simpa using hq)]
    simp only [Option.bind_eq_bind, Option.bind_some, h1, h2, hps, Bool.and_false, Bool.false_eq_true, if_false]
    by_cases hi : o.includeHints = true
    · simp only [hi, if_true] at hh ⊢
      rw [hh]; rfl
    · simp only [hi, Bool.false_eq_true, if_false] at hh ⊢
      rw [← hh]

/-- `SET name TO 'value'`. -/
def plainSet {σ : Type} (a : Txt × Txt) : Stmt σ := .set ⟨.value, a.1, [.str a.2], false⟩

theorem intercalate_lines (l : List Txt) : joinLines l = List.intercalate ['\n'] l := by
  induction l with
  | nil => rfl
  | cons a l ih =>
    cases l with
    | nil => simp [joinLines, List.intercalate]
    | cons b l => rw [joinLines, ih]; simp [List.intercalate]; simp

/-- **C165** (partial).  The preparatory statements of a parsed query are the *SET* commands that precede it, in their
order, each one assigning the same value to the same variable.

Missing: values with quotes, several values, `SET LOCAL`, values that are no strings, and `include_hints=False`; see the
`_violated` theorems. -/
theorem C165_commands_partial {S σ τ : Type} (parseStmt : Option S → σ → Option τ) (o : Options S) (query : Txt)
    (sets : List (Txt × Txt)) (e : Option (List ExplainOpt)) (q : σ) (r : Parsed τ)
    (h : parseQuery parseStmt o query (some (sets.map plainSet ++ [body e q])) = some r)
    (hi : o.includeHints = true) (hq : ∀ a ∈ sets, '\'' ∉ a.2) :
    (r.hint.elim [] Hint.prep) = List.intercalate ['\n'] (sets.map (fun a => setCommand a.1 a.2)) := by
  obtain ⟨_, sets', cmds, e', q', hs, hf, _, _, hh⟩ := (parseQuery_some _ _ _ _ _).mp h
  have h1 := congrArg List.dropLast (Option.some.inj hs)
  simp only [List.dropLast_concat] at h1
  have hc : cmds = sets.map (fun a => setCommand a.1 a.2) := by
    clear h hs hh
    induction sets generalizing sets' cmds with
    | nil =>
      cases sets' with
      | nil => cases hf; rfl
      | cons _ _ => simp at h1
    | cons a sets ih =>
      cases sets' with
      | nil => simp at h1
      | cons b sets' =>
        cases hf with
        | @cons _ t _ c' ht hf =>
          simp only [List.map_cons, List.cons.injEq, plainSet, Stmt.set.injEq] at h1
          have hp := hq a (by simp)
          rw [← h1.1] at ht
          simp only [setText, ne_eq, not_true_eq_false, if_false, Option.some.injEq] at ht
          rw [List.map_cons, ← ih (fun x hx => hq x (by simp [hx])) sets' c' hf h1.2, ← ht]
          congr 1
          simp [setCommand, sqlString, flatMap_plain _ hp]
  rw [if_pos hi] at hh
  unfold hintBlock at hh
  cases hx : hintComments query with
  | none => simp [hx] at hh
  | some cs =>
    rw [hx, Option.map_some, Option.some.injEq] at hh
    rw [← hh, ← hc, ← intercalate_lines]
    simp only [mkHint]
    split
    · rename_i hemp
      simp at hemp
      simp [hemp.1]
    · rfl

/-- The hypotheses of `C165_commands_partial` are met by two commands and a query. -/
example : ∃ r, parseQuery (fun (_ : Option Unit) (n : Nat) => some n)
      ⟨false, true, none, none, true, []⟩ "SET a TO 'x'; SET b TO 'y'; SELECT 7".toList
      (some ([("a".toList, "x".toList), ("b".toList, "y".toList)].map plainSet ++ [body none 7])) = some r ∧
    r.hint = some ⟨"SET a TO 'x';\nSET b TO 'y';".toList, []⟩ :=
  ⟨_, by with_unfolding_all rfl, by decide +kernel⟩

/-- Quotes in values are not doubled: the generated text is never the command that was parsed (it assigns another value,
and the rest of the value is executed as SQL). -/
theorem C165_quotes_violated (name a b : Txt) (args : List Arg) (l : Bool) :
    ∃ t, setText ⟨.value, name, .str (a ++ '\'' :: b) :: args, l⟩ = some t ∧ t ≠ setCommand name (a ++ '\'' :: b) := by
  refine ⟨_, by simp only [setText, ne_eq, not_true_eq_false, if_false]; rfl, ?_⟩
  intro h
  have hl := congrArg List.length h
  have hle : ∀ v : Txt, v.length ≤ (v.flatMap (fun c => if c = '\'' then ['\'', '\''] else [c])).length := by
    intro v
    induction v with
    | nil => simp
    | cons c v ih =>
      rw [List.flatMap_cons, List.length_append, List.length_cons]
      have : 1 ≤ (if c = '\'' then ['\'', '\''] else [c]).length := by split <;> simp
      omega
  have e1 := hle a
  have e2 := hle b
  simp only [setCommand, sqlString, List.flatMap_append, List.flatMap_cons, if_true, List.length_append, List.length_cons,
    List.length_nil, List.cons_append, List.nil_append] at hl
  have l1 : " TO '".toList.length = " TO ".toList.length + 1 := by decide
  have l2 : "';".toList.length = ";".toList.length + 1 := by decide
  omega

example : setText ⟨.value, "x".toList, [.str "a'; DROP TABLE r; --".toList], false⟩ =
    some "SET x TO 'a'; DROP TABLE r; --';".toList := by decide +kernel

/-- `SET LOCAL` becomes `SET`: the command does not end with the transaction any more. -/
theorem C165_local_violated (k : SetKind) (name : Txt) (args : List Arg) :
    setText ⟨k, name, args, true⟩ = setText ⟨k, name, args, false⟩ := rfl

/-- Of several values (`SET search_path TO 'a', 'b'`) only the first one is kept. -/
theorem C165_list_violated (name v : Txt) (more : List Arg) (l : Bool) :
    setText ⟨.value, name, .str v :: more, l⟩ = setText ⟨.value, name, [.str v], l⟩ := rfl

/-- Values that are no strings (`SET work_mem TO 4096`) are rejected, as are `RESET` and `SET … TO DEFAULT`. -/
theorem C165_rejected_violated (name v : Txt) (more args : List Arg) (l : Bool) (k : SetKind) (hk : k ≠ .value) :
    setText ⟨.value, name, .other v :: more, l⟩ = none ∧ setText ⟨k, name, args, l⟩ = none := by
  constructor
  · simp [setText]
  · simp [setText, hk]

/-- Without hints, the *SET* commands are dropped as well. -/
theorem C165_no_hints_violated {S σ τ : Type} (parseStmt : Option S → σ → Option τ) (o : Options S) (query : Txt)
    (stmts : Option (List (Stmt σ))) (r : Parsed τ) (h : parseQuery parseStmt o query stmts = some r)
    (hi : o.includeHints = false) : r.hint = none := by
  obtain ⟨_, _, _, _, _, _, _, _, _, hh⟩ := (parseQuery_some _ _ _ _ _).mp h
  simpa [hi] using hh

example : parseQuery (fun (_ : Option Unit) (n : Nat) => some n)
      ⟨false, false, none, none, true, []⟩ "SET a TO 'x'; SELECT 7".toList
      (some ([("a".toList, "x".toList)].map plainSet ++ [body none 7])) = some ⟨7, none, none⟩ := by
  with_unfolding_all rfl

/-! ## C166: EXPLAIN -/

/-- The option that Postgres uses: the last one of its kind. -/
def LastFormat (opts : List ExplainOpt) (f : Txt) : Prop :=
  (∃ pre post, opts = pre ++ .format (some f) :: post ∧ ∀ g, ExplainOpt.format g ∉ post) ∨
  ((∀ g, ExplainOpt.format g ∉ opts) ∧ f = "TEXT".toList)

/-- Whether Postgres executes the query: the last ANALYZE option decides. -/
def LastAnalyze (opts : List ExplainOpt) (a : Bool) : Prop :=
  (∃ pre post, opts = pre ++ .analyze a :: post ∧ ∀ g, ExplainOpt.analyze g ∉ post) ∨
  ((∀ g, ExplainOpt.analyze g ∉ opts) ∧ a = false)

/-- The options that the parser knows. -/
def Known : ExplainOpt → Prop
  | .analyze _ => True
  | .format f => f ≠ none
  | .other _ => False

theorem explainLoop_spec (opts : List ExplainOpt) (a : Bool) (f : Txt) :
    (∀ x ∈ opts, Known x) →
    ∃ a' f', explainLoop opts a f = some (mkExplain a' f') ∧
      (a' = true ↔ a = true ∨ ∃ b, ExplainOpt.analyze b ∈ opts) ∧
      ((∃ pre post, opts = pre ++ .format (some f') :: post ∧ ∀ g, ExplainOpt.format g ∉ post) ∨
        ((∀ g, ExplainOpt.format g ∉ opts) ∧ f' = f)) := by
  induction opts generalizing a f with
  | nil => intro _; exact ⟨a, f, rfl, by simp, Or.inr ⟨by simp, rfl⟩⟩
  | cons x opts ih =>
    intro hk
    have hk' : ∀ y ∈ opts, Known y := fun y hy => hk y (by simp [hy])
    cases x with
    | analyze b =>
      obtain ⟨a', f', h1, h2, h3⟩ := ih true f hk'
      refine ⟨a', f', by rw [explainLoop, h1], ?_, ?_⟩
      · rw [h2]; simp
      · rcases h3 with ⟨pre, post, rfl, hp⟩ | ⟨hn, rfl⟩
        · exact Or.inl ⟨.analyze b :: pre, post, rfl, hp⟩
        · exact Or.inr ⟨by simpa using hn, rfl⟩
    | format g =>
      cases g with
      | none => exact absurd rfl (hk (.format none) (by simp))
      | some g =>
        obtain ⟨a', f', h1, h2, h3⟩ := ih a g hk'
        refine ⟨a', f', by rw [explainLoop, h1], ?_, ?_⟩
        · rw [h2]; simp
        · rcases h3 with ⟨pre, post, rfl, hp⟩ | ⟨hn, rfl⟩
          · exact Or.inl ⟨.format (some g) :: pre, post, rfl, hp⟩
          · exact Or.inl ⟨[], opts, rfl, hn⟩
    | other n => exact absurd (hk (.other n) (by simp)) (by simp [Known])

theorem explainLoop_none (opts : List ExplainOpt) (a : Bool) (f : Txt) (h : explainLoop opts a f ≠ none) :
    ∀ x ∈ opts, Known x := by
  induction opts generalizing a f with
  | nil => simp
  | cons x opts ih =>
    intro y hy
    cases x with
    | analyze b =>
      rw [explainLoop] at h
      rcases List.mem_cons.mp hy with rfl | hy
      · trivial
      · exact ih _ _ h y hy
    | format g =>
      cases g with
      | none => simp [explainLoop] at h
      | some g =>
        rw [explainLoop] at h
        rcases List.mem_cons.mp hy with rfl | hy
        · simp [Known]
        · exact ih _ _ h y hy
    | other n => simp [explainLoop] at h

/-- **C166** (partial).  An *EXPLAIN* clause with only ANALYZE and FORMAT options is parsed: the query is executed exactly
if the last ANALYZE option says so, and the output format is the last one given (`TEXT` if there is none).

Missing: `ANALYZE false`, see `C166_analyze_false_violated`; an empty format. -/
theorem C166_explain_partial (opts : List ExplainOpt) (hk : ∀ x ∈ opts, Known x)
    (hf : ExplainOpt.analyze false ∉ opts) (he : ExplainOpt.format (some []) ∉ opts) :
    ∃ e f, parseExplain opts = some e ∧ LastAnalyze opts e.analyze ∧ LastFormat opts f ∧ e.format = some f := by
  obtain ⟨a, f, h1, h2, h3⟩ := explainLoop_spec opts false "TEXT".toList hk
  have hne : f ≠ [] := by
    rcases h3 with ⟨pre, post, rfl, _⟩ | ⟨_, rfl⟩
    · rintro rfl
      exact he (by simp)
    · decide
  refine ⟨_, f, h1, ?_, h3, by simp [mkExplain, hne]⟩
  have key : ∀ l : List ExplainOpt, ExplainOpt.analyze false ∉ l → (∃ b, ExplainOpt.analyze b ∈ l) → 
      ∃ pre post, l = pre ++ .analyze true :: post ∧ ∀ g, ExplainOpt.analyze g ∉ post := by
    intro l
    induction l with
    | nil => rintro _ ⟨b, hb⟩; simp at hb
    | cons x l ih =>
      intro hx hex
      by_cases hl : ∃ b, ExplainOpt.analyze b ∈ l
      · obtain ⟨pre, post, rfl, hp⟩ := ih (fun m => hx (by simp [m])) hl
        exact ⟨x :: pre, post, rfl, hp⟩
      · obtain ⟨b, hb⟩ := hex
        rcases List.mem_cons.mp hb with rfl | hb
        · cases b with
          | false => exact absurd (by simp) hx
          | true => exact ⟨[], l, rfl, fun g hg => hl ⟨g, hg⟩⟩
        · exact absurd ⟨b, hb⟩ hl
  by_cases ha : a = true
  · subst ha
    have := h2.mp rfl
    simp only [Bool.false_eq_true, false_or] at this
    exact Or.inl (key opts hf this)
  · have hn : ¬ ∃ b, ExplainOpt.analyze b ∈ opts := fun hx => ha (h2.mpr (Or.inr hx))
    refine Or.inr ⟨fun g hg => hn ⟨g, hg⟩, ?_⟩
    simpa [mkExplain] using ha

example : parseExplain [.format (some "json".toList), .analyze true] = some ⟨true, some "json".toList⟩ := by
  decide +kernel

/-- `EXPLAIN (ANALYZE false)` only shows the plan, but is parsed to a clause that executes the query — in every accepted
list of options. -/
theorem C166_analyze_false_violated (opts : List ExplainOpt) (e : Explain) (h : parseExplain opts = some e)
    (hf : ExplainOpt.analyze false ∈ opts) : e.analyze = true := by
  have hk := explainLoop_none opts false "TEXT".toList (by unfold parseExplain at h; rw [h]; simp)
  obtain ⟨a, f, h1, h2, _⟩ := explainLoop_spec opts false "TEXT".toList hk
  unfold parseExplain at h
  rw [h1] at h
  cases h
  exact h2.mpr (Or.inr ⟨_, hf⟩)

example : LastAnalyze [.analyze false] false ∧ parseExplain [.analyze false] = some ⟨true, some "TEXT".toList⟩ :=
  ⟨Or.inl ⟨[], [], rfl, by simp⟩, by decide +kernel⟩

/-! ## C167: the options of `parse_query` -/

/-- The commands that are accepted: a string is assigned. -/
def AcceptedSet (s : SetStmt) : Prop := s.kind = .value ∧ ∃ v more, s.args = .str v :: more

/-- **C167**.  `parse_query` succeeds exactly on non-empty texts that consist of *SET* commands that assign strings, followed
by a single *SELECT* statement that can be translated, possibly explained with known options, and whose comments can be
read (if hints are requested). -/
theorem C167_accepted {S σ τ : Type} (parseStmt : Option S → σ → Option τ) (o : Options S) (query : Txt)
    (stmts : Option (List (Stmt σ))) :
    (∃ r, parseQuery parseStmt o query stmts = some r) ↔
      query ≠ [] ∧ ∃ (sets : List SetStmt) (e : Option (List ExplainOpt)) (q : σ),
        stmts = some (sets.map .set ++ [body e q]) ∧ (∀ s ∈ sets, AcceptedSet s) ∧
        (∀ os, e = some os → ∀ x ∈ os, Known x) ∧
        (∃ p, parseStmt (chooseSchema o) q = some p) ∧
        (o.includeHints = true → ∃ h, hintBlock query [] = some h) := by
  have hset : ∀ s, (∃ t, setText s = some t) ↔ AcceptedSet s := by
    intro s
    unfold setText AcceptedSet
    by_cases hk : s.kind = .value
    · simp only [hk, ne_eq, not_true_eq_false, if_false, true_and]
      constructor
      · rintro ⟨t, h⟩
        split at h
        · rename_i v m hv; exact ⟨v, m, hv⟩
        · exact absurd h (by simp)
      · rintro ⟨v, m, hv⟩
        rw [hv]; exact ⟨_, rfl⟩
    · simp [hk]
  have hfor : ∀ sets : List SetStmt, (∃ cmds, List.Forall₂ (fun v t => setText v = some t) sets cmds) ↔
      ∀ s ∈ sets, AcceptedSet s := by
    intro sets
    induction sets with
    | nil => simp; exact ⟨[], .nil⟩
    | cons s sets ih =>
      rw [List.forall_mem_cons, ← ih, ← hset]
      constructor
      · rintro ⟨c, h⟩
        cases h with
        | cons h1 h2 => exact ⟨⟨_, h1⟩, _, h2⟩
      · rintro ⟨⟨t, h1⟩, c, h2⟩
        exact ⟨t :: c, .cons h1 h2⟩
  have hhint : ∀ cmds, (∃ h, hintBlock query cmds = some h) ↔ ∃ h, hintBlock query [] = some h := by
    intro cmds
    unfold hintBlock
    cases hintComments query <;> simp
  have hexp : ∀ os, (∃ x, parseExplain os = some x) ↔ ∀ x ∈ os, Known x := by
    intro os
    constructor
    · rintro ⟨x, h⟩
      exact explainLoop_none os false "TEXT".toList (by unfold parseExplain at h; rw [h]; simp)
    · intro h
      obtain ⟨a, f, h1, _⟩ := explainLoop_spec os false "TEXT".toList h
      exact ⟨_, h1⟩
  constructor
  · rintro ⟨r, h⟩
    obtain ⟨h0, sets, cmds, e, q, h1, h2, h3, h4, h5⟩ := (parseQuery_some _ _ _ _ _).mp h
    refine ⟨h0, sets, e, q, h1, (hfor sets).mp ⟨cmds, h2⟩, ?_, ⟨_, h3⟩, ?_⟩
    · rintro os rfl
      obtain ⟨x, hx, _⟩ := h4
      exact (hexp os).mp ⟨x, hx⟩
    · intro hi
      rw [if_pos hi] at h5
      exact (hhint cmds).mp ⟨_, h5⟩
  · rintro ⟨h0, sets, e, q, h1, h2, h3, ⟨p, h4⟩, h5⟩
    obtain ⟨cmds, h2⟩ := (hfor sets).mpr h2
    have hx : ∃ ex : Option Explain, Explained e ex := by
      cases e with
      | none => exact ⟨none, rfl⟩
      | some os =>
        obtain ⟨x, hx⟩ := (hexp os).mpr (h3 os rfl)
        exact ⟨some x, x, hx, rfl⟩
    obtain ⟨ex, hx⟩ := hx
    by_cases hi : o.includeHints = true
    · obtain ⟨h, hh⟩ := (hhint cmds).mpr (h5 hi)
      exact ⟨⟨p, h, ex⟩, (parseQuery_some _ _ _ _ _).mpr ⟨h0, sets, cmds, e, q, h1, h2, h4, hx, by rw [if_pos hi]; exact hh⟩⟩
    · exact ⟨⟨p, none, ex⟩, (parseQuery_some _ _ _ _ _).mpr ⟨h0, sets, cmds, e, q, h1, h2, h4, hx, by rw [if_neg hi]⟩⟩

/-- Explained queries after commands are accepted; commands alone are not. -/
example : (∃ r, parseQuery (fun (_ : Option Unit) (n : Nat) => some n)
      ⟨false, true, none, none, true, []⟩ "SET a TO 'x'; EXPLAIN ANALYZE SELECT 7".toList
      (some ([("a".toList, "x".toList)].map plainSet ++ [body (some [.analyze true]) 7])) = some r ∧
      r.explain = some ⟨true, some "TEXT".toList⟩) ∧
    parseQuery (fun (_ : Option Unit) (n : Nat) => some n) ⟨false, true, none, none, true, []⟩ "SET a TO 'x'".toList
      (some [plainSet ("a".toList, "x".toList)]) = none :=
  ⟨⟨_, by with_unfolding_all rfl, by decide +kernel⟩, by with_unfolding_all rfl⟩

/-- The schema that should be used for live binding: none if it is switched off, otherwise the given one or, if there is
none, the one of the database in the pool. -/
def LiveSchema {S : Type} (o : Options S) : Option S :=
  if o.bindColumns = some false ∨ (o.bindColumns = none ∧ o.autoBind = false) then none
  else if o.dbSchema.isSome then o.dbSchema
  else o.pool.head?

/-- **C167** (partial).  The statement is translated with the schema that is to be used for live binding, and the *EXPLAIN*
clause of the result is the one of the text.

Missing: `bind_columns=False` together with a schema, see `C167_bind_violated`. -/
theorem C167_schema_partial {S σ τ : Type} (parseStmt : Option S → σ → Option τ) (o : Options S) (query : Txt)
    (pre : List (Stmt σ)) (e : Option (List ExplainOpt)) (q : σ) (r : Parsed τ)
    (h : parseQuery parseStmt o query (some (pre ++ [body e q])) = some r)
    (hs : o.dbSchema = none ∨ o.bindColumns = some true ∨ (o.bindColumns = none ∧ o.autoBind = true)) :
    parseStmt (LiveSchema o) q = some r.query ∧ (e = none → r.explain = none) ∧
      ∀ os, e = some os → r.explain ≠ none ∧ r.explain = parseExplain os := by
  obtain ⟨_, sets, cmds, e', q', h1, _, h3, h4, _⟩ := (parseQuery_some _ _ _ _ _).mp h
  have hb := (List.append_inj' (Option.some.inj h1) rfl).2
  have he : e' = e ∧ q' = q := by
    cases e <;> cases e' <;> simp [body] at hb <;> simp [hb]
  obtain ⟨rfl, rfl⟩ := he
  have hc : chooseSchema o = LiveSchema o := by
    obtain ⟨_, _, bc, ds, ab, pool⟩ := o
    cases bc with
    | none => cases ab <;> cases ds <;> simp [chooseSchema, LiveSchema] at hs ⊢
    | some b => cases b <;> cases ds <;> simp [chooseSchema, LiveSchema] at hs ⊢
  rw [← hc]
  refine ⟨h3, ?_, ?_⟩
  · rintro rfl; exact h4
  · rintro os rfl
    obtain ⟨x, hx, hr⟩ := h4
    rw [hr, hx]
    simp

/-- A schema that is passed to the function is used even if live binding is switched off. -/
theorem C167_bind_violated {S σ τ : Type} (parseStmt : Option S → σ → Option τ) (o : Options S) (query : Txt) (s : S)
    (pre : List (Stmt σ)) (e : Option (List ExplainOpt)) (q : σ) (r : Parsed τ)
    (h : parseQuery parseStmt o query (some (pre ++ [body e q])) = some r)
    (hb : o.bindColumns = some false) (hs : o.dbSchema = some s) :
    LiveSchema o = none ∧ parseStmt (some s) q = some r.query := by
  obtain ⟨_, sets, cmds, e', q', h1, _, h3, h4, _⟩ := (parseQuery_some _ _ _ _ _).mp h
  have hbd := (List.append_inj' (Option.some.inj h1) rfl).2
  have he : e' = e ∧ q' = q := by
    cases e <;> cases e' <;> simp [body] at hbd <;> simp [hbd]
  obtain ⟨rfl, rfl⟩ := he
  refine ⟨by simp [LiveSchema, hb], ?_⟩
  have : chooseSchema o = some s := by simp [chooseSchema, hs]
  rw [← this]; exact h3

/-- `accept_set_query=False` has no effect: set queries are returned, not rejected. -/
theorem C167_set_query_violated {S σ τ : Type} (parseStmt : Option S → σ → Option τ) (o : Options S) (query : Txt)
    (stmts : Option (List (Stmt σ))) :
    parseQuery parseStmt { o with acceptSet := false } query stmts =
      parseQuery parseStmt { o with acceptSet := true } query stmts := by
  have hc : ∀ b, chooseSchema { o with acceptSet := b } = chooseSchema o := fun _ => rfl
  unfold parseQuery
  simp only [Bool.not_false, Bool.not_true, Bool.and_false, Bool.false_and, hc]

end PB.PTextProps
