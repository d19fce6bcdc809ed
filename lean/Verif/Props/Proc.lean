import Verif.Model.Proc
set_option linter.unusedVariables false
set_option linter.unusedSimpArgs false

namespace PB.ProcProps
open PB.Proc

/-- The words of a command: `words c args ws` means that the command `c` with further arguments is the program and arguments `ws`. Tuples are commands as well. -/
inductive Words : Cmd → List String → List String → Prop
  | str (s args) : Words (.str s) args ([s] ++ args)
  | list (c ps args) : Words (.list (c :: ps)) args ([c] ++ ps ++ args)
  | tuple (c ps args) : Words (.tuple (c :: ps)) args ([c] ++ ps ++ args)

def IsTuple : Cmd → Prop
  | .tuple _ => True
  | _ => False

/-- **C251 (partial).** A command is executed with all its arguments in the requested directory (by default the current one), and the working directory is the same before and after. The result is that of the process, even if the
process fails. (Missing: tuples and programs that cannot be executed, see `C251_tuple_violated` and `C251_directory_violated`.) -/
theorem C251_run_partial (os : OS) (cwd : String) (cmd : Cmd) (args ws : List String) (workDir : Option String) (w : String) (r : Result) (hw : Words cmd args ws) (ht : ¬ IsTuple cmd)
    (hcd : os.chdir cwd (workDir.getD cwd) = some w) (hback : os.chdir w cwd = some cwd) (hex : os.exec w ws = some r) : runCmd os cwd cmd args workDir = (some r, cwd) := by
  cases hw with
  | str s => simp only [List.singleton_append] at hex; simp [runCmd, invocation, hcd, hback, hex]
  | list c ps => simp only [List.cons_append, List.append_assoc, List.nil_append] at hex; simp [runCmd, invocation, hcd, hback, hex]
  | tuple => exact absurd trivial ht

/-- An operating system with two directories and one program. -/
def sampleOS : OS := ⟨fun _ d => if d = "/a" ∨ d = "/b" then some d else none, fun d ws => if ws = ["ls", "-l"] then some ⟨"files of " ++ d, "", 0⟩ else none⟩

/-- The hypotheses are met. -/
example : Words (.list ["ls"]) ["-l"] ["ls", "-l"] ∧ ¬ IsTuple (.list ["ls"]) ∧ sampleOS.chdir "/a" ((some "/b").getD "/a") = some "/b" ∧ sampleOS.chdir "/b" "/a" = some "/a" ∧
    sampleOS.exec "/b" ["ls", "-l"] = some ⟨"files of /b", "", 0⟩ :=
  ⟨.list "ls" [] ["-l"], id, by simp [sampleOS], by simp [sampleOS], by simp [sampleOS]⟩

/-- **C251.** Empty commands and directories that do not exist are errors that leave the working directory unchanged. -/
theorem C251_errors (os : OS) (cwd : String) (cmd : Cmd) (args : List String) (workDir : Option String) (h : (∀ ws, ¬ Words cmd args ws) ∨ os.chdir cwd (workDir.getD cwd) = none) :
    runCmd os cwd cmd args workDir = (none, cwd) := by
  rcases h with h | h
  · cases cmd with
    | str s => exact absurd (Words.str s args) (h _)
    | list ps =>
      cases ps with
      | nil => rfl
      | cons c ps => exact absurd (Words.list c ps args) (h _)
    | tuple ps => rfl
  · simp only [runCmd, h]
    cases invocation cmd args <;> rfl

/-- The hypotheses are met. -/
example : (∀ ws, ¬ Words (.list []) ["-l"] ws) ∧ sampleOS.chdir "/a" ((some "/c").getD "/a") = none := ⟨(fun ws h => nomatch h), by simp [sampleOS]⟩

/-- **C251 (violated).** If the program cannot be executed, the working directory is not restored: the caller stays in the directory of the command. -/
theorem C251_directory_violated (os : OS) (cwd : String) (cmd : Cmd) (args ws : List String) (workDir : Option String) (w : String) (hw : Words cmd args ws) (ht : ¬ IsTuple cmd)
    (hcd : os.chdir cwd (workDir.getD cwd) = some w) (hex : os.exec w ws = none) : runCmd os cwd cmd args workDir = (none, w) := by
  cases hw with
  | str s => simp only [List.singleton_append] at hex; simp [runCmd, invocation, hcd, hex]
  | list c ps => simp only [List.cons_append, List.append_assoc, List.nil_append] at hex; simp [runCmd, invocation, hcd, hex]
  | tuple => exact absurd trivial ht

/-- The hypotheses are met: the program is not known and the directory changes. -/
example : runCmd sampleOS "/a" (.str "unknown") [] (some "/b") = (none, "/b") := by simp [runCmd, invocation, sampleOS]

/-- **C251 (violated).** Commands that are given as a tuple are never executed. -/
theorem C251_tuple_violated (os : OS) (cwd : String) (ps args : List String) (workDir : Option String) : runCmd os cwd (.tuple ps) args workDir = (none, cwd) := rfl

/-- **C251.** A result is true exactly for the exit code zero, and an error is raised exactly for the other ones; it shows the code and the error output. -/
theorem C251_result (r : Result) : (r.truthy = true ↔ r.code = 0) ∧ (r.error = none ↔ r.code = 0) ∧ (r.code ≠ 0 → r.error = some ("Process exited with code " ++ toString r.code ++ ": '" ++ r.err ++ "'")) := by
  refine ⟨by simp [Result.truthy], ?_, fun h => by simp [Result.error, h]⟩
  unfold Result.error
  split_ifs with h
  · simpa using h
  · simpa using h

/-- **C251 (violated).** Results are compared by their output: a successful and a failed run are equal. -/
theorem C251_equal_violated (out : String) : ∃ r s : Result, r.out = out ∧ r.eq s = true ∧ r.truthy = true ∧ s.truthy = false := ⟨⟨out, "", 0⟩, ⟨out, "", 1⟩, rfl, by simp [Result.eq], rfl, rfl⟩

/-- The text after any character somewhere in a name. -/
def AfterAny (e name : List Char) : Prop := ∃ p c s, name = p ++ c :: (e ++ s)

theorem anyThen_iff (e : List Char) : (l : List Char) → (anyThen e l = true ↔ AfterAny e l)
  | [] => by simp [anyThen, AfterAny]
  | c :: l => by
    simp only [anyThen, Bool.or_eq_true, List.isPrefixOf_iff_prefix, anyThen_iff e l, AfterAny]
    constructor
    · rintro (⟨s, hs⟩ | ⟨p, x, s, rfl⟩)
      · exact ⟨[], c, s, by simp [hs]⟩
      · exact ⟨c :: p, x, s, rfl⟩
    · rintro ⟨p, x, s, h⟩
      cases p with
      | nil => simp only [List.nil_append, List.cons.injEq] at h; exact .inl ⟨s, h.2.symm⟩
      | cons y p => simp only [List.cons_append, List.cons.injEq] at h; exact .inr ⟨p, x, s, h.2⟩

theorem takeWhile_clean : (l : List Char) → ' ' ∉ l → l.takeWhile (· ≠ ' ') = l
  | [], _ => rfl
  | c :: l, h => by
    simp only [List.mem_cons, not_or] at h
    rw [List.takeWhile_cons_of_pos (by simpa using Ne.symm h.1), takeWhile_clean l h.2]

/-- **C252 (partial).** Open files whose names contain the extension of shared objects and no blanks are listed in their order. `others` are lines of `lsof` that are no names. (Missing: all other files, see `C252_text_violated`, and names with blanks, see
`C252_blank_violated`.) -/
theorem C252_shared_partial (e : List Char) (out : List (Bool × List Char)) (h : ∀ x ∈ out, x.1 = true → ' ' ∉ x.2 ∧ AfterAny e x.2) (hf : ∀ x ∈ out, x.1 = false → x.2.head? ≠ some 'n') :
    openFiles e (out.map fun x => if x.1 then 'n' :: x.2 else x.2) = (out.filter (·.1)).map (·.2) := by
  induction out with
  | nil => rfl
  | cons x out ih =>
    have ih := ih (fun y hy => h y (by simp [hy])) (fun y hy => hf y (by simp [hy]))
    unfold openFiles at ih ⊢
    rcases hx : x with ⟨b, l⟩
    cases b with
    | true =>
      obtain ⟨h1, h2⟩ := h x (by simp) (by rw [hx])
      rw [hx] at h1 h2
      have h3 := takeWhile_clean l h1
      have h4 := (anyThen_iff e l).2 h2
      simp only [List.map_cons, if_true, List.filter_cons, List.head?_cons, decide_true, List.drop_one, List.tail_cons]
      rw [h3, if_pos h4]
      simpa using ih
    | false =>
      have h1 := hf x (by simp) (by rw [hx])
      rw [hx] at h1
      simp only [List.map_cons, Bool.false_eq_true, if_false, List.filter_cons, h1, decide_false]
      simpa using ih

/-- The hypotheses are met. -/
example : openFiles "so".toList ["p17".toList, "fmem".toList, "n/lib/libc.so.6".toList, "n/lib/libm.so".toList] = ["/lib/libc.so.6".toList, "/lib/libm.so".toList] := by decide +kernel

/-- **C252.** Nothing else is listed: each entry is the beginning of the name of an open file, up to the first blank, and contains the extension after an arbitrary character. -/
theorem C252_sound (e : List Char) (lines : List (List Char)) (f : List Char) :
    f ∈ openFiles e lines ↔ ∃ name, 'n' :: name ∈ lines ∧ ' ' ∉ f ∧ (f = name ∨ ∃ s, name = f ++ ' ' :: s) ∧ AfterAny e f := by
  unfold openFiles
  simp only [List.mem_filter, List.mem_map, anyThen_iff]
  have key : ∀ l f : List Char, (l.takeWhile (· ≠ ' ') = f) ↔ ' ' ∉ f ∧ (f = l ∨ ∃ s, l = f ++ ' ' :: s) := by
    intro l
    induction l with
    | nil =>
      intro f
      constructor
      · rintro rfl; simp
      · rintro ⟨_, h | ⟨s, h⟩⟩
        · exact h.symm
        · simp at h
    | cons c l ih =>
      intro f
      by_cases hc : c = ' '
      · subst hc
        rw [List.takeWhile_cons_of_neg (by simp)]
        constructor
        · rintro rfl; exact ⟨by simp, .inr ⟨l, rfl⟩⟩
        · rintro ⟨hn, h | ⟨s, h⟩⟩
          · rw [h] at hn; simp at hn
          · cases f with
            | nil => rfl
            | cons y f => simp only [List.cons_append, List.cons.injEq] at h; rw [← h.1] at hn; simp at hn
      · rw [List.takeWhile_cons_of_pos (by simpa using hc)]
        cases f with
        | nil =>
          simp only [List.cons_ne_nil, reduceCtorEq, false_iff, not_and, not_or, not_exists]
          intro _
          refine ⟨by simp, fun s h => ?_⟩
          simp only [List.nil_append, List.cons.injEq] at h
          exact hc h.1
        | cons y f =>
          simp only [List.cons.injEq, ih f, List.mem_cons, not_or, List.cons_append]
          constructor
          · rintro ⟨rfl, h1, h2⟩
            refine ⟨⟨Ne.symm hc, h1⟩, ?_⟩
            rcases h2 with h2 | ⟨s, h2⟩
            · exact .inl ⟨rfl, h2⟩
            · exact .inr ⟨s, rfl, h2⟩
          · rintro ⟨⟨h1, h2⟩, ⟨rfl, h3⟩ | ⟨s, rfl, h3⟩⟩
            · exact ⟨rfl, h2, .inl h3⟩
            · exact ⟨rfl, h2, .inr ⟨s, h3⟩⟩
  constructor
  · rintro ⟨⟨l, ⟨x, ⟨hx, hn⟩, rfl⟩, hl⟩, hs⟩
    cases x with
    | nil => simp at hn
    | cons c x =>
      simp only [List.head?_cons, Option.some.injEq, decide_eq_true_eq] at hn
      subst hn
      simp only [List.drop_one, List.tail_cons] at hl
      obtain ⟨h1, h2⟩ := (key x f).1 hl
      exact ⟨x, hx, h1, h2, hs⟩
  · rintro ⟨name, h1, h2, h3, h4⟩
    exact ⟨⟨name, ⟨'n' :: name, ⟨h1, by simp⟩, by simp⟩, (key name f).2 ⟨h2, h3⟩⟩, h4⟩

/-- **C252 (violated).** Other open files are not listed, for example text files. -/
theorem C252_text_violated (e : List Char) (names : List (List Char)) (h : ∀ n ∈ names, ¬ AfterAny e n) (hb : ∀ n ∈ names, ' ' ∉ n) : openFiles e (names.map ('n' :: ·)) = [] := by
  rw [List.eq_nil_iff_forall_not_mem]
  intro f hf
  obtain ⟨name, h1, h2, h3, h4⟩ := (C252_sound e _ f).1 hf
  obtain ⟨n, hn, he⟩ := List.mem_map.1 h1
  simp only [List.cons.injEq, true_and] at he
  subst he
  rcases h3 with h3 | ⟨s, h3⟩
  · exact h n hn (h3 ▸ h4)
  · exact hb n hn (h3 ▸ by simp)

/-- The hypotheses are met, and a text file in a directory that contains the letters is listed. -/
example : openFiles "so".toList ["n/data/costs.txt".toList] = [] ∧ openFiles "so".toList ["n/home/person/a.txt".toList] = ["/home/person/a.txt".toList] := by decide +kernel

/-- **C252 (violated).** Names with blanks are cut off: the file that is listed is not open. -/
theorem C252_blank_violated : openFiles "so".toList ["n/my.so files/a.txt".toList] = ["/my.so".toList] := by decide +kernel

variable {T D : Type} [DecidableEq T]

theorem distRow_get (score : T → T → D) (a x y : T) : ∀ (bs : List T) (d : Dict (T × T) D), bs.Nodup →
    Dict.get? (distRow score a d bs) (x, y) = if x = a ∧ y ∈ bs then some (score a y) else if y = a ∧ x ∈ bs then some (score a x) else Dict.get? d (x, y)
  | [], d, _ => by simp [distRow]
  | b :: bs, d, h => by
    rw [List.nodup_cons] at h
    have ih := distRow_get score a x y bs (Dict.set (Dict.set d (a, b) (score a b)) (b, a) (score a b)) h.2
    unfold distRow at ih ⊢
    rw [List.foldl_cons, ih]
    simp only [Dict.get?_set, Prod.mk.injEq, List.mem_cons]
    by_cases h1 : x = a ∧ y ∈ bs
    · rw [if_pos h1, if_pos ⟨h1.1, .inr h1.2⟩]
    · rw [if_neg h1]
      by_cases h2 : y = a ∧ x ∈ bs
      · rw [if_pos h2]
        by_cases h3 : x = a ∧ (y = b ∨ y ∈ bs)
        · rw [if_pos h3]
          rw [h3.1, h2.1]
        · rw [if_neg h3, if_pos ⟨h2.1, .inr h2.2⟩]
      · rw [if_neg h2]
        by_cases h3 : b = x ∧ a = y
        · obtain ⟨rfl, rfl⟩ := h3
          rw [if_pos ⟨rfl, rfl⟩]
          by_cases h4 : b = a ∧ (a = b ∨ a ∈ bs)
          · rw [if_pos h4, h4.1]
          · rw [if_neg h4, if_pos ⟨rfl, .inl rfl⟩]
        · rw [if_neg h3]
          by_cases h4 : a = x ∧ b = y
          · obtain ⟨rfl, rfl⟩ := h4
            rw [if_pos ⟨rfl, rfl⟩, if_pos ⟨rfl, .inl rfl⟩]
          · rw [if_neg h4, if_neg, if_neg]
            · rintro ⟨rfl, rfl | h5⟩
              · exact h3 ⟨rfl, rfl⟩
              · exact h2 ⟨rfl, h5⟩
            · rintro ⟨rfl, rfl | h5⟩
              · exact h4 ⟨rfl, rfl⟩
              · exact h1 ⟨rfl, h5⟩

/-- `a` is at the same place as `b` or before it. -/
def Before (l : List T) (a b : T) : Prop := ∃ p s, l = p ++ a :: s ∧ (b = a ∨ b ∈ s)

theorem distMap_get (score : T → T → D) (x y : T) : ∀ (l : List T) (d : Dict (T × T) D), l.Nodup →
    (Before l x y → Dict.get? (distMap score d l) (x, y) = some (score x y)) ∧ (Before l y x → Dict.get? (distMap score d l) (x, y) = some (score y x)) ∧
      (¬ (x ∈ l ∧ y ∈ l) → Dict.get? (distMap score d l) (x, y) = Dict.get? d (x, y))
  | [], d, _ => by
    refine ⟨?_, ?_, fun _ => rfl⟩ <;> (rintro ⟨p, s, h, _⟩; simp at h)
  | a :: l, d, hn => by
    have hn' := List.nodup_cons.1 hn
    obtain ⟨i1, i2, i3⟩ := distMap_get score x y l (distRow score a d (a :: l)) hn'.2
    have hrow := distRow_get score a x y (a :: l) d hn
    simp only [distMap]
    refine ⟨?_, ?_, ?_⟩
    · rintro ⟨p, s, h, hb⟩
      cases p with
      | nil =>
        simp only [List.nil_append, List.cons.injEq] at h
        obtain ⟨rfl, rfl⟩ := h
        have hy : y ∈ a :: l := by
          rcases hb with rfl | hb
          · simp
          · simp [hb]
        rw [i3 fun hc => hn'.1 hc.1, hrow, if_pos ⟨rfl, hy⟩]
      | cons z p =>
        simp only [List.cons_append, List.cons.injEq] at h
        exact i1 ⟨p, s, h.2, hb⟩
    · rintro ⟨p, s, h, hb⟩
      cases p with
      | nil =>
        simp only [List.nil_append, List.cons.injEq] at h
        obtain ⟨rfl, rfl⟩ := h
        rw [i3 fun hc => hn'.1 hc.2, hrow]
        split_ifs with h1 h2
        · rw [h1.1]
        · rfl
        · exfalso
          refine h2 ⟨rfl, ?_⟩
          rcases hb with rfl | hb
          · simp
          · simp [hb]
      | cons z p =>
        simp only [List.cons_append, List.cons.injEq] at h
        exact i2 ⟨p, s, h.2, hb⟩
    · intro h
      rw [i3 fun hc => h ⟨by simp [hc.1], by simp [hc.2]⟩, hrow, if_neg, if_neg]
      · rintro ⟨rfl, h2⟩; exact h ⟨h2, by simp⟩
      · rintro ⟨rfl, h2⟩; exact h ⟨by simp, h2⟩

/-- **C253.** The layout receives a distance for each pair of elements, in both directions, and for no other pair. It is the score of the pair in the order of the elements. -/
theorem C253_distances (score : T → T → D) (l : List T) (h : l.Nodup) (x y : T) :
    (Before l x y → Dict.get? (distMap score [] l) (x, y) = some (score x y) ∧ Dict.get? (distMap score [] l) (y, x) = some (score x y)) ∧
      (¬ (x ∈ l ∧ y ∈ l) → Dict.get? (distMap score [] l) (x, y) = none) := by
  obtain ⟨h1, h2, h3⟩ := distMap_get score x y l [] h
  exact ⟨fun hb => ⟨h1 hb, (distMap_get score y x l [] h).2.1 hb⟩, fun hn => by rw [h3 hn]; rfl⟩

/-- Each pair of elements is in some order, and the hypotheses are met: the score is not symmetric, the distances are. -/
example : Before ["a", "b", "c"] "a" "c" ∧ distMap (fun a b => a ++ b) [] ["a", "b"] = [(("a", "a"), "aa"), (("a", "b"), "ab"), (("b", "a"), "ab"), (("b", "b"), "bb")] :=
  ⟨⟨[], ["b", "c"], rfl, by simp⟩, by decide +kernel⟩

theorem colorMap_get {L C : Type} [DecidableEq L] (palette : Nat → Nat → C) (labels : List L) (h : labels.Nodup) (i : Nat) (hi : i < labels.length) :
    Dict.get? (colorMap palette labels) labels[i] = some (palette labels.length i) := by
  unfold colorMap
  have hkeys : ∀ (l : List L) (k n : Nat), Dict.keys ((l.zipIdx k).map fun e => (e.1, palette n e.2)) = l := by
    intro l
    induction l with
    | nil => intro k n; rfl
    | cons a l ih => intro k n; simp only [List.zipIdx_cons, List.map_cons, Dict.keys_cons, ih]
  rw [Dict.get?_ofList_wf (by unfold Dict.WF; rw [hkeys]; exact h)]
  have hget : ∀ (l : List L) (k n : Nat), l.Nodup → ∀ i (hi : i < l.length), Dict.get? ((l.zipIdx k).map fun e => (e.1, palette n e.2)) l[i] = some (palette n (k + i)) := by
    intro l
    induction l with
    | nil => intro k n _ i hi; simp at hi
    | cons a l ih =>
      intro k n hn i hi
      rw [List.nodup_cons] at hn
      cases i with
      | zero => simp [List.zipIdx_cons, Dict.get?]
      | succ i =>
        simp only [List.length_cons, Nat.add_lt_add_iff_right] at hi
        have hne : a ≠ l[i] := fun h => hn.1 (h ▸ List.getElem_mem hi)
        simp only [List.zipIdx_cons, List.map_cons, Dict.get?, List.getElem_cons_succ, if_neg hne, ih (k + 1) n hn.2 i hi]
        rw [show k + 1 + i = k + (i + 1) by omega]
  simpa using hget labels 0 labels.length h i hi

/-- **C253.** The picture of a graph has one box for each node and one line for each edge, in their order. It is directed if this is requested, by default if the graph is. Without labels for the colours there are no colours. -/
theorem C253_graph {N L C : Type} [DecidableEq L] (str : N → String) (escape : String → String) (palette : Nat → Nat → C) (isDi : Bool) (directed : Option Bool) (order : List L) (nodes : List N) (edges : List (N × N)) :
    plotGraph str escape palette isDi directed (none : Option (N → L)) order nodes edges =
      ((match directed with | some b => b | none => isDi), nodes.map (fun n => .box (str n) (escape (str n)) none) ++ edges.map fun e => .line (str e.1) (str e.2)) := by
  cases directed <;> rfl

/-- **C253.** With labels for the colours, the picture is the same except that each box has a colour, and boxes have the same colour exactly if they have the same label (`palette` gives different colours to different numbers). -/
theorem C253_colors {N L C : Type} [DecidableEq L] (str : N → String) (escape : String → String) (palette : Nat → Nat → C) (isDi : Bool) (directed : Option Bool) (label : N → L) (order : List L) (nodes : List N) (edges : List (N × N))
    (hn : order.Nodup) (ho : ∀ l, l ∈ order ↔ ∃ n ∈ nodes, label n = l) (hp : ∀ k i j, i < k → j < k → palette k i = palette k j → i = j) :
    ∃ color : L → C, plotGraph str escape palette isDi directed (some label) order nodes edges =
        ((match directed with | some b => b | none => isDi), nodes.map (fun n => .box (str n) (escape (str n)) (some (color (label n)))) ++ edges.map fun e => .line (str e.1) (str e.2)) ∧
      ∀ n ∈ nodes, ∀ m ∈ nodes, (color (label n) = color (label m) ↔ label n = label m) := by
  have hidx : ∀ n ∈ nodes, ∃ i, ∃ hi : i < order.length, order[i] = label n := fun n h => List.mem_iff_getElem.1 ((ho _).2 ⟨n, h, rfl⟩)
  have hcol : ∀ n ∈ nodes, Dict.get? (colorMap palette order) (label n) = some (palette order.length (order.idxOf (label n))) := by
    intro n h
    have hm : label n ∈ order := (ho _).2 ⟨n, h, rfl⟩
    have := colorMap_get palette order hn (order.idxOf (label n)) (List.idxOf_lt_length_of_mem hm)
    rwa [List.getElem_idxOf] at this
  refine ⟨fun l => palette order.length (order.idxOf l), ?_, ?_⟩
  · unfold plotGraph
    cases directed <;>
    · simp only [Option.getD_none, Option.getD_some]
      congr 2
      apply List.map_congr_left
      intro n h
      rw [hcol n h]
  · intro n h m h'
    constructor
    · intro he
      have hm : label n ∈ order := (ho _).2 ⟨n, h, rfl⟩
      have hm' : label m ∈ order := (ho _).2 ⟨m, h', rfl⟩
      have := hp _ _ _ (List.idxOf_lt_length_of_mem hm) (List.idxOf_lt_length_of_mem hm') he
      exact (List.idxOf_inj hm).1 this
    · intro he; rw [he]

/-- The hypotheses are met: three nodes with two labels. -/
example : ["x", "y"].Nodup ∧ (∀ l, l ∈ ["x", "y"] ↔ ∃ n ∈ [1, 2, 3], (fun n => if n = 2 then "y" else "x") n = l) ∧ ∀ k i j : Nat, i < k → j < k → (fun _ i => i) k i = (fun _ i => i) k j → i = j := by
  refine ⟨by decide +kernel, fun l => ?_, fun k i j _ _ h => h⟩
  simp [eq_comm]
  tauto

end PB.ProcProps
