import Verif.Model.Logging
import Mathlib.Data.List.Nodup
set_option linter.unusedVariables false
set_option linter.unusedSimpArgs false

namespace PB.LoggingProps
open PB.Logging

/-- The line of a message: its parts, separated by spaces. -/
def Line (parts : List Text) : Text := List.intercalate [' '] parts ++ ['\n']

theorem joinArgs_eq : (l : List Text) → joinArgs l = List.intercalate [' '] l
  | [] => rfl
  | [a] => by simp [joinArgs, List.intercalate]
  | a :: b :: l => by rw [joinArgs, joinArgs_eq (b :: l)]; simp [List.intercalate]

theorem printArgs_eq (l : List Text) : printArgs l = Line l := by rw [printArgs, joinArgs_eq, Line]

/-- **C264 (partial).** Loggers write the prefix, if there is one, and the arguments as one line; disabled loggers write nothing, also pretty ones. (Missing: prefixes of pretty loggers, see `C264_pretty_violated`.) -/
theorem C264_logger_partial (pp : Text → Text) (args : List Text) (p : Text) (f : Unit → Text) (pre : Pre) (pretty : Bool) :
    makeLogger pp true false (.text []) args = .written (Line args) ∧ (p ≠ [] → makeLogger pp true false (.text p) args = .written (Line (p :: args))) ∧
    makeLogger pp true false (.func f) args = .written (Line (f () :: args)) ∧ makeLogger pp false pretty pre args = .nothing := by
  refine ⟨by simp [makeLogger, printArgs_eq], fun h => by simp [makeLogger, printArgs_eq, h], by simp [makeLogger, printArgs_eq], by simp [makeLogger]⟩

/-- The hypotheses are met. -/
example : "bench".toList ≠ [] := by decide

/-- **C264 (violated).** Pretty loggers do not write the prefix, and they accept exactly one argument. -/
theorem C264_pretty_violated (pp : Text → Text) (pre : Pre) (a b : Text) (args : List Text) :
    makeLogger pp true true pre [a] = .written (pp a ++ ['\n']) ∧ makeLogger pp true true pre [] = .error ∧ makeLogger pp true true pre (a :: b :: args) = .error := by
  simp [makeLogger]

/-- The name of a module that is shown: the last part of its path that does not begin with an underscore. -/
def Shown (mod : List Text) (m : Text) : Prop := ∃ before after, mod = before ++ m :: after ∧ m.head? ≠ some '_' ∧ ∀ p ∈ after, p.head? = some '_'

/-- A module whose parts all begin with an underscore. -/
def Hidden (mod : List Text) : Prop := ∀ p ∈ mod, p.head? = some '_'

theorem isPrefix_us (p : Text) : ['_'].isPrefixOf p = true ↔ p.head? = some '_' := by
  cases p with
  | nil => simp [List.isPrefixOf]
  | cons a p =>
    simp only [List.isPrefixOf, Bool.and_true, beq_iff_eq, List.head?_cons, Option.some.injEq]
    exact eq_comm

theorem find_shown (mod : List Text) (m : Text) : mod.reverse.find? (fun p => !(['_'].isPrefixOf p)) = some m ↔ Shown mod m := by
  rw [List.find?_eq_some_iff_append]
  unfold Shown
  constructor
  · rintro ⟨h1, as, bs, h2, h3⟩
    refine ⟨bs.reverse, as.reverse, ?_, ?_, ?_⟩
    · rw [← List.reverse_reverse mod, h2]; simp
    · intro h; rw [(isPrefix_us m).2 h] at h1; simp at h1
    · intro p hp
      have := h3 p (List.mem_reverse.1 hp)
      rw [← isPrefix_us]; simpa using this
  · rintro ⟨before, after, rfl, h1, h2⟩
    refine ⟨?_, after.reverse, before.reverse, by simp, ?_⟩
    · have h3 : ¬ ['_'].isPrefixOf m = true := fun h => h1 ((isPrefix_us m).1 h)
      rw [Bool.not_eq_true] at h3; rw [h3]; rfl
    · intro p hp
      have := h2 p (List.mem_reverse.1 hp)
      rw [← isPrefix_us] at this; simp [this]

theorem find_hidden (mod : List Text) : mod.reverse.find? (fun p => !(['_'].isPrefixOf p)) = none ↔ Hidden mod := by
  rw [List.find?_eq_none]
  unfold Hidden
  constructor
  · intro h p hp
    have := h p (List.mem_reverse.2 hp)
    rw [← isPrefix_us]; simpa using this
  · intro h p hp
    have := h p (List.mem_reverse.1 hp)
    rw [← isPrefix_us] at this; simp [this]

/-- Frames that are skipped. -/
def Skipped (f : Option (List Text)) : Prop := ∀ mod, f = some mod → Hidden mod

theorem callee_skip (pre : List (Option (List Text))) (h : ∀ f ∈ pre, Skipped f) (rest : List (Option (List Text))) : callee (pre ++ rest) = callee rest := by
  induction pre with
  | nil => rfl
  | cons f pre ih =>
    have hr := ih fun x hx => h x (by simp [hx])
    cases f with
    | none => rw [List.cons_append, callee, hr]
    | some mod =>
      have := (find_hidden mod).2 (h (some mod) (by simp) mod rfl)
      rw [List.cons_append, callee, this]; exact hr

/-- **C264.** Standard messages are one line with the time, the innermost module of the call stack that has a public name, and the arguments. -/
theorem C264_standard (pp : Text → Text) (ts : Text) (pre rest : List (Option (List Text))) (mod : List Text) (m : Text) (args : List Text) (hp : ∀ f ∈ pre, Skipped f) (hm : Shown mod m) :
    standardLogger pp ts (pre ++ some mod :: rest) true args = .written (Line ((ts ++ " (".toList ++ m ++ ") -".toList) :: args)) := by
  have : callee (pre ++ some mod :: rest) = m := by rw [callee_skip pre hp, callee, (find_shown mod m).2 hm]
  simp only [standardLogger, standardPrefix, this]
  exact (C264_logger_partial pp args [] (fun _ => ts ++ " (".toList ++ m ++ ") -".toList) (.text []) false).2.2.1

/-- **C264.** If no module has a public name, the message names the main program. -/
theorem C264_main (pp : Text → Text) (ts : Text) (frames : List (Option (List Text))) (args : List Text) (hp : ∀ f ∈ frames, Skipped f) :
    standardLogger pp ts frames true args = .written (Line ((ts ++ " (<main>) -".toList) :: args)) := by
  have : callee frames = "<main>".toList := by
    have := callee_skip frames hp []
    rw [List.append_nil] at this; rw [this]; rfl
  simp only [standardLogger, standardPrefix, this]
  rw [(C264_logger_partial pp args [] (fun _ => ts ++ " (".toList ++ "<main>".toList ++ ") -".toList) (.text []) false).2.2.1]
  simp only [List.append_assoc]
  rfl

/-- The hypotheses are met. -/
example : Shown ["postbound".toList, "opt".toList, "_helpers".toList] "opt".toList ∧ Hidden ["__main__".toList] ∧ Skipped none := by
  refine ⟨⟨["postbound".toList], ["_helpers".toList], by decide, by decide, by decide⟩, by unfold Hidden; decide, fun _ h => nomatch h⟩

/-- **C264.** Conditional output goes to the given file, or else to the error output if this is requested, or else to the standard output; nothing is written if the condition fails. Error messages always go to the error output. -/
theorem C264_devices (useStderr : Bool) (file : Option Dev) (d : Dev) (args : List Text) :
    printIf false useStderr file args = none ∧ printIf true useStderr (some d) args = some (d, Line args) ∧ printIf true true none args = some (.stderr, Line args) ∧
    printIf true false none args = some (.stdout, Line args) ∧ printStderr file args = (.stderr, Line args) := by
  simp [printIf, printStderr, printArgs_eq]

/-- Copies of the output to files, in the order of their installation. -/
def install (o : Out) (w : World) : List (String × Bool) → Out × World
  | [] => (o, w)
  | (f, t) :: l => install (teeStdout o w f t).1 (teeStdout o w f t).2 l

/-- The files of the copies. -/
def targets : Out → List String
  | .console => []
  | .tee o f => f :: targets o

theorem write_eq (o : Out) (h : (targets o).Nodup) (m : Text) (w : World) :
    (write o m w).console = w.console ++ m ∧ ∀ f, (write o m w).files f = if f ∈ targets o then w.files f ++ m else w.files f := by
  induction o with
  | console => simp [write, targets]
  | tee o g ih =>
    simp only [targets, List.nodup_cons] at h
    obtain ⟨h1, h2⟩ := ih h.2
    refine ⟨h1, fun f => ?_⟩
    simp only [write, targets, List.mem_cons]
    by_cases hf : f = g
    · subst hf; simp [h2, h.1]
    · simp [hf, h2]

theorem writes_eq (o : Out) (h : (targets o).Nodup) (ms : List Text) (w : World) :
    (ms.foldl (fun w m => write o m w) w).console = w.console ++ ms.flatten ∧ ∀ f, (ms.foldl (fun w m => write o m w) w).files f = if f ∈ targets o then w.files f ++ ms.flatten else w.files f := by
  induction ms generalizing w with
  | nil => simp
  | cons m ms ih =>
    obtain ⟨h1, h2⟩ := ih (write o m w)
    obtain ⟨g1, g2⟩ := write_eq o h m w
    refine ⟨by rw [List.foldl_cons, h1, g1]; simp, fun f => ?_⟩
    rw [List.foldl_cons, h2, g2]
    split_ifs <;> simp

theorem install_eq (l : List (String × Bool)) : ∀ (o : Out) (w : World), (l.map Prod.fst).Nodup → (∀ f ∈ l.map Prod.fst, f ∉ targets o) → (targets o).Nodup →
    (targets (install o w l).1).Nodup ∧ (∀ f, f ∈ targets (install o w l).1 ↔ f ∈ l.map Prod.fst ∨ f ∈ targets o) ∧ (install o w l).2.console = w.console ∧
    ∀ f, (install o w l).2.files f = if (f, true) ∈ l then [] else w.files f := by
  induction l with
  | nil => intro o w _ _ h; simp [install, h]
  | cons e l ih =>
    obtain ⟨g, t⟩ := e
    intro o w hn hd ho
    simp only [List.map_cons, List.nodup_cons] at hn
    have ht : (targets (teeStdout o w g t).1) = g :: targets o := rfl
    obtain ⟨h1, h2, h3, h4⟩ := ih (teeStdout o w g t).1 (teeStdout o w g t).2 hn.2 (by
      intro f hf
      rw [ht, List.mem_cons, not_or]
      exact ⟨fun h => hn.1 (h ▸ hf), hd f (by simp [List.mem_cons]; right; simpa using hf)⟩) (by
      rw [ht, List.nodup_cons]; exact ⟨hd g (by simp), ho⟩)
    refine ⟨h1, fun f => ?_, ?_, fun f => ?_⟩
    · rw [install, h2, ht]; simp only [List.map_cons, List.mem_cons]; tauto
    · rw [install, h3]; unfold teeStdout; cases t <;> rfl
    · rw [install, h4]
      unfold teeStdout
      by_cases hm : (f, true) ∈ l
      · simp [hm]
      · cases t with
        | false => simp [hm]
        | true => by_cases hf : f = g <;> simp [hm, hf]

/-- **C264.** After the output was copied to any number of different files, the console and each of the files receive all messages in order; files opened for writing lose their old text, and other files do not change. -/
theorem C264_tee (l : List (String × Bool)) (w : World) (hn : (l.map Prod.fst).Nodup) (ms : List Text) :
    let r := install .console w l
    let w' := ms.foldl (fun w m => write r.1 m w) r.2
    w'.console = w.console ++ ms.flatten ∧ (∀ f, (f, false) ∈ l → w'.files f = w.files f ++ ms.flatten) ∧ (∀ f, (f, true) ∈ l → w'.files f = ms.flatten) ∧
      ∀ f, (∀ t, (f, t) ∉ l) → w'.files f = w.files f := by
  intro r w'
  obtain ⟨h1, h2, h3, h4⟩ := install_eq l .console w hn (by simp [targets]) (by simp [targets])
  obtain ⟨g1, g2⟩ := writes_eq r.1 h1 ms r.2
  refine ⟨by rw [g1, h3], fun f hf => ?_, fun f hf => ?_, fun f hf => ?_⟩
  · have hin : f ∈ targets r.1 := (h2 f).2 (.inl (List.mem_map.2 ⟨_, hf, rfl⟩))
    have hnt : (f, true) ∉ l := by
      intro ht
      have := List.inj_on_of_nodup_map hn hf ht rfl
      simp at this
    rw [g2, if_pos hin, h4, if_neg hnt]
  · have hin : f ∈ targets r.1 := (h2 f).2 (.inl (List.mem_map.2 ⟨_, hf, rfl⟩))
    rw [g2, if_pos hin, h4, if_pos hf]; rfl
  · have hin : f ∉ targets r.1 := by
      rw [h2]
      rintro (h | h)
      · obtain ⟨⟨a, t⟩, he, rfl⟩ := List.mem_map.1 h; exact hf t he
      · simp [targets] at h
    rw [g2, if_neg hin, h4, if_neg (hf true)]

/-- The hypotheses are met. -/
example : (([("a.log", true), ("b.log", false)] : List (String × Bool)).map Prod.fst).Nodup := by decide

/-- **C264 (violated).** Once the output is copied to a file, printing with `flush=True` is an error, although the message is written. -/
theorem C264_flush_violated (file : String) (args : List Text) (w : World) : printTo .console args true w = (true, write .console (Line args) w) ∧ (printTo (.tee .console file) args true w).1 = false ∧
    (printTo (.tee .console file) args true w).2.console = w.console ++ Line args ∧ (printTo (.tee .console file) args false w).1 = true := by
  simp [printTo, printArgs_eq, write]

end PB.LoggingProps
