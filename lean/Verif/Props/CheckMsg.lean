import Verif.Model.CheckMsg
set_option linter.unusedVariables false
set_option linter.unusedSimpArgs false

namespace PB.CheckMsgProps
open PB.CheckMsg

/-- The reasons that are texts. -/
def Reasons : Reason → List Text
  | .one s => [s]
  | .many ss => ss
  | .hints hs => hs

def IsText : Reason → Prop
  | .hints hs => hs = []
  | _ => True

/-- An error of the kind that belongs to the context, with this message. -/
def Kind : Context → Text → Err
  | .none, m => .state m
  | .query _, m => .query m
  | .database _, m => .system m

/-- The text of the query or database. -/
def Subject : Context → Text
  | .none => []
  | .query q => q
  | .database d => d

theorem infix_join (sep s : Text) : (ss : List Text) → s ∈ ss → s <:+: join sep ss
  | [], h => by simp at h
  | [t], h => by simp at h; subst h; exact List.infix_rfl
  | t :: u :: ss, h => by
    rw [join]
    rcases List.mem_cons.1 h with rfl | h
    · exact ⟨[], sep ++ join sep (u :: ss), by simp⟩
    · obtain ⟨p, q, hpq⟩ := infix_join sep s (u :: ss) h
      exact ⟨t ++ sep ++ p, q, by rw [← hpq]; simp⟩
    · simp

theorem mid (p s q t : Text) (h : s <:+: t) : s <:+: p ++ t ++ q := by
  obtain ⟨a, b, rfl⟩ := h
  exact ⟨p ++ a, b ++ q, by simp⟩

/-- **C260 (partial).** A failed check raises an error of the kind that belongs to the context, and its message contains the query or database and each reason (with quotes if it is in a list for a database, `quote` puts characters around the text). Checks that pass raise
nothing. (Missing: hints as reasons, see `C260_hints_violated`.) -/
theorem C260_message_partial (quote : Text → Text) (hq : ∀ t, t <:+: quote t) (passed : Bool) (r : Reason) (c : Context) (ht : IsText r) :
    (passed = true → ensure quote passed r c = none) ∧ (passed = false → ∃ m, ensure quote passed r c = some (Kind c m) ∧ Subject c <:+: m ∧ ∀ s ∈ Reasons r, s <:+: m) := by
  constructor
  · intro h; simp [ensure, h]
  · intro h
    simp only [ensure, h, Bool.false_eq_true, if_false]
    have nil : ∀ m : Text, ([] : Text) <:+: m := fun m => ⟨[], m, by simp⟩
    cases c with
    | none =>
      cases r with
      | one s =>
        by_cases hs : s = []
        · refine ⟨_, by simp [failureStr, hs, Kind]; rfl, nil _, fun t ht => ?_⟩
          simp [Reasons, hs] at ht; subst ht; exact nil _
        · refine ⟨"Pre check failed ".toList ++ ('[' :: s ++ [']']), by simp [failureStr, hs, Kind], nil _, fun t ht => ?_⟩
          simp [Reasons] at ht; subst ht
          exact ⟨"Pre check failed ".toList ++ ['['], [']'], by simp⟩
      | many ss =>
        by_cases hs : ss = []
        · refine ⟨_, by simp [failureStr, hs, Kind]; rfl, nil _, fun t ht => ?_⟩
          simp [Reasons, hs] at ht
        · refine ⟨"Pre check failed ".toList ++ ('[' :: join [' ', '|', ' '] ss ++ [']']), by simp [failureStr, hs, Kind], nil _, fun t ht => ?_⟩
          have := mid ("Pre check failed ".toList ++ ['[']) t [']'] _ (infix_join [' ', '|', ' '] t ss ht)
          simpa using this
      | hints hs =>
        have ht : hs = [] := ht
        subst ht
        exact ⟨_, by simp [failureStr, Kind]; rfl, nil _, fun t ht => by simp [Reasons] at ht⟩
    | query q =>
      have sub : ∀ f : Text, q <:+: "Query contains unsupported features".toList ++ f ++ ": ".toList ++ q := fun f => ⟨_, [], by rw [List.append_nil]⟩
      cases r with
      | one s =>
        refine ⟨"Query contains unsupported features".toList ++ (if s = [] then [] else [' ', '['] ++ s ++ [']']) ++ ": ".toList ++ q, by simp [featuresStr, Kind], sub _, fun t ht => ?_⟩
        simp [Reasons] at ht; subst ht
        by_cases hs : t = []
        · rw [hs]; exact nil _
        · rw [if_neg hs]
          exact ⟨"Query contains unsupported features".toList ++ [' ', '['], [']'] ++ ": ".toList ++ q, by simp⟩
      | many ss =>
        refine ⟨"Query contains unsupported features".toList ++ (if join [',', ' '] ss = [] then [] else [' ', '['] ++ join [',', ' '] ss ++ [']']) ++ ": ".toList ++ q, by simp [featuresStr, Kind], sub _, fun t ht => ?_⟩
        have hin := infix_join [',', ' '] t ss ht
        by_cases hs : join [',', ' '] ss = []
        · rw [hs] at hin
          rw [List.infix_nil.1 hin]; exact nil _
        · rw [if_neg hs]
          have := mid ("Query contains unsupported features".toList ++ [' ', '[']) t ([']'] ++ ": ".toList ++ q) _ hin
          simpa using this
      | hints hs =>
        have ht : hs = [] := ht
        subst ht
        exact ⟨"Query contains unsupported features".toList ++ [] ++ ": ".toList ++ q, by simp [featuresStr, Kind], sub _, fun t ht => by simp [Reasons] at ht⟩
    | database d =>
      refine ⟨_, rfl, ⟨"Unsupported database system: ".toList, reasonStr quote r, by simp [Subject]⟩, ?_⟩
      cases r with
      | one s =>
        intro t ht
        simp [Reasons] at ht; subst ht
        by_cases hs : t = []
        · rw [hs]; exact nil _
        · simp only [reasonStr, if_neg hs]
          exact ⟨"Unsupported database system: ".toList ++ d ++ [' ', '('], [')'], by simp⟩
      | many ss =>
        intro t ht
        have hs : ss ≠ [] := by rintro rfl; simp [Reasons] at ht
        have hin := (hq t).trans (infix_join [',', ' '] (quote t) (ss.map quote) (List.mem_map_of_mem ht))
        simp only [reasonStr, if_neg hs]
        have := mid ("Unsupported database system: ".toList ++ d ++ [' ', '('] ++ ['[']) t ([']'] ++ [')']) _ hin
        simpa using this
      | hints hs =>
        have ht : hs = [] := ht
        subst ht
        intro t ht
        simp [Reasons] at ht

/-- The hypotheses are met. -/
example : IsText (.many ["CROSS_PRODUCT".toList]) ∧ ∀ t : Text, t <:+: (fun t => '\'' :: t ++ ['\'']) t := ⟨trivial, fun t => ⟨['\''], ['\''], by simp⟩⟩

/-- **C260.** The texts of the messages. -/
theorem C260_texts (quote : Text → Text) :
    ensure quote false (.many ["A".toList, "B".toList]) .none = some (.state "Pre check failed [A | B]".toList) ∧
      (∀ q, ensure quote false (.many ["A".toList, "B".toList]) (.query q) = some (.query ("Query contains unsupported features [A, B]: ".toList ++ q))) ∧
      ∀ d, ensure quote false (.one "A".toList) (.database d) = some (.system ("Unsupported database system: ".toList ++ d ++ " (A)".toList)) := by
  refine ⟨by simp [ensure, failureStr, join], fun q => ?_, fun d => ?_⟩
  · simp [ensure, featuresStr, join]
  · simp [ensure, reasonStr]

/-- **C260 (violated).** If hints are not supported, a type error is raised instead of an error with these hints, unless the database is passed as context. -/
theorem C260_hints_violated (quote : Text → Text) (hs : List Text) (h : hs ≠ []) (q : Text) : ensure quote false (.hints hs) .none = some .type ∧ ensure quote false (.hints hs) (.query q) = some .type := by
  simp [ensure, failureStr, featuresStr, h]

/-- The hypotheses are met. -/
example : ["JoinOrder".toList] ≠ [] := by simp

/-- **C260.** A check for hints passes exactly if the database supports all of them, and otherwise reports exactly the other ones in their order. -/
theorem C260_supported {H : Type} (supports : H → Bool) (features : List H) :
    ((hintCheck supports features).1 = true ↔ ∀ h ∈ features, supports h = true) ∧ (∀ h, h ∈ (hintCheck supports features).2 ↔ h ∈ features ∧ supports h = false) ∧ (hintCheck supports features).2.Sublist features := by
  refine ⟨?_, fun h => by simp [hintCheck], List.filter_sublist⟩
  simp [hintCheck, List.filter_eq_nil_iff]

/-- **C260.** User-defined checks return the result of their function, and pass if there is none. -/
theorem C260_custom {X R : Type} (passed : R) (f : X → R) (x : X) : customCheck passed (some f) x = f x ∧ customCheck passed (none : Option (X → R)) x = passed := ⟨rfl, rfl⟩

end PB.CheckMsgProps
