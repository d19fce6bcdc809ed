import Mathlib.Data.List.Basic

/-!
Model of the messages of failed checks (`PreCheckResult.ensure_all_passed`, postbound/validation.py:127-175, and the errors `UnsupportedQueryError` and `UnsupportedSystemError`, postbound/validation.py:178-216), and of the checks for hints and of user-defined
checks (postbound/validation.py:661-735). Texts are lists of characters.
-/

namespace PB.CheckMsg

abbrev Text := List Char

/-- `failure_reason` (postbound/validation.py:71): a text, texts, or hints, which are no texts (`SupportedHintCheck`, postbound/validation.py:684-690). `repr` is the text of a hint in a list. -/
inductive Reason
  | one (s : Text)
  | many (ss : List Text)
  | hints (hs : List Text)

/-- The kinds of errors. -/
inductive Err
  | state (msg : Text)
  | query (msg : Text)
  | system (msg : Text)
  | type
deriving DecidableEq

/-- `sep.join(ss)` -/
def join (sep : Text) : List Text → Text
  | [] => []
  | [s] => s
  | s :: ss => s ++ sep ++ join sep ss

/-- `_generate_failure_str` (postbound/validation.py:157-175); `none` is a `TypeError`: hints cannot be joined. Empty reasons are false. -/
def failureStr : Reason → Option Text
  | .one s => if s = [] then some [] else some ('[' :: s ++ [']'])
  | .many ss => if ss = [] then some [] else some ('[' :: join [' ', '|', ' '] ss ++ [']'])
  | .hints hs => if hs = [] then some [] else none

/-- The features of `UnsupportedQueryError` (postbound/validation.py:190-192). -/
def featuresStr : Reason → Option Text
  | .one s => some (if s = [] then [] else [' ', '['] ++ s ++ [']'])
  | .many ss => some (if join [',', ' '] ss = [] then [] else [' ', '['] ++ join [',', ' '] ss ++ [']'])
  | .hints hs => if hs = [] then some [] else none

/-- The reason of `UnsupportedSystemError` (postbound/validation.py:211-213): lists are shown with the `repr` of their elements. -/
def reasonStr (quote : Text → Text) : Reason → Text
  | .one s => if s = [] then [] else [' ', '('] ++ s ++ [')']
  | .many ss => if ss = [] then [] else [' ', '('] ++ ('[' :: join [',', ' '] (ss.map quote) ++ [']']) ++ [')']
  | .hints hs => if hs = [] then [] else [' ', '('] ++ ('[' :: join [',', ' '] hs ++ [']']) ++ [')']

/-- The context of a check: none, a query or a database, given by their texts. -/
inductive Context
  | none
  | query (text : Text)
  | database (text : Text)

/-- `ensure_all_passed` (postbound/validation.py:127-155): the error, if there is one. -/
def ensure (quote : Text → Text) (passed : Bool) (r : Reason) (c : Context) : Option Err :=
  if passed then none
  else some (match c with
    | .none => match failureStr r with
      | some s => .state ("Pre check failed ".toList ++ s)
      | none => .type
    | .query q => match featuresStr r with
      | some f => .query ("Query contains unsupported features".toList ++ f ++ ": ".toList ++ q)
      | none => .type
    | .database d => .system ("Unsupported database system: ".toList ++ d ++ reasonStr quote r))

/-- `SupportedHintCheck.check_supported_database_system` (postbound/validation.py:681-690): whether the check passes, and the hints that are not supported. -/
def hintCheck {H : Type} (supports : H → Bool) (features : List H) : Bool × List H :=
  let failures := features.filter fun h => !supports h
  (failures.isEmpty, failures)

/-- `CustomCheck` (postbound/validation.py:724-734): the result of the function, or `passed` if there is none. -/
def customCheck {X R : Type} (passed : R) (check : Option (X → R)) (x : X) : R :=
  match check with
  | none => passed
  | some f => f x

end PB.CheckMsg
