import Mathlib.Data.List.Basic

/-! Model of log messages (postbound/util/logging.py). Texts are lists of characters. -/

namespace PB.Logging

abbrev Text := List Char

/-- The effect of a call: a text is written, nothing happens, or it is an error. -/
inductive Effect
  | written (t : Text)
  | nothing
  | error
deriving DecidableEq

/-- Prefixes: a text (possibly empty) or a function. -/
inductive Pre
  | text (t : Text)
  | func (f : Unit → Text)

/-- `" ".join(...)` as `print` does it. -/
def joinArgs : List Text → Text
  | [] => []
  | [a] => a
  | a :: b :: l => a ++ ' ' :: joinArgs (b :: l)

/-- `print(*args)` with the default separator and end. -/
def printArgs (args : List Text) : Text := joinArgs args ++ ['\n']

/-- `make_logger` (postbound/util/logging.py:26-78) applied to arguments; `pp` is the format of `pprint`. `pprint.pprint(..., stream=file)` takes one positional argument; a second one would be another `stream`. -/
def makeLogger (pp : Text → Text) (enabled pretty : Bool) (pre : Pre) (args : List Text) : Effect :=
  if pretty && enabled then
    match args with
    | [a] => .written (pp a ++ ['\n'])
    | _ => .error
  else if enabled then
    match pre with
    | .text p => .written (printArgs (if p ≠ [] then p :: args else args))
    | .func f => .written (printArgs (f () :: args))
  else .nothing

/-- `_standard_prefix` (postbound/util/logging.py:87-102): the frames of the call stack with the parts of the names of their modules (`none`: no module). -/
def callee : List (Option (List Text)) → Text
  | [] => "<main>".toList
  | none :: fs => callee fs
  | some mod :: fs => match mod.reverse.find? (fun p => !(['_'].isPrefixOf p)) with
    | none => callee fs
    | some m => m

/-- `_standard_prefix` (postbound/util/logging.py:84-104). -/
def standardPrefix (ts : Text) (frames : List (Option (List Text))) : Text := ts ++ " (".toList ++ callee frames ++ ") -".toList

/-- `standard_logger` (postbound/util/logging.py:81-106), it writes to the error output. -/
def standardLogger (pp : Text → Text) (ts : Text) (frames : List (Option (List Text))) (enabled : Bool) (args : List Text) : Effect :=
  makeLogger pp enabled false (.func fun _ => standardPrefix ts frames) args

/-- Output devices. -/
inductive Dev
  | stdout
  | stderr
  | file (name : String)
deriving DecidableEq

/-- `print_stderr` (postbound/util/logging.py:109-112); `file` is the keyword argument. -/
def printStderr (_file : Option Dev) (args : List Text) : Dev × Text := (.stderr, printArgs args)

/-- `print_if` (postbound/util/logging.py:115-119). -/
def printIf (should useStderr : Bool) (file : Option Dev) (args : List Text) : Option (Dev × Text) :=
  if should then some (file.getD (if useStderr then .stderr else .stdout), printArgs args) else none

/-- `sys.stdout`: the console or a `_TeeLogger` (postbound/util/logging.py:122-130). -/
inductive Out
  | console
  | tee (original : Out) (file : String)
deriving DecidableEq

/-- The text on the console and in the files. -/
structure World where
  console : Text
  files : String → Text

/-- `tee_stdout` (postbound/util/logging.py:133-134) with `output_mode` "w" (`truncate`) or "a". -/
def teeStdout (o : Out) (w : World) (file : String) (truncate : Bool) : Out × World :=
  (.tee o file, if truncate then { w with files := fun f => if f = file then [] else w.files f } else w)

/-- `write` (postbound/util/logging.py:128-130). Simplification: buffers are flushed at once. -/
def write : Out → Text → World → World
  | .console, m, w => { w with console := w.console ++ m }
  | .tee o file, m, w =>
    let w := write o m w
    { w with files := fun f => if f = file then w.files f ++ m else w.files f }

/-- `print(..., flush=...)` on the output: `_TeeLogger` has no method `flush`; whether the call succeeds and the texts. -/
def printTo (o : Out) (args : List Text) (flush : Bool) (w : World) : Bool × World :=
  (match o with
    | .console => true
    | .tee _ _ => !flush, write o (printArgs args) w)

end PB.Logging
