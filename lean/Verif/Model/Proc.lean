import Mathlib.Data.List.Basic
import Verif.Model.Dict

/-!
Model of the external commands (postbound/util/proc.py), the files a process has opened (postbound/util/system.py), the distances between elements of a layout (postbound/vis/fdl.py) and
the pictures of graphs (postbound/vis/graphs.py). The operating system, NetworkX' layout algorithms, Graphviz and the colours of Matplotlib are parameters.
-/

namespace PB.Proc

/-- The program of `run_cmd` (postbound/util/proc.py:63-68): a single invocation or several parts. Parts are represented by their texts (`str(arg)`, postbound/util/proc.py:100-101). -/
inductive Cmd
  | str (s : String)
  | list (parts : List String)
  | tuple (parts : List String)

/-- `invocation` (postbound/util/proc.py:99-101); `none` is an exception. `cmd[0]` fails for empty commands, and tuples cannot be concatenated with `list(args)`. -/
def invocation : Cmd → List String → Option (List String)
  | .str s, args => some (s :: args)
  | .list [], _ => none
  | .list (c :: ps), args => some (c :: (ps ++ args))
  | .tuple _, _ => none

/-- `ProcResult` (postbound/util/proc.py:12-37). -/
structure Result where
  out : String
  err : String
  code : Int

/-- `ProcResult.__bool__` (postbound/util/proc.py:53-54). -/
def Result.truthy (r : Result) : Bool := decide (r.code = 0)

/-- `ProcResult.raise_if_error` (postbound/util/proc.py:46-51): the message of the error, if there is one. -/
def Result.error (r : Result) : Option String := if r.code ≠ 0 then some ("Process exited with code " ++ toString r.code ++ ": '" ++ r.err ++ "'") else none

/-- `==` of results: the class inherits from `str` (postbound/util/proc.py:12, 36-37). -/
def Result.eq (r s : Result) : Bool := decide (r.out = s.out)

/-- The operating system: `chdir cwd d` is the working directory after `os.chdir(d)`, and `exec cwd argv` the result of the process; `none` is an exception. -/
structure OS where
  chdir : String → String → Option String
  exec : String → List String → Option Result

/-- `run_cmd` (postbound/util/proc.py:63-107): the result (`none` is an exception) and the working directory afterwards. Keyword arguments of `subprocess.run` are not modelled. -/
def runCmd (os : OS) (cwd : String) (cmd : Cmd) (args : List String) (workDir : Option String) : Option Result × String :=
  let wd := workDir.getD cwd
  match invocation cmd args with
  | none => (none, cwd)
  | some argv =>
    match os.chdir cwd wd with
    | none => (none, cwd)
    | some w =>
      match os.exec w argv with
      | none => (none, w)
      | some r =>
        match os.chdir w cwd with
        | none => (none, w)
        | some c => (some r, c)

/-- `grep 'c'` for a regular expression of any character followed by a text without special characters. -/
def anyThen (e : List Char) : List Char → Bool
  | [] => false
  | _ :: l => e.isPrefixOf l || anyThen e l

/-- The pipeline of `open_files` (postbound/util/system.py:43-48) after `lsof`, on the lines of its output; `e` is the extension without its dot, which matches any character. -/
def openFiles (e : List Char) (lines : List (List Char)) : List (List Char) :=
  (((lines.filter fun l => l.head? = some 'n').map fun l => l.drop 1).map fun l => l.takeWhile (· ≠ ' ')).filter (anyThen e)

variable {T D : Type} [DecidableEq T]

/-- The inner loop of `kamada_kawai_layout` (postbound/vis/fdl.py:41-44). The nested dictionaries are represented by a dictionary of pairs. -/
def distRow (score : T → T → D) (a : T) (d : Dict (T × T) D) (bs : List T) : Dict (T × T) D :=
  bs.foldl (fun d b => Dict.set (Dict.set d (a, b) (score a b)) (b, a) (score a b)) d

/-- `distance_map` (postbound/vis/fdl.py:39-44). -/
def distMap (score : T → T → D) : Dict (T × T) D → List T → Dict (T × T) D
  | d, [] => d
  | d, a :: as => distMap score (distRow score a d (a :: as)) as

/-- The parts of a picture of a graph. -/
inductive Item (C : Type)
  | box (id label : String) (color : Option C)
  | line (source target : String)

/-- `color_mapping` (postbound/vis/graphs.py:29-41): `labels` are the different labels in the order of the set, `palette k i` is the colour number `i` of `k`. -/
def colorMap {L C : Type} [DecidableEq L] (palette : Nat → Nat → C) (labels : List L) : Dict L C :=
  Dict.ofList (labels.zipIdx.map fun e => (e.1, palette labels.length e.2))

/-- `plot_graph` (postbound/vis/graphs.py:21-48): whether the picture is directed and its parts. `isDi` tells whether the graph is directed; `color` is the label of each node, if colours are requested, and `order` the order of
the set of labels. Nodes without the label raise an error, which is not modelled. -/
def plotGraph {N L C : Type} [DecidableEq L] (str : N → String) (escape : String → String) (palette : Nat → Nat → C) (isDi : Bool) (directed : Option Bool) (color : Option (N → L)) (order : List L)
    (nodes : List N) (edges : List (N × N)) : Bool × List (Item C) :=
  let cm : N → Option C := match color with
    | none => fun _ => none
    | some f => fun n => Dict.get? (colorMap palette order) (f n)
  (directed.getD isDi, nodes.map (fun n => .box (str n) (escape (str n)) (cm n)) ++ edges.map fun e => .line (str e.1) (str e.2))

end PB.Proc
