import Verif.Model.Dict

/-! Model of the text of query plans: `QueryPlan.ast`, `QueryPlan.explain` and `QueryPlan.inspect` (postbound/_qep.py:1841-1862, 1882-1884, 1977-2093).
Texts are lists of characters. Numbers are given as the texts they are printed as. -/

namespace PB.PlanText
open PB

/-- Texts. -/
abbrev Text := List Char

/-- What is printed about one node (postbound/_qep.py:1985-2024, 2033-2043, 2057-2059): type, whether it is a scan, the text of its base table, the texts of
the rounded estimates, those of the measures (if some measure is known), the cache counters, the parameters, and the text of each attribute by path. A missing attribute is an
`AttributeError`. -/
structure Info where
  nodeType : Text
  scan : Bool
  table : Text
  estCard : Text
  estCost : Text
  actual : Option (Text × Text)
  hits : Option Text
  misses : Option Text
  workers : Option Text
  lookup : Option Text
  index : Text
  sortKeys : List Text
  attr : List Text → Option Text

/-- Plan nodes with children and an optional subplan (postbound/_qep.py:1013-1031). -/
inductive Plan
  | node (info : Info) (kids : List Plan) (sub : Option Plan)

/-- `sep.join(parts)`. -/
def join (sep : Text) : List Text → Text
  | [] => []
  | [t] => t
  | t :: ts => t ++ (sep ++ join sep ts)

/-- Text before the first occurrence of a character, and the texts after each occurrence (`str.split`, used at postbound/_qep.py:2035). -/
def split (c : Char) : Text → List Text
  | [] => [[]]
  | x :: xs => if x = c then [] :: split c xs else match split c xs with
    | [] => [[x]]
    | t :: ts => (x :: t) :: ts

/-- `header` and `item_str` without the prefix (postbound/_qep.py:2057-2059, 2086-2089). -/
def header (i : Info) : Text := if i.scan then i.nodeType ++ ('(' :: i.table ++ [')']) else i.nodeType

/-- The last line of `_default_explain` (postbound/_qep.py:2018-2024). -/
def pathProps (i : Info) : List Text :=
  (if i.index = [] then [] else ["Index=".toList ++ i.index]) ++
  (if i.sortKeys = [] then [] else ["Sort Keys=".toList ++ join ", ".toList i.sortKeys])

/-- `_default_explain` (postbound/_qep.py:1980-2027): the components. -/
def defaultExplain (i : Info) (padding : Text) : List Text :=
  let pre := padding ++ (if padding = [] then "  ".toList else "      ".toList)
  [pre ++ ("Estimated Cardinality=".toList ++ (i.estCard ++ (", Estimated Cost=".toList ++ i.estCost)))] ++
  (match i.actual with
    | some (c, t) => [pre ++ ("Actual Cardinality=".toList ++ (c ++ (", Actual Time=".toList ++ (t ++ ['s']))))]
    | none => []) ++
  (if i.hits.isSome ∨ i.misses.isSome then
    [pre ++ ("Cache Hits=".toList ++ (i.hits.getD "nan".toList ++ (", Cache Misses=".toList ++ i.misses.getD "nan".toList)))] else []) ++
  (match i.workers with
    | some w => [pre ++ ("Parallel Workers=".toList ++ w)]
    | none => []) ++
  (match i.lookup with
    | some k => [pre ++ ("Lookup Key=".toList ++ k)]
    | none => []) ++
  (if pathProps i = [] then [] else [pre ++ join ", ".toList (pathProps i)])

/-- The value of one requested field (postbound/_qep.py:2034-2043): names with a dot are paths of exactly two names. -/
def fieldValue (i : Info) (f : Text) : Option Text :=
  if '.' ∈ f then match split '.' f with
    | [c, a] => i.attr [c, a]
    | _ => none
  else i.attr [f]

/-- The loop over the requested fields (postbound/_qep.py:2032-2043). -/
def fieldValues (i : Info) : List Text → Dict Text Text → Option (Dict Text Text)
  | [], d => some d
  | f :: fs, d => match fieldValue i f with
    | some v => fieldValues i fs (d.set f v)
    | none => none

/-- `_custom_explain` (postbound/_qep.py:2030-2047). -/
def customExplain (i : Info) (fields : List Text) (padding : Text) : Option Text :=
  (fieldValues i fields []).map fun d =>
    padding ++ ("   [".toList ++ (join " ".toList (d.map fun kv => kv.1 ++ ('=' :: kv.2)) ++ [']']))

/-- `explain_data` (postbound/_qep.py:2060-2064). -/
def explainData (i : Info) (fields : List Text) (padding : Text) : Option Text :=
  if fields = [] then some (join ['\n'] (defaultExplain i padding)) else customExplain i fields padding

/-- The padding of a level (postbound/_qep.py:2054). -/
def padding : Nat → Text
  | 0 => []
  | l + 1 => List.replicate (2 + 6 * l) ' '

/-- `prefix` (postbound/_qep.py:2055, 2085). -/
def arrow (pad : Text) : Text := if pad = [] then [] else pad ++ "->  ".toList

mutual
/-- `_astify` (postbound/_qep.py:2082-2093). -/
def astify (indentation : Nat) : Plan → Text
  | .node i ks _ =>
    let item := arrow (List.replicate indentation ' ') ++ header i
    let child := join ['\n'] (astifyAll (indentation + 2) ks)
    if child = [] then item else item ++ ('\n' :: child)

/-- The texts of the children (postbound/_qep.py:2090-2092). -/
def astifyAll (indentation : Nat) : List Plan → List Text
  | [] => []
  | k :: ks => astify indentation k :: astifyAll indentation ks
end

mutual
/-- `_explainify` (postbound/_qep.py:2050-2079). -/
def explainify (fields : List Text) (level : Nat) : Plan → Option Text
  | .node i ks s =>
    match explainData i fields (padding level), explainAll fields (level + 1) ks, explainSub fields (level + 1) s with
    | some data, some children, some sub =>
      let child := join ['\n'] children
      let child := if sub = [] then child else child ++ ('\n' :: sub)
      let head := arrow (padding level) ++ (header i ++ ('\n' :: data))
      some (if child = [] then head else head ++ ('\n' :: child))
    | _, _, _ => none

/-- The texts of the children (postbound/_qep.py:2065-2068). -/
def explainAll (fields : List Text) (level : Nat) : List Plan → Option (List Text)
  | [] => some []
  | k :: ks => match explainify fields level k, explainAll fields level ks with
    | some t, some ts => some (t :: ts)
    | _, _ => none

/-- The text of the subplan (postbound/_qep.py:2069-2073). -/
def explainSub (fields : List Text) (level : Nat) : Option Plan → Option Text
  | none => some []
  | some p => explainify fields level p
end

/-- `ast` (postbound/_qep.py:1882-1884). -/
def ast (p : Plan) : Text := astify 0 p

/-- `inspect` (postbound/_qep.py:1841-1853); without fields, this is `explain` (postbound/_qep.py:1855-1862). -/
def inspect (fields : List Text) (p : Plan) : Option Text := explainify fields 0 p

end PB.PlanText
