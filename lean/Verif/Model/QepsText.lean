/-!
# The texts of QEP synopses

Models `QEPsNode.inspect` with its helpers and `QEPSynopsis.inspect` (postbound/opt/tonic.py 736-776, 825-856, 872-873, 999-1010).

Simplifications: a text is the list of its lines, and a line is its indentation together with what it says; the texts of identifiers
and of costs are given, and have no line breaks.
-/
namespace PB.QepsText

mutual
/-- A node: its costs, its children and its subquery (tonic.py 354-386). -/
inductive Node where
  | mk (costs : List (String × String)) (kids : Kids) (sub : Sub)
/-- `child_nodes`, in their order. -/
inductive Kids where
  | nil
  | cons (id : String) (n : Node) (rest : Kids)
/-- `_subquery_root`, which may be `None`. -/
inductive Sub where
  | none
  | some (n : Node)
end

/-- What a line says (tonic.py 755, 759, 766, 770-773, 841-843, 856). -/
inductive Body where
  | root
  | blank
  | costs (l : List (String × String))
  | subquery
  | children
  | noChildren
  | node (id : String)
  | sep
  deriving DecidableEq, Repr

/-- A line. -/
structure Line where
  indent : Nat
  body : Body
  deriving DecidableEq, Repr

/-- `__bool__` (tonic.py 872-873). -/
def Node.truthy : Node → Bool
  | .mk costs kids _ => (match kids with | .nil => false | .cons .. => true) || !costs.isEmpty

mutual
/-- `inspect` below the root (tonic.py 757-776): the costs, the subquery if it is true, and the children. -/
def Node.lines (d : Nat) : Node → List Line
  | .mk costs kids sub => ⟨d, .costs costs⟩ :: (sub.lines d ++ kids.lines true d)
/-- `subquery_str` (tonic.py 760-767). -/
def Sub.lines (d : Nat) : Sub → List Line
  | .none => []
  | .some n => if n.truthy then ⟨d, .subquery⟩ :: n.lines (d + 2) else []
/-- `child_str` and `_child_inspect` (tonic.py 768-773, 825-843): the first child comes after a heading, the others after a line. -/
def Kids.lines (first : Bool) (d : Nat) : Kids → List Line
  | .nil => if first then [⟨d, .noChildren⟩] else []
  | .cons id n rest =>
    (if first then ⟨d, .children⟩ else ⟨d, .sep⟩) :: ⟨d, .node id⟩ :: (n.lines (d + 2) ++ rest.lines false d)
end

/-- `inspect` of the root (tonic.py 754-755, 999-1010): only the children are shown. -/
def inspect : Node → List Line
  | .mk _ kids _ =>
    ⟨0, .root⟩ :: match kids with
      | .nil => [⟨0, .blank⟩]
      | .cons id n rest => ⟨2, .node id⟩ :: (n.lines 4 ++ rest.lines false 2)

end PB.QepsText
