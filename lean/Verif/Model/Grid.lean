import Mathlib.Data.List.Basic
import Mathlib.Tactic.Ring

/-!
Model of the placement of plots in a grid (`make_grid_plot`, postbound/vis/plots.py:15-44). The contents of the plots, the selection of the samples and the sizes of figures are not
modelled. Axes are positions (row, column).
-/

namespace PB.Grid

/-- The position of axes in the figure. -/
abbrev Cell := Nat × Nat

/-- `ax[row][col]` for the axes of `plt.subplots(ncols=nc, nrows=nr)` (postbound/vis/plots.py:27-29, 33, 42); `none` is an exception. Matplotlib returns a single object for a
single plot and a one-dimensional array for a single row or column, whose elements cannot be indexed. -/
def ax2 (nr nc row col : Nat) : Option Cell :=
  if nr ≤ 1 ∨ nc ≤ 1 then none else if row < nr ∧ col < nc then some (row, col) else none

/-- `ax[col]` (postbound/vis/plots.py:33), which is only used for a single row. A single object cannot be indexed. -/
def ax1 (nc col : Nat) : Option Cell := if nc ≤ 1 then none else if col < nc then some (0, col) else none

/-- `current_ax` (postbound/vis/plots.py:33). -/
def current (nr nc row col : Nat) : Option Cell := if nr > 1 then ax2 nr nc row col else ax1 nc col

/-- The loop over the labels (postbound/vis/plots.py:32-39): the plots and the row at the end. -/
def place {L : Type} (nr nc : Nat) : Nat → Nat → List L → Option (List (Cell × L) × Nat)
  | row, _, [] => some ([], row)
  | row, col, l :: ls =>
    (current nr nc row col).bind fun c =>
      let col' := (col + 1) % nc
      (place nr nc (if col' = 0 then row + 1 else row) col' ls).map fun r => ((c, l) :: r.1, r.2)

/-- `extra_rows` (postbound/vis/plots.py:41). -/
def extra (n nc : Nat) : List Nat := if n % nc ≠ 0 then List.range (nc - n % nc) else []

/-- `make_grid_plot` (postbound/vis/plots.py:15-44): the plots and the axes that are switched off. No labels mean no rows, which Matplotlib rejects; zero columns are a division by zero. -/
def gridPlot {L : Type} (labels : List L) (nc : Nat) : Option (List (Cell × L) × List Cell) :=
  if nc = 0 then none
  else
    let nr := (labels.length + nc - 1) / nc
    if nr = 0 then none
    else (place nr nc 0 0 labels).bind fun r =>
      ((extra labels.length nc).mapM fun e => ax2 nr nc r.2 (nc - e - 1)).map fun off => (r.1, off)

end PB.Grid
