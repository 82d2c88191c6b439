import Verif.Matrix.Access
import Mathlib.Data.Real.Basic

/-!
# Model of the centroid of rows: `SparseMatrix.controid`

`/repo/nephosem/core/matrix.py:307-322`, `/repo/nephosem/specutils/mxutils.py:315-333`.  Floats are real numbers; the mean of no
rows at all is NaN in NumPy (with a warning), here `none`.
-/

namespace Verif.Assoc
open Verif.Py Verif.Matrix

noncomputable section

/-- The rows of `mtx[cluster, :]`: `/repo/nephosem/specutils/mxutils.py:327-331`.  The ids are a list of Python integers; `np.array([])`
is an array of floats, which is no subscript (`IndexError`).  Arrays, sets and lists of truth values are not modelled. -/
def clusterRows (n : Nat) (cluster : Option (List Int)) : Except Matrix.Err (List Nat) :=
  match cluster with
  | none => .ok (List.range n)
  | some l => if l = [] then .error .indexError else l.mapM (axisAt n)

/-- `np.mean(mtx, axis=0)` at column `j`: `/repo/nephosem/specutils/mxutils.py:332`. -/
def colMean (s : Sp ℝ) (rows : List Nat) (j : Nat) : Option ℝ :=
  if rows = [] then none else some ((rows.map (fun i => s.val i j)).sum / rows.length)

/-- `SparseMatrix(matrix).controid(cluster)`: `/repo/nephosem/core/matrix.py:320-322`. -/
def controid (s : Sp ℝ) (cluster : Option (List Int)) : Except Matrix.Err (List (Option ℝ)) := do
  let rows ← clusterRows s.nr cluster
  .ok ((List.range s.nc).map (colMean s rows))

end

end Verif.Assoc
