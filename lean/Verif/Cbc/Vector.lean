import Verif.Cbc.Step1
import Verif.Assoc.Measures

/-!
# Committee vectors (`nephosem/models/cbc.py` 704-738, 1150-1180; `specutils/mxutils.py` 315-343)

Floats are real numbers.  The frequency matrix has `m` rows, `n` columns and the entries `f i j`.  `np.sum`,
`np.mean` and array indexing stand for sums over rows.  A total of 0 gives a vector of NaN in NumPy; here it is
`.zeroDivision`, so that no theorem speaks about such a vector.
-/

namespace Verif.Cbc

noncomputable section
open Classical

/-- `np.sum(freqmx[rows, :], axis=0)[j]`, mxutils.py 337-343. -/
def sumRows (f : Nat → Nat → ℝ) (rows : List Nat) (j : Nat) : ℝ := (rows.map (fun i => f i j)).sum

/-- `centroid_of_cluster(freqmx, cluster)[j]`, mxutils.py 315-334. -/
def centroid (f : Nat → Nat → ℝ) (rows : List Nat) (j : Nat) : ℝ := sumRows f rows j / (rows.length : ℝ)

/-- `vec.sum()`. -/
def vecSum (n : Nat) (v : Nat → ℝ) : ℝ := ((List.range n).map v).sum

/-- One entry of `calc_meas_vec(target_vec, rest_vec)`, cbc.py 1169-1178. -/
def measAt (n : Nat) (target rest : Nat → ℝ) (i : Nat) : Except Assoc.Err ℝ := do
  let targetSum := vecSum n target
  let totSum := targetSum + vecSum n rest
  let rowSum ← Assoc.pyDiv targetSum totSum
  let colSum ← Assoc.pyDiv (target i + rest i) totSum
  let normTarget ← Assoc.pyDiv (target i) totSum
  let x ← (if normTarget = 0 then .ok 0 else Assoc.pyDiv normTarget (rowSum * colSum))
  let pmi ← Assoc.pyLog (if x ≠ 0 then x else 1)
  .ok (if pmi < 0 then 0 else pmi)

/-- `calc_meas_vec(target_vec, rest_vec)` with the default measure, cbc.py 1150-1180. -/
def calcMeasVec (n : Nat) (target rest : Nat → ℝ) : Except Assoc.Err (List ℝ) :=
  (List.range n).mapM (measAt n target rest)

/-- One row of `calc_committee_vectors`, cbc.py 723-736. An id outside the matrix is an `IndexError`, and so is
an empty committee (`np.array([])` is no integer index). -/
def committeeVector (m n : Nat) (f : Nat → Nat → ℝ) (clust : List Nat) : Except Assoc.Err (List ℝ) :=
  if clust = [] ∨ ¬ ∀ i ∈ clust, i < m then .error (.py .indexError)
  else calcMeasVec n (centroid f clust) (fun j => sumRows f (List.range m) j - sumRows f clust j)

end

end Verif.Cbc
