import Verif.Matrix.Model

/-!
# `drop_zero_rows` and `drop_zero_cols`: `/repo/nephosem/core/matrix.py:351-369, 1182-1184`
-/

namespace Verif.Matrix
open Verif.Py

variable {κ ν : Type} [LinearOrder κ]

/-- `np.unique(ids)`: the different numbers in ascending order (a contract of NumPy). -/
def uniqueIds (ids : List Nat) : List Nat := sortedBy id ids.dedup

/-- `SparseMatrix.drop_zero_rows`: `/repo/nephosem/core/matrix.py:351-359`.  A matrix that is not in coordinate format has no method
`to_coo` (line 354; the method of SciPy is called `tocoo`).  `return_inverse` gives for each stored entry the place of its row. -/
def dropZeroRows (s : Sp ν) : Except Err (Sp ν) :=
  if s.fmt = .coo then
    let nz := uniqueIds (s.data.map (fun e => e.1.1))
    .ok ⟨.csr, nz.length, s.nc, s.data.map (fun e => ((nz.idxOf e.1.1, e.1.2), e.2))⟩
  else .error .attributeError

/-- `SparseMatrix.drop_zero_cols`: `/repo/nephosem/core/matrix.py:361-369`. -/
def dropZeroCols (s : Sp ν) : Except Err (Sp ν) :=
  if s.fmt = .coo then
    let nz := uniqueIds (s.data.map (fun e => e.1.2))
    .ok ⟨.csr, s.nr, nz.length, s.data.map (fun e => ((e.1.1, nz.idxOf e.1.2), e.2))⟩
  else .error .attributeError

/-- `TypeTokenMatrix.drop_zero_rows`: `/repo/nephosem/core/matrix.py:1182-1184`: nothing but `pass`, so `None`. -/
def Mtx.dropZeroRows (_ : Mtx κ ν) : Option (Mtx κ ν) := none

end Verif.Matrix
