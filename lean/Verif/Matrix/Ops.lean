import Verif.Matrix.Model

/-!
# Model of the operators of a matrix: comparison with a number, `multiply`
-/

namespace Verif.Matrix
open Verif.Py

variable {κ ν : Type} [LinearOrder κ]

instance : AllClose Bool where
  close a b := a == b
  refl a := by simp

/-- `array op number`: `/repo/nephosem/core/matrix.py:469-479`. -/
def Dn.cmp [LinearOrder ν] (d : Dn ν) (op : Op) (k : ν) : Dn Bool :=
  { nr := d.nr, nc := d.nc, elem := fun i j => op.holds (d.elem i j) k }

/-- `m < k`, `m <= k`, `m > k`, `m >= k`: `/repo/nephosem/core/matrix.py:809-831, 209-258, 469-479, 569-579`.  `none`
stands for a right side that is neither an `int` nor a `float` (a NumPy number, for example). -/
def compare [Zero ν] [LinearOrder ν] [AllClose ν] (m : Mtx κ ν) (op : Op) (k : Option ν) : Except Err (Mtx κ Bool) :=
  match k with
  | none => .error .valueError
  | some k => match m.body with
    | .sp s => do
      let b ← s.cmp op k
      mkMtx (.sp b) m.rows m.cols
    | .dn d => if d.symmetric then .error .notImplemented else mkMtx (.dn (d.cmp op k)) m.rows m.cols

/-- The common length of two axes under NumPy's broadcasting. -/
def castDim (a b : Nat) : Except Err Nat :=
  if a = b then .ok a else if a = 1 then .ok b else if b = 1 then .ok a else .error .valueError

/-- The element of an array stretched by broadcasting. -/
def Dn.cast (d : Dn ν) (i j : Nat) : ν := d.elem (if d.nr = 1 then 0 else i) (if d.nc = 1 then 0 else j)

/-- `array * array`. -/
def Dn.mul [Mul ν] (d e : Dn ν) : Except Err (Dn ν) := do
  let nr ← castDim d.nr e.nr
  let nc ← castDim d.nc e.nc
  .ok { nr := nr, nc := nc, elem := fun i j => d.cast i j * e.cast i j }

/-- `array * sparse`: SciPy takes over and computes the matrix product, as an array. -/
def Dn.mulSp [Mul ν] [AddCommMonoid ν] (d : Dn ν) (t : Sp ν) : Except Err (Dn ν) :=
  if d.nc = t.nr then
    .ok { nr := d.nr, nc := t.nc, elem := fun i j => ((List.range d.nc).map (fun k => d.elem i k * t.val k j)).sum }
  else .error .valueError

/-- `sparse.multiply(array)` of SciPy: the stored entries times the elements there, as a coo matrix; broadcasting is not
modelled. -/
def Sp.mulDn [Mul ν] (s : Sp ν) (d : Dn ν) : Except Err (Sp ν) :=
  if s.nr = d.nr ∧ s.nc = d.nc then
    .ok { s with fmt := .coo, data := s.data.map (fun e => (e.1, e.2 * d.elem e.1.1 e.1.2)) }
  else .error .unmodelled

/-- `_mxbehavior.multiply(other.matrix)`: `/repo/nephosem/core/matrix.py:181-207, 466-467, 566-567`.  A sparse matrix that
stores a zero asks the other matrix for `tocoo`, which an array does not have. -/
def bodyMul [Mul ν] [AddCommMonoid ν] [DecidableEq ν] [AllClose ν] (a b : Body ν) : Except Err (Body ν) :=
  match a, b with
  | .sp s, .sp t => (s.multiply t).map .sp
  | .sp s, .dn d => if s.data.values.any (fun v => v = 0) then .error .attributeError else (s.mulDn d).map .sp
  | .dn d, .sp t => if d.symmetric then .error .notImplemented else (d.mulSp t).map .dn
  | .dn d, .dn e => if d.symmetric then .error .notImplemented else (d.mul e).map .dn

/-- `m.multiply(t)`: `/repo/nephosem/core/matrix.py:804-807`. -/
def multiply [Mul ν] [AddCommMonoid ν] [DecidableEq ν] [AllClose ν] (m t : Mtx κ ν) : Except Err (Mtx κ ν) := do
  let b ← bodyMul m.body t.body
  mkMtx b m.rows m.cols

end Verif.Matrix
