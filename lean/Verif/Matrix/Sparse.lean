import Verif.Py.Dict
import Mathlib.Algebra.Group.Basic
import Mathlib.Data.Rat.Defs
import Mathlib.Algebra.Order.Ring.Rat
import Mathlib.Algebra.Order.Ring.Int
import Mathlib.Algebra.Order.Field.Basic
import Mathlib.Tactic.Linarith

/-!
# SciPy and NumPy matrices, as far as nephosem uses them

These definitions are contracts of library operations, not models of nephosem code; they are part of the trusted
base.  A sparse matrix is its shape with its *stored* entries (a stored entry may be zero: "explicit zero").
Which of the storage formats it has matters, because the source reads `indices` and `indptr` without looking at
the format, and because a `coo_matrix` cannot be subscripted.
-/

namespace Verif.Matrix
open Verif.Py

/-- Python exceptions. `unmodelled` marks calls whose outcome is left out of the model. -/
inductive Err where
  | valueError | keyError | typeError | notImplemented | assertionError | attributeError | indexError
  | fileNotFound | unmodelled
  deriving DecidableEq, Repr

/-- `d[k]` on a dict: `KeyError` if absent. -/
def getKey {κ β : Type} [DecidableEq κ] (d : Dict κ β) (k : κ) : Except Err β :=
  match d.get? k with
  | some v => .ok v
  | none => .error .keyError

/-- `l[i]` on a list with a non-negative index: `IndexError` if out of range. -/
def getIdx {β : Type} (l : List β) (i : Nat) : Except Err β :=
  match l[i]? with
  | some v => .ok v
  | none => .error .indexError

/-- `scipy.sparse` storage formats that occur. -/
inductive Fmt where
  | csr | csc | coo
  deriving DecidableEq, Repr

/-- A SciPy sparse matrix: format, shape, stored entries (at most one per position, as after
`sum_duplicates`). -/
structure Sp (ν : Type) where
  fmt : Fmt
  nr : Nat
  nc : Nat
  data : Dict (Nat × Nat) ν
  deriving DecidableEq, Repr

variable {ν : Type}

/-- Representation invariant: one entry per position, positions inside the shape. -/
structure Sp.WF (s : Sp ν) : Prop where
  nodup : Dict.WF s.data
  bound : ∀ p ∈ Dict.keys s.data, p.1 < s.nr ∧ p.2 < s.nc

/-- The stored entry at a position. -/
def Sp.stored (s : Sp ν) (i j : Nat) : Option ν := s.data.get? (i, j)

/-- The value at a position: stored or zero. -/
def Sp.val [Zero ν] (s : Sp ν) (i j : Nat) : ν := (s.stored i j).getD 0

/-- `s.transpose()`: csr and csc change places. -/
def Sp.transpose (s : Sp ν) : Sp ν :=
  { fmt := match s.fmt with | .csr => .csc | .csc => .csr | .coo => .coo
    nr := s.nc, nc := s.nr
    data := s.data.map (fun p => ((p.1.2, p.1.1), p.2)) }

/-- `s[idx, :]` with an index array: row `a` of the result is row `idx[a]`; stored zeros stay stored. -/
def Sp.rowsAt (s : Sp ν) (idx : List Nat) : Sp ν :=
  { s with
    nr := idx.length
    data := idx.zipIdx.flatMap (fun ia =>
      s.data.filterMap (fun p => if p.1.1 = ia.1 then some ((ia.2, p.1.2), p.2) else none)) }

/-- `s[:, idx]` with an index array. -/
def Sp.colsAt (s : Sp ν) (idx : List Nat) : Sp ν :=
  { s with nc := idx.length, data := ((s.transpose).rowsAt idx).transpose.data }

/-- `s + t`: sums at all positions stored in either; SciPy stores only the non-zero results.  The result has the
format of the left operand (`coo` is converted to `csr`).  Shapes must agree. -/
def Sp.add [Add ν] [Zero ν] [DecidableEq ν] (s t : Sp ν) : Except Err (Sp ν) :=
  if s.nr = t.nr ∧ s.nc = t.nc then
    let ps := s.data.keys ++ (t.data.keys.filter (fun p => p ∉ s.data.keys))
    .ok { fmt := if s.fmt = .coo then .csr else s.fmt
          nr := s.nr, nc := s.nc
          data := (ps.map (fun p => (p, s.val p.1 p.2 + t.val p.1 p.2))).filter (fun e => e.2 ≠ 0) }
  else .error .valueError

/-- `s.multiply(t)` for two sparse matrices: elementwise product, only non-zero results stored.  Shapes must
agree (broadcasting is not modelled). -/
def Sp.elmul [Mul ν] [Zero ν] [DecidableEq ν] (s t : Sp ν) : Except Err (Sp ν) :=
  if s.nr = t.nr ∧ s.nc = t.nc then
    .ok { fmt := if s.fmt = .coo then .csr else s.fmt
          nr := s.nr, nc := s.nc
          data := (s.data.map (fun e => (e.1, e.2 * t.val e.1.1 e.1.2))).filter (fun e => e.2 ≠ 0) }
  else .error .valueError

/-- One step of `cooSum`. -/
def cooAdd (add : ν → ν → ν) (d : Dict (Nat × Nat) ν) (e : (Nat × Nat) × ν) : Dict (Nat × Nat) ν :=
  match d.get? e.1 with
  | none => d.set e.1 e.2
  | some v => d.set e.1 (add v e.2)

/-- Accumulate a list of (position, value): `csr_matrix((data, (row, col)))` adds up entries at the same position
(`add` is the addition of the dtype) and keeps zeros. -/
def cooSum (add : ν → ν → ν) (es : List ((Nat × Nat) × ν)) : Dict (Nat × Nat) ν :=
  es.foldl (cooAdd add) []

/-- `sp.vstack([s, t])`: csr if both are csr, else coo. -/
def Sp.vstack (s t : Sp ν) : Except Err (Sp ν) :=
  if s.nc = t.nc then
    .ok { fmt := if s.fmt = .csr ∧ t.fmt = .csr then .csr else .coo
          nr := s.nr + t.nr, nc := s.nc
          data := s.data ++ t.data.map (fun p => ((p.1.1 + s.nr, p.1.2), p.2)) }
  else .error .valueError

/-- `sp.hstack([s, t])`: csc if both are csc, else coo (two csr matrices give a coo matrix). -/
def Sp.hstack (s t : Sp ν) : Except Err (Sp ν) :=
  if s.nr = t.nr then
    .ok { fmt := if s.fmt = .csc ∧ t.fmt = .csc then .csc else .coo
          nr := s.nr, nc := s.nc + t.nc
          data := s.data ++ t.data.map (fun p => ((p.1.1, p.1.2 + s.nc), p.2)) }
  else .error .valueError

/-- A NumPy two-dimensional array: shape and elements (read only inside the shape). -/
structure Dn (ν : Type) where
  nr : Nat
  nc : Nat
  elem : Nat → Nat → ν

/-- The array stored in a `TypeTokenMatrix`. -/
inductive Body (ν : Type) where
  | sp (s : Sp ν)
  | dn (d : Dn ν)

/-- `matrix.shape`. -/
def Body.nr : Body ν → Nat
  | .sp s => s.nr
  | .dn d => d.nr

def Body.nc : Body ν → Nat
  | .sp s => s.nc
  | .dn d => d.nc

/-- The value at a position inside the shape. -/
def Body.val [Zero ν] : Body ν → Nat → Nat → ν
  | .sp s, i, j => s.val i j
  | .dn d, i, j => d.elem i j

/-- `np.isclose(a, b, atol=1e-8)` (relative tolerance `1e-5`) on the value types used. -/
class AllClose (ν : Type) where
  close : ν → ν → Bool
  refl : ∀ a, close a a = true

instance : AllClose Int where
  close a b := decide (100000000 * |a - b| ≤ 1 + 1000 * |b|)
  refl a := by simp only [sub_self, abs_zero, mul_zero, decide_eq_true_eq]; have := abs_nonneg a; linarith

instance : AllClose ℚ where
  close a b := decide (|a - b| ≤ 1 / 100000000 + 1 / 100000 * |b|)
  refl a := by simp only [sub_self, abs_zero, decide_eq_true_eq]; have := abs_nonneg a; linarith

/-- `check_symmetric`: `/repo/nephosem/core/matrix.py:66-69`. -/
def Dn.symmetric [AllClose ν] (d : Dn ν) : Bool :=
  decide (d.nr = d.nc) &&
    (List.range d.nr).all (fun i => (List.range d.nc).all (fun j => AllClose.close (d.elem i j) (d.elem j i)))

end Verif.Matrix
