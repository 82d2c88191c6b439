import Mathlib.Data.Nat.Sqrt
import Mathlib.Algebra.Field.Defs

/-!
# Condensed similarity arrays (`nephosem/models/cbc.py`)

`scipy.spatial.distance.squareform` stores the upper triangle of a symmetric `n × n` matrix row by row in a
flat array of length `n(n-1)/2`.  This file models the two functions of CBC that index such an array.

Numbers: similarities are elements of a field `K` (the code uses floats); indices are natural numbers and the
computed position is an integer, since Python would accept a negative one.
-/

namespace Verif.Cbc

/-- The exceptions of this part of the code. -/
inductive Err where
  /-- `AssertionError` -/
  | assertion
  /-- `IndexError` -/
  | index
  /-- `ZeroDivisionError` -/
  | zeroDivision
  /-- `ValueError` -/
  | value
  /-- `KeyError` -/
  | key
  /-- `NotImplementedError` -/
  | notImplemented
deriving DecidableEq, Repr

/-- `square_to_condensed(i, j, n)`, cbc.py 1142-1147.  `j*(j+1)/2` is a float division in the code; `j*(j+1)`
is even, so it is exact (for `j*(j+1) < 2^53`) and the final `int(...)` changes nothing. -/
def squareToCondensed (i j n : Nat) : Except Err Int :=
  if i = j then .error .assertion
  else
    let (i, j) := if i < j then (j, i) else (i, j)
    .ok ((n : Int) * j - (j : Int) * (j + 1) / 2 + i - 1 - j)

/-- `a[k]` on a NumPy array: negative positions count from the end. -/
def getPy {K : Type} (a : List K) (k : Int) : Except Err K :=
  let k' := if k < 0 then k + a.length else k
  if k' < 0 then .error .index
  else match a[k'.toNat]? with
    | some x => .ok x
    | none => .error .index

variable {K : Type} [Field K]

/-- The body of the inner loop of `average_similarity`, cbc.py 1135-1138: adds the similarity of two ids. -/
def addSim (simmx : List K) (n : Nat) (acc : K) (p : Nat × Nat) : Except Err K := do
  let k ← squareToCondensed p.1 p.2 n
  let x ← getPy simmx k
  return acc + x

/-- The pairs `(idx[i], idx[j])`, `i < j`, in the order of the two nested loops, cbc.py 1135-1137. -/
def pairs {α : Type} : List α → List (α × α)
  | [] => []
  | a :: l => l.map (fun b => (a, b)) ++ pairs l

/-- `average_similarity(idx, simmx)`, cbc.py 1121-1139.  `int(math.sqrt(len(simmx) * 2)) + 1` is modelled by
the integer square root (equal while `2·len(simmx) < 2^52`). The division fails for fewer than two ids: the
sum is then the Python float `0.0`. -/
def averageSimilarity (idx : List Nat) (simmx : List K) : Except Err K := do
  let n := Nat.sqrt (simmx.length * 2) + 1
  let size := idx.length
  let csize := size * (size - 1) / 2
  let sum ← (pairs idx).foldlM (addSim simmx n) 0
  if csize = 0 then .error .zeroDivision else return sum / (csize : K)

end Verif.Cbc
