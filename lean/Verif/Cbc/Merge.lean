import Mathlib.Data.List.Basic
import Mathlib.Order.Defs.LinearOrder

/-!
# Merging committees (`nephosem/models/cbc.py`, `get_merged_committee`)

The similarity matrix is a function `sim : Nat → Nat → K` read at indices below `n`.  `np.argsort(simmx)`
sorts every row; NumPy's default sort is not stable, so its result is a parameter `order : Nat → List Nat`
(row number ↦ indices by increasing similarity).  Its contract is the predicate `IsArgsort` in
`Cbc/PropsMerge.lean`; the model does not depend on it.
-/

namespace Verif.Cbc

variable {K : Type} [LinearOrder K]

/-- The positions visited by `for j in range(-2, -(sortidx.shape[0]), -1)`, cbc.py 575: the sorted row from
its last but one entry down to its second entry.  Position `-1` (last) and position `-n` (first) are not
visited. -/
def candidates (sortidx : List Nat) : List Nat := (sortidx.reverse.drop 1).dropLast

/-- The search loop, cbc.py 574-581: the first visited index after `i` that is not merged yet; `none` for the
code's `idx = -1`. -/
def findFree (sortidx : List Nat) (i : Nat) (merged : List Nat) : Option Nat :=
  (candidates sortidx).find? (fun t => decide (i < t) && !(merged.contains t))

/-- State of `get_merged_committee`: (`merged`, `mergecomms`). `(i, -1)` is `(i, none)`. -/
structure MergeState where
  merged : List Nat
  mergecomms : List (Nat × Option Nat)
deriving DecidableEq, Repr

/-- One round of the loop over `i`, cbc.py 567-588. -/
def mergeStep (sim : Nat → Nat → K) (order : Nat → List Nat) (theta : K) (st : MergeState) (i : Nat) :
    MergeState :=
  if st.merged.contains i then st
  else match findFree (order i) i st.merged with
    | none => ⟨st.merged, st.mergecomms ++ [(i, none)]⟩
    | some idx =>
      if sim i idx < theta then ⟨st.merged, st.mergecomms ++ [(i, none)]⟩
      else ⟨idx :: st.merged, st.mergecomms ++ [(i, some idx)]⟩

/-- `get_merged_committee(simmx, theta)`, cbc.py 546-590, for an `n × n` matrix. -/
def getMerged (n : Nat) (sim : Nat → Nat → K) (order : Nat → List Nat) (theta : K) :
    List (Nat × Option Nat) :=
  ((List.range n).foldl (mergeStep sim order theta) ⟨[], []⟩).mergecomms

end Verif.Cbc
