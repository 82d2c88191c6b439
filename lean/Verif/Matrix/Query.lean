import Verif.Matrix.Model

/-!
# Model of similarity ranks, `most_similar`, `sample`, `equal` and `get_colloc_contexts`

NumPy's `argsort`, `argpartition` and `random.choice` are parameters with contracts.
-/

namespace Verif.Matrix
open Verif.Py

variable {κ ν : Type} [LinearOrder κ]

/-! ### Similarity ranks -/

/-- Contract of `np.argsort` on one row (without NaN): a permutation of the positions that sorts the values. -/
structure IsArgsort [LinearOrder ν] (sort : List ν → List Nat) : Prop where
  perm : ∀ l, (sort l).Perm (List.range l.length)
  sorted : ∀ l, (sort l).Pairwise (fun a b => ∀ x y, l[a]? = some x → l[b]? = some y → x ≤ y)

/-- One row of an array as a list. -/
def Dn.row (d : Dn ν) (i : Nat) : List ν := (List.range d.nc).map (fun j => d.elem i j)

/-- The index lists `I.ravel()`, `J.ravel()`, `idx_mtx.ravel()` side by side: `/repo/nephosem/specutils/mxcalc.py:445-453`:
(row, column, rank). -/
def rankWrites (idx : Nat → List Nat) (m n : Nat) : List (Nat × Nat × Int) :=
  (List.range m).flatMap (fun i => ((idx i).zip ((List.range n).map (fun p : Nat => (p : Int) + 1))).map (fun x => (i, x.1, x.2)))

/-- `simrank_mtx[rJ, rInd] = I.ravel()`: the writes in order, into zeros: `/repo/nephosem/specutils/mxcalc.py:452-453`. -/
def writeAll (ws : List (Nat × Nat × Int)) : Nat → Nat → Int :=
  ws.foldl (fun f w => fun i j => if i = w.1 ∧ j = w.2.1 then w.2.2 else f i j) (fun _ _ => 0)

/-- `compute_simrank`: `/repo/nephosem/specutils/mxcalc.py:431-459`, for a dense similarity matrix. -/
def simrank [Neg ν] (sort : List ν → List Nat) (m : Mtx κ ν) (reverse : Bool := false) : Except Err (Mtx κ Int) :=
  match m.body with
  | .sp _ => .error .unmodelled
  | .dn d =>
    let idx (i : Nat) : List Nat := if reverse then sort (d.row i) else sort ((d.row i).map (fun x => -x))
    mkMtx (.dn { nr := d.nr, nc := d.nc, elem := writeAll (rankWrites idx d.nr d.nc) }) m.rows m.cols

/-! ### `most_similar` -/

/-- Contract of `np.argpartition(arr, k)`, `k` a position: a permutation of the positions such that what stands before
position `k` is at most, and what stands after it at least, the element there. -/
structure IsArgpartition [LinearOrder ν] (part : List ν → Nat → List Nat) : Prop where
  perm : ∀ l k, k < l.length → (part l k).Perm (List.range l.length)
  split : ∀ l k, k < l.length → ∀ p q a b x y, (part l k)[p]? = some a → (part l k)[q]? = some b → p ≤ k → k ≤ q →
    l[a]? = some x → l[b]? = some y → x ≤ y

/-- `get_smallest_k`: `/repo/nephosem/specutils/mxutils.py:305-312`. -/
def getSmallest (part : List ν → Nat → List Nat) (l : List ν) (k : Nat) : List Nat :=
  if l.length ≤ k then List.range l.length else (part l k).take k

/-- `get_largest_k`: `/repo/nephosem/specutils/mxutils.py:293-302`; the index `-k` means `n - k`.  With `k = 0` the slice
`[-0:]` is everything. -/
def getLargest (part : List ν → Nat → List Nat) (l : List ν) (k : Nat) : List Nat :=
  if l.length ≤ k then List.range l.length
  else if k = 0 then part l 0
  else (part l (l.length - k)).drop (l.length - k)

/-- `most_similar(item, k, descending)`: `/repo/nephosem/core/matrix.py:945-970, 617-644, 371-372, 547-548`.  An unknown
item is a `ValueError` of `list.index`; only symmetric dense matrices have the method. -/
def mostSimilar [AllClose ν] (part : List ν → Nat → List Nat) (m : Mtx κ ν) (item : κ) (k : Nat) (desc : Bool) :
    Except Err (List κ) :=
  match m.rows.idxOf? item with
  | none => .error .valueError
  | some rid =>
    match m.body with
    | .sp _ => .error .notImplemented
    | .dn d =>
      if d.symmetric then
        let idx := if desc then getLargest part (d.row rid) (k + 1) else getSmallest part (d.row rid) (k + 1)
        .ok ((idx.filterMap (fun i => m.rows[i]?)).filter (fun e => decide (e ≠ item)))
      else .error .notImplemented

/-! ### `sample` -/

/-- Contract of `np.random.choice(range(n), size=k, replace=False)`. -/
def IsChoice (choice : Nat → Nat → List Nat) : Prop :=
  ∀ n k, k ≤ n → (choice n k).Nodup ∧ (choice n k).length = k ∧ ∀ i ∈ choice n k, i < n

/-- The sample size: `/repo/nephosem/core/matrix.py:984-993`.  A float above 1 passes the tests and is then refused by
`np.random.choice` as a size. -/
def sampleSize (n : Nat) (percent : PyNum) : Except Err Nat :=
  if 1 ≤ percent.toRat then
    if percent.toRat > n then .error .valueError
    else match percent with
      | .f _ => .error .typeError
      | p => .ok (truncRat p.toRat).toNat
  else if 0 < percent.toRat then
    let k := (truncRat (n * percent.toRat)).toNat
    .ok (if 0 < k then k else 1)
  else .error .valueError

/-- `sample(percent)` without replacement: `/repo/nephosem/core/matrix.py:972-999`; the random generator is the parameter
`choice`, the seed is left out.  Choosing from no rows is an error of NumPy. -/
def sample [AllClose ν] (choice : Nat → Nat → List Nat) (m : Mtx κ ν) (percent : PyNum) : Except Err (Option (Mtx κ ν)) := do
  let k ← sampleSize m.rows.length percent
  if m.rows.length < k then .error .valueError
  else submatrix m (some ((sortedBy id (choice m.rows.length k)).filterMap (fun i => m.rows[i]?))) none

/-! ### `equal` and `get_colloc_contexts` -/

/-- `SparseMatrix.equal`: `/repo/nephosem/core/matrix.py:436-439`: same shape, same number of stored entries, and no
position where the values differ. -/
def Sp.equal [Zero ν] [DecidableEq ν] (s t : Sp ν) : Bool :=
  decide (s.nr = t.nr) && decide (s.nc = t.nc) && decide (s.data.length = t.data.length) &&
    (s.data.keys ++ t.data.keys).all (fun p => decide (s.val p.1 p.2 = t.val p.1 p.2))

/-- `equal`: `/repo/nephosem/core/matrix.py:1229-1234, 436-439, 539-542, 622-625`.  Comparing a sparse with a dense matrix
is not modelled. -/
def equal [Zero ν] [DecidableEq ν] [AllClose ν] (m t : Mtx κ ν) : Except Err Bool :=
  if m.rows ≠ t.rows then .ok false
  else if m.cols ≠ t.cols then .ok false
  else match m.body, t.body with
    | .sp a, .sp b => .ok (a.equal b)
    | .dn a, .dn b => .ok (decide (a.nr = b.nr) && decide (a.nc = b.nc) &&
        (List.range a.nr).all (fun i => (List.range a.nc).all (fun j => AllClose.close (a.elem i j) (b.elem i j))))
    | _, _ => .error .unmodelled

/-- `get_colloc_contexts`: `/repo/nephosem/core/matrix.py:1236-1252, 441-448, 544-545, 627-628`: the columns of the stored
entries of the item's row (stored zeros included). -/
def collocContexts (m : Mtx κ ν) (item : κ) : Except Err (List κ) :=
  match m.rows.idxOf? item with
  | none => .error .keyError
  | some i =>
    match m.body with
    | .sp s => .ok (((s.data.filter (fun e => e.1.1 = i)).map (fun e => e.1.2)).filterMap (fun j => m.cols[j]?))
    | .dn _ => .error .notImplemented

end Verif.Matrix
