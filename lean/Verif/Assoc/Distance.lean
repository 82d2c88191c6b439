import Verif.Assoc.Weights

/-!
# Distances, single scores, sums as frequencies: `/repo/nephosem/specutils/mxcalc.py:50-60, 126-222, 287-328, 341-395`
-/

namespace Verif.Assoc
open Verif.Py Verif.Matrix

variable {κ : Type} [LinearOrder κ]

noncomputable section
open Classical

/-! ### Distances -/

/-- `sklearn.metrics.pairwise.manhattan_distances`, one element. -/
def l1Elem (x : Body ℝ) (a b : Nat) : ℝ := ((List.range x.nc).map (fun j => |x.val a j - x.val b j|)).sum

/-- `euclidean_distances`, one element: `XX - 2 XY + YY`, at least 0, 0 on the diagonal, and the root of that. -/
def l2Elem (x : Body ℝ) (a b : Nat) : ℝ :=
  if a = b then 0 else Real.sqrt (max (rowDot x a a - 2 * rowDot x a b + rowDot x b b) 0)

/-- `cosine_distances`, one element: one minus the similarity, between 0 and 2, 0 on the diagonal. -/
def cosDistElem (x : Body ℝ) (a b : Nat) : ℝ := if a = b then 0 else min (max (1 - cosElem x a b) 0) 2

/-- `pairwise_distances(x, metric=metric)` of scikit-learn for the metrics that reach it (`calc_distance`,
`mxcalc.py:388-391`): arrays without rows or columns and the unknown metric `cos` are a `ValueError`. -/
def pairwiseDistances (x : Body ℝ) (metric : String) : Except Err (Dn ℝ) :=
  if x.nr = 0 ∨ x.nc = 0 then .error (.py .valueError)
  else if metric = "cosine" then .ok { nr := x.nr, nc := x.nr, elem := cosDistElem x }
  else if metric = "euclidean" ∨ metric = "l2" then .ok { nr := x.nr, nc := x.nr, elem := l2Elem x }
  else if metric = "cityblock" ∨ metric = "manhattan" ∨ metric = "l1" then .ok { nr := x.nr, nc := x.nr, elem := l1Elem x }
  else .error (.py .valueError)

/-- The keys of `dtypes`, `mxcalc.py:367-375`. -/
def dtypes : List String := ["cosine", "cos", "euclidean", "cityblock", "manhattan", "l1", "l2"]

/-- From the choice of the array on: `mxcalc.py:365-385`. -/
def distancesOf (x : Body ℝ) (items : List κ) (metric : String) : Except Err (Mtx κ ℝ) :=
  if metric ∈ dtypes then do
    let d ← pairwiseDistances x metric
    lift (mkMtx (.dn d) items items)
  else .error (.py .notImplemented)

/-- `compute_distance`, `mxcalc.py:340-385`. -/
def computeDistance (m : Mtx κ ℝ) (axis : Int := 0) (metric : String := "cosine") : Except Err (Mtx κ ℝ) :=
  if axis = 0 then distancesOf m.body m.rows metric
  else if axis = 1 then distancesOf (transposeBody m.body) m.cols metric
  else .error (.py .valueError)

/-! ### Single scores -/

/-- The keys of `func_dict` in `pairwise_association`, `mxcalc.py:205-219`: `llik` is not among them. -/
def parsePairMeas (name : String) : Option Meas := if name = "llik" then none else parseMeas name

/-- `pairwise_association`, `mxcalc.py:205-222`. -/
def pairwiseAssociation (t : Table) (meas : String) : Except Err ℝ :=
  match parsePairMeas meas with
  | none => .error (.py .notImplemented)
  | some μ => μ.func t

/-- `calc_mi`, `mxcalc.py:287-292`; `math.log(x, 2)` is the quotient of logarithms. -/
def calcMi (t : Table) : Except Err ℝ := do
  let n := t.o11 + t.o21 + t.o12 + t.o22
  let e11 ← pyDiv ((t.o11 + t.o21) * (t.o11 + t.o12)) n
  let q ← pyDiv t.o11 e11
  let l ← pyLog q
  .ok (l / Real.log 2)

/-- One round of the loop of `entropy`, `mxcalc.py:326-327`. -/
def entropyStep (e val : ℝ) : Except Err ℝ := do
  let l ← pyLog (adjustVal val)
  .ok (e - val * l)

/-- `entropy`, `mxcalc.py:323-328`. -/
def entropy (values : List ℝ) : Except Err ℝ := values.foldlM entropyStep 0

/-! ### Sums of the matrix as frequencies -/

/-- `freqmx.sum(axis=1)`. -/
def spRowSums (s : Sp ℝ) : List ℝ := (List.range s.nr).map (fun i => ((List.range s.nc).map (fun j => s.val i j)).sum)

/-- `freqmx.sum(axis=0)`. -/
def spColSums (s : Sp ℝ) : List ℝ := (List.range s.nc).map (fun j => ((List.range s.nr).map (fun i => s.val i j)).sum)

/-- `np.squeeze(...)[i]`: with one element the array has no dimension left, and cannot be indexed. -/
def squeezedAt (l : List ℝ) (i : Nat) : Except Matrix.Err ℝ := if l.length = 1 then .error .indexError else getIdx l i

/-- `row_sum_vec[rowid]`, `mxcalc.py:155-165`: the array that is given, or the squeezed sums. -/
def marginal (given : Option (List ℝ)) (sums : List ℝ) (i : Nat) : Except Err ℝ :=
  match given with
  | some l => lift (getIdx l i)
  | none => lift (squeezedAt sums i)

/-- One round of the loop, `mxcalc.py:188-197`; without a total the subtraction `None - c_a_nb` is a `TypeError`. -/
def assocRound (f : Table → Except Err ℝ) (s : Sp ℝ) (nfreq cfreq : Option (List ℝ)) (N : Option ℝ) (e : (Nat × Nat) × ℝ) :
    Except Err ((Nat × Nat) × ℝ) := do
  let r ← marginal nfreq (spRowSums s) e.1.1
  let c ← marginal cfreq (spColSums s) e.1.2
  match N with
  | none => .error (.py .typeError)
  | some n => do
    let v ← f (cellTable e.2 r c n)
    .ok (e.1, v)

/-- `calc_association` with its defaults, `mxcalc.py:126-201`. -/
def calcAssociationRaw (s : Sp ℝ) (nfreq cfreq : Option (List ℝ)) (N : Option ℝ) (meas : String) : Except Err (Sp ℝ) :=
  match parseMeas meas with
  | none => .error (.py .notImplemented)
  | some μ => do
    let es ← s.data.mapM (assocRound μ.func s nfreq cfreq N)
    .ok { fmt := .csr, nr := s.nr, nc := s.nc, data := es }

/-- Loop body of `compute_ppmi` when there are no column frequencies, `mxcalc.py:66-76`. -/
def ppmiEntrySums (positive : Bool) (rv : List ℝ) (s : Sp ℝ) (n : ℝ) (e : (Nat × Nat) × ℝ) : Except Err ((Nat × Nat) × ℝ) := do
  let r ← lift (getIdx rv e.1.1)
  let c ← lift (squeezedAt (spColSums s) e.1.2)
  let v ← ppmiCell positive e.2 r c n
  .ok (e.1, v)

/-- `compute_ppmi` without column frequencies (`cfreq=None`), `mxcalc.py:41-83`. -/
def computePpmiSums (m : Mtx κ ℝ) (nfreq : Dict κ ℝ) (positive : Bool := true) : Except Err (Mtx κ ℝ) := do
  let n := freqSum nfreq
  let rv ← lift (m.rows.mapM (getKey nfreq))
  match m.body with
  | .dn _ => .error (.py .attributeError)
  | .sp s => do
    let es ← s.data.mapM (ppmiEntrySums positive rv s n)
    lift (mkMtx (.sp { fmt := .csr, nr := s.nr, nc := s.nc, data := es }) m.rows m.cols)

end

end Verif.Assoc
