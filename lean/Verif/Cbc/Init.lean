import Verif.Cbc.Rounds
import Verif.Assoc.Distance

/-!
# Making a `CBC` object and what its matrices allow (`nephosem/models/cbc.py`)

The documented types of the three matrices are SciPy and NumPy arrays; the methods the rounds call on them are those of a
`TypeTokenMatrix`.  An argument is therefore either an array or a named matrix.  The distances of an array
(`sklearn.metrics.pairwise_distances`) are a parameter.
-/

namespace Verif.Cbc

open Verif.Py

/-- A matrix argument of `CBC`: a plain (SciPy or NumPy) array, or a `TypeTokenMatrix` with its row items. -/
inductive MatArg (E : Type) where
  | array (s : Matrix.Sp ℝ)
  | named (items : List E) (s : Matrix.Sp ℝ)

/-- The arguments of `CBC(...)` that the rounds use. -/
structure Options (K : Type) where
  k : K
  theta1 : K
  theta2 : K
  pruneMethod : String
  t : Threshold K
  scoreMetric : String
  highest : Bool
  numIter : Nat

/-- A `CBC` object as its constructor leaves it. -/
structure Obj (K E : Type) where
  elements : List E
  freqmx : MatArg E
  measmx : MatArg E
  distmx : MatArg E
  opts : Options K

/-- `calc_association(freqmx, meas='ppmi')`, cbc.py 121 with mxcalc.py 126-201.  For a `TypeTokenMatrix` the row sums are a
`dict`, and `np.asarray(<dict>).astype(np.float64)` (mxcalc.py 157) is a `TypeError`. -/
noncomputable def missingMeas {E : Type} : MatArg E → Except Assoc.Err (MatArg E)
  | .array s => do return .array (← Assoc.calcAssociationRaw s none none none "ppmi")
  | .named _ _ => .error (.py .typeError)

/-- `measmx`, cbc.py 119-122: as given, or computed. -/
noncomputable def measOf {E : Type} (freqmx : MatArg E) : Option (MatArg E) → Except Assoc.Err (MatArg E)
  | some m => .ok m
  | none => missingMeas freqmx

/-- `distmx`, cbc.py 123-126: as given, or `pairwise_distances(measmx, metric='cosine')`, which returns a NumPy array or fails. -/
def distOf {E : Type} (dist : MatArg E → Except Assoc.Err (Matrix.Sp ℝ)) (meas : MatArg E) :
    Option (MatArg E) → Except Assoc.Err (MatArg E)
  | some d => .ok d
  | none => (dist meas).map MatArg.array

/-- `CBC.__init__`, cbc.py 118-146. `workers` is stored and never read, so it is left out. -/
noncomputable def newCBC {K E : Type} (dist : MatArg E → Except Assoc.Err (Matrix.Sp ℝ)) (elements : List E) (freqmx : MatArg E)
    (measmx distmx : Option (MatArg E)) (opts : Options K) : Except Assoc.Err (Obj K E) := do
  let meas ← measOf freqmx measmx
  let d ← distOf dist meas distmx
  return { elements := elements, freqmx := freqmx, measmx := meas, distmx := d, opts := opts }

/-- Whether the argument has the methods of a `TypeTokenMatrix` (`submatrix`, `matrix`, `most_similar`, `save`). -/
def MatArg.isNamed {E : Type} : MatArg E → Bool
  | .array _ => false
  | .named _ _ => true

variable {K E V : Type} [Field K] [LinearOrder K] [LinearOrder E]

/-- Step 1 of a round, cbc.py 247-261: with an array for the distances, the multicore version fails at once
(`distmx.save`, cbc.py 305), the single version catches the failure of `distmx.most_similar` (cbc.py 886) for each element. -/
def step1With (multicore : Bool) (distmx : MatArg E) (step1 : Bool → List E → Except Err (List (K × List E))) (eles : List E) :
    Except Err (List (K × List E)) :=
  if distmx.isNamed then step1 false eles
  else if multicore then .error .value
  else .ok (step1Single (fun _ => .error .value) eles)

/-- `major_steps` on a `CBC` object, cbc.py 219-287, with what the arrays lack: for elements other than the object's own the
three sub-matrices are taken first; step 2 is given `freqmx.matrix` and `measmx.matrix`.  `c` has the numeric parts and the
rows of the matrices; `AttributeError` is `Err.value`. -/
def majorStepsObj (o : Obj K E) (c : Clustering K E V) (multicore : Bool) (eles : List E) :
    Except Err (List (List E) × List E) :=
  if o.elements ≠ eles ∧ ¬ (o.freqmx.isNamed ∧ o.measmx.isNamed ∧ o.distmx.isNamed) then .error .value
  else do
    let rows ← roundRows c eles
    let L ← step1With multicore o.distmx c.step1 eles
    if ¬ (o.freqmx.isNamed ∧ o.measmx.isNamed) then .error .value
    else do
      let r ← step2 c eles rows L
      if r.1 = [] then return ([], eles)
      else
        let s ← step3 c eles rows r.1 r.2
        return (r.1, s.1)

/-- `CBC(...).cluster(num_eles, multicore)`, cbc.py 148-216. Whether the multicore version of step 1 is used depends on the
number of elements and of processors, cbc.py 256. -/
def clusterObj (o : Obj K E) (c : Clustering K E V) (multicore : List E → Bool) (numEles : Int) :
    List (List (List E) × List E) :=
  clusterLoop (fun eles => majorStepsObj o c (multicore eles) eles) o.opts.numIter
    (if 0 < numEles then o.elements.take numEles.toNat else o.elements)

/-- `cluster_similar_elements(e, ...)`, cbc.py 847-906, with the steps before the cut as parameters: `linkage e` is the
linkage of the elements similar to `e` (SciPy refuses an empty distance array), `finish` what follows the cut. -/
def similarOf {C : Type} (st : Stats K) (linkage : E → Except Err (List (K × Nat))) (fcluster : E → K → List Nat)
    (finish : E → List Nat → Except Err (List C)) (t : Threshold K) (criterion : String) (e : E) : Except Err (List C) := do
  let Z ← linkage e
  let labels ← flatCluster st (fcluster e) Z t criterion
  finish e labels

end Verif.Cbc
