import Verif.Cbc.Merge
import Verif.Cbc.Clean
import Verif.Cbc.Step1

/-!
# CBC steps 2 and 3 and the recursion (`nephosem/models/cbc.py`)

Vectors are of an abstract type `V`.  Parameters stand for the numeric parts: the vector of a committee
(`calc_committee_vectors`, modelled in `Cbc/Vector.lean`), the association row of an element, the cosine
similarity, and `np.argsort` of one row.  Matrix rows are addressed by position, as in the code; which element
stands at a position is part of the model, since the code mixes positions in the element list with positions
in the matrices.
-/

namespace Verif.Cbc

open Verif.Py

/-- A `CBC` object: its element list, the rows of its matrices, and the numeric parameters. `step1 highest
eles` is step 1 (single or multicore) on `eles`. -/
structure Clustering (K E V : Type) where
  elements : List E
  rowItems : List E
  commVec : List E → List E → V
  rowVec : E → V
  cos : V → V → K
  argsort : List K → List Nat
  step1 : Bool → List E → Except Err (List (K × List E))
  theta1 : K
  theta2 : K
  highest : Bool
  numIter : Nat

variable {K E V : Type} [Field K] [LinearOrder K] [LinearOrder E]

/-- `np.argmax` of one row: the first position of the largest value. -/
def argmax : List K → Nat
  | [] => 0
  | a :: l => ((l.zipIdx 1).foldl (fun (b : K × Nat) p => if b.1 < p.1 then p else b) (a, 0)).2

/-- The rows of the matrices used in a round, cbc.py 243-245: the matrices themselves when the elements of the
round are `cbc.elements`, otherwise the sub-matrix with the rows of `eles` that exist. With no such row
`submatrix` gives `None`, whose attribute access fails. -/
def roundRows (c : Clustering K E V) (eles : List E) : Except Err (List E) :=
  if c.elements = eles then .ok c.rowItems
  else
    let rows := eles.filter (fun e => decide (e ∈ c.rowItems))
    if rows = [] then .error .value else .ok rows

/-- Entry `i, j` of a similarity matrix given as rows. -/
def simAt (cos : V → V → K) (vs ws : List V) (i j : Nat) : K :=
  match vs[i]?, ws[j]? with
  | some v, some w => cos v w
  | _, _ => 0

/-- The committee vector of a list of matrix positions (`freqmx[cluster, :]` fails for a bad position). -/
def vecOf (c : Clustering K E V) (rows : List E) (ids : List Nat) : Except Err V := do
  return c.commVec rows (← itemsAt rows ids)

/-- Appending singleton `sid` to its most similar committee, cbc.py 525-531. -/
def attach (c : Clustering K E V) (vecs : List V) (rows : List E) (comms : List (List Nat)) (sid : Nat) :
    Except Err (List (List Nat)) :=
  match rows[sid]? with
  | none => .error .index
  | some e =>
    let sims := vecs.map (c.cos (c.rowVec e))
    let cid := argmax sims
    match sims[cid]? with
    | none => .error .value
    | some s => if c.theta1 ≤ s then .ok (comms.modify cid (· ++ [sid])) else .ok comms

/-- Sorted ids of the elements of a cluster, cbc.py 489. -/
def sortedIds (e2id : Dict E Nat) (clust : List E) : Except Err (List Nat) := do
  return sortedBy id (← idsOf e2id clust)

/-- The union of one or two committees, cbc.py 505-508. -/
def unionOf (idxcomms : List (List Nat)) (p : Nat × Option Nat) : List Nat :=
  sortedBy id (((idxcomms[p.1]?).getD [] ++ (p.2.bind (fun j => idxcomms[j]?)).getD []).dedup)

/-- `cbc_step2`, cbc.py 449-543, with `elements` the elements of the round and `rows` the rows of the matrices.
An empty `L` is returned as it is, which the caller cannot unpack (`ValueError`); `cosine_similarity` of no
committees is a `ValueError`. -/
def step2 (c : Clustering K E V) (elements rows : List E) (L : List (K × List E)) :
    Except Err (List (List E) × List V) :=
  if L = [] then .error .value
  else do
    let cleaned := cleanClusters L
    let e2id := idDict elements
    let idxcomms ← cleaned.1.mapM (fun p => sortedIds e2id p.2)
    let commx ← idxcomms.mapM (vecOf c rows)
    if commx = [] then .error .value
    else
      let sim := simAt c.cos commx commx
      let mg := getMerged commx.length sim
        (fun i => c.argsort ((List.range commx.length).map (sim i))) c.theta1
      let mergecomms := mg.map (unionOf idxcomms)
      let mgcommx ← mergecomms.mapM (vecOf c rows)
      let sglidx ← sortedIds e2id cleaned.2
      let withSgl ← sglidx.foldlM (attach c mgcommx rows) mergecomms
      let final := withSgl.map (sortedBy id)
      let finalx ← final.mapM (vecOf c rows)
      let items ← final.mapM (itemsAt elements)
      return (items, finalx)

/-- The inner loop of `cbc_step3`, cbc.py 832-837: residue iff no committee reaches theta. -/
def isResidue (c : Clustering K E V) (commx : List V) (row : E) : Bool :=
  !(commx.any (fun v => decide (c.theta2 ≤ c.cos (c.rowVec row) v)))

/-- One turn of the main loop of `cbc_step3`, cbc.py 831-843: row number `i` of the matrix, belonging to
`row`; `elements[i]` fails when the matrix has more rows than elements. -/
def step3Step (c : Clustering K E V) (elements : List E) (commx : List V) (st : List E × List (List E))
    (p : E × Nat) : Except Err (List E × List (List E)) :=
  match elements[p.2]? with
  | none => .error .index
  | some e =>
    if isResidue c commx p.1 then .ok (st.1 ++ [e], st.2)
    else
      let cid := argmax (commx.map (c.cos (c.rowVec p.1)))
      .ok (st.1, st.2.modify cid (fun comm => if e ∈ comm then comm else comm ++ [e]))

/-- `cbc_step3`, cbc.py 798-844: (residues, extended committees). -/
def step3 (c : Clustering K E V) (elements rows : List E) (comms : List (List E)) (commx : List V) :
    Except Err (List E × List (List E)) :=
  rows.zipIdx.foldlM (step3Step c elements commx) ([], comms)

/-- `major_steps`, cbc.py 219-287: step 1 is called without `highest_score`; the committees returned are those
of step 2, not the ones step 3 extended. -/
def majorSteps (c : Clustering K E V) (eles : List E) : Except Err (List (List E) × List E) := do
  let rows ← roundRows c eles
  let L ← c.step1 false eles
  let r ← step2 c eles rows L
  if r.1 = [] then return ([], eles)
  else
    let s ← step3 c eles rows r.1 r.2
    return (r.1, s.1)

/-- One round of `CBC.cluster`, cbc.py 190-195: a failing round is recorded as no committees and no residues. -/
def roundOf {C : Type} (steps : List E → Except Err (List C × List E)) (residues : List E) : List C × List E :=
  match steps residues with
  | .ok r => r
  | .error _ => ([], [])

/-- The loop of `CBC.cluster`, cbc.py 186-209: (committees, residues) of every round; the first argument is the
number of rounds left. -/
def clusterLoop {C : Type} (steps : List E → Except Err (List C × List E)) :
    Nat → List E → List (List C × List E)
  | 0, _ => []
  | n + 1, residues =>
    if residues = [] then []
    else
      let r := roundOf steps residues
      if r.2.length ≤ 2 then [r]
      else if r.2.length = residues.length then [r]
      else r :: clusterLoop steps n r.2

/-- `CBC.cluster(num_eles)`, cbc.py 148-216; the final writing of the results to the home directory is
modelled in `Cbc/Keep.lean`. -/
def cluster (c : Clustering K E V) (numEles : Int) : List (List (List E) × List E) :=
  clusterLoop (majorSteps c) c.numIter
    (if 0 < numEles then c.elements.take numEles.toNat else c.elements)

end Verif.Cbc
