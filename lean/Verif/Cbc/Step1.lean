import Verif.Py.Dict
import Verif.Cbc.Condensed
import Mathlib.Algebra.Order.Field.Basic

/-!
# CBC step 1 (`nephosem/models/cbc.py`): flat clusters, their scores, and the two drivers

SciPy's `linkage` and `fcluster` are not modelled: `linkage` gives the merge rows `(dist, count)` and
`fcluster` a list of labels, one per element; both are parameters.  `math.sqrt` of a size is a parameter
`root : Nat → K`.
-/

namespace Verif.Cbc

open Verif.Py

variable {K E : Type} [Field K] [LinearOrder K] [DecidableEq E]

/-! ### Flat clusters -/

/-- The threshold argument `t`: a number or a string. -/
inductive Threshold (K : Type) where
  | num (x : K)
  | str (s : String)

/-- The statistics NumPy computes on the merge distances; `percentile` gets the text before `%` (its `int()`
may fail). -/
structure Stats (K : Type) where
  mean : List K → K
  median : List K → K
  percentile : String → List K → Except Err K

/-- `t[:t.index('%')]` when `'%' in t`. -/
def percentText (s : String) : Option String :=
  if '%' ∈ s.toList then some (String.ofList (s.toList.takeWhile (· ≠ '%'))) else none

/-- The cut height chosen by `flat_cluster`, cbc.py 1001-1023; `none`: the criterion is neither of the two, and
the function returns the empty list. Rows are `(dist, count)` of the linkage matrix. `count >= t` with a string
`t` is a `TypeError` (here `Err.value`). -/
def cutHeight (st : Stats K) (Z : List (K × Nat)) (t : Threshold K) (criterion : String) :
    Except Err (Option K) :=
  if criterion = "minsize" then
    match t with
    | .num x =>
      match Z.find? (fun r => decide (x ≤ (r.2 : K))) with
      | some r => .ok (some r.1)
      | none => .ok (some 1)
    | .str _ => if Z = [] then .ok (some 1) else .error .value
  else if criterion = "distance" then
    match t with
    | .num x => .ok (some x)
    | .str s =>
      let mergedist := Z.map Prod.fst
      if s = "mean" then .ok (some (st.mean mergedist))
      else if s = "median" then .ok (some (st.median mergedist))
      else match percentText s with
        | some p => do return some (← st.percentile p mergedist)
        | none => .error .notImplemented
  else .ok none

/-- `flat_cluster(Z, t, criterion)`, cbc.py 963-1033. -/
def flatCluster (st : Stats K) (fcluster : K → List Nat) (Z : List (K × Nat)) (t : Threshold K)
    (criterion : String) : Except Err (List Nat) := do
  match ← cutHeight st Z t criterion with
  | some h => return fcluster h
  | none => return []

/-- `clusters[c].append(i)` on a `defaultdict(list)`, cbc.py 957-958. -/
def addMember (d : Dict Nat (List Nat)) (p : Nat × Nat) : Dict Nat (List Nat) :=
  d.set p.1 ((d.get? p.1).getD [] ++ [p.2])

/-- The grouping loop of `hierarchical_cluster`, cbc.py 956-960: label ↦ element indices. -/
def groupLabels (labels : List Nat) : Dict Nat (List Nat) := labels.zipIdx.foldl addMember []

/-! ### Scores -/

/-- The `metric` argument of `score_cluster`. -/
def weigh (root : Nat → K) (metric : String) (size : Nat) (avgsim : K) : Except Err K :=
  if metric = "with_size_sqrt" then .ok (root size * avgsim)
  else if metric = "with_size" then .ok ((size : K) * avgsim)
  else if metric = "without_size" then .ok avgsim
  else .error .notImplemented

/-- The average of one cluster, cbc.py 1113-1117 (`cluster_avgsim`). -/
def avgsimOf (simmx : List K) (ids : List Nat) : Except Err K :=
  if ids.length = 1 then .ok 1 else averageSimilarity ids simmx

/-- One turn of the loop of `score_cluster`, cbc.py 1062-1082: the score of a cluster, and the new
`(maxc, maxs)`; `maxc = none` stands for the initial `-1` (labels are positive). -/
def scoreStep (root : Nat → K) (metric : String) (st : List (K × List Nat) × Option (List Nat) × K)
    (x : List Nat × K) : Except Err (List (K × List Nat) × Option (List Nat) × K) :=
  if x.1.length = 1 then .ok (st.1 ++ [(-1, x.1)], st.2)
  else do
    let score ← weigh root metric x.1.length x.2
    if st.2.2 < score then return (st.1 ++ [(score, x.1)], some x.1, score)
    else return (st.1 ++ [(score, x.1)], st.2)

/-- `score_cluster(clusters, simmx, metric, highest, score_func)`, cbc.py 1036-1087, on the clusters in
dictionary order (keys are dropped: they are only used to look the same clusters up again).  `score_func` is
accepted and never used.  With `highest` and no score above 0, `clusters[-1]` on the `defaultdict` is `[]`. -/
def scoreCluster (root : Nat → K) (clusters : List (List Nat)) (simmx : List K) (metric : String)
    (highest : Bool) (_scoreFunc : Option (Nat → K → K) := none) : Except Err (List (K × List Nat)) := do
  let avgs ← clusters.mapM (fun ids => do return (ids, ← avgsimOf simmx ids))
  let r ← avgs.foldlM (scoreStep root metric) ([], none, 0)
  if highest then return [(r.2.2, r.2.1.getD [])] else return r.1

/-! ### From sub-matrix ids to items -/

/-- `{e: i for i, e in enumerate(items)}`. -/
def idDict (items : List E) : Dict E Nat := Dict.ofPairs items.zipIdx

/-- `[items[i] for i in ids]`. -/
def itemsAt (items : List E) (ids : List Nat) : Except Err (List E) :=
  ids.mapM (fun i => match items[i]? with | some e => .ok e | none => .error .index)

/-- `[d[e] for e in l]`. -/
def idsOf (d : Dict E Nat) (l : List E) : Except Err (List Nat) :=
  l.mapM (fun e => match d.get? e with | some i => .ok i | none => .error .key)

/-- `sub2glb(cluster, subitems, glbitems)`, cbc.py 909-928. -/
def sub2glb (cluster : List Nat) (subitems glbitems : List E) : Except Err (List Nat) := do
  let clusterItems ← itemsAt subitems cluster
  idsOf (idDict glbitems) clusterItems

/-- The last loop of `cluster_similar_elements`, cbc.py 899-904, for one scored cluster. -/
def remap (subitems glbitems : List E) (p : K × List Nat) : Except Err (K × List E) := do
  let glb ← sub2glb p.2 subitems glbitems
  return (p.1, ← itemsAt glbitems glb)

/-- `cluster_similar_elements`, cbc.py 847-906, from the point where the sub-matrix of the similar elements is
known: `subitems` its row items, `dist` its condensed distances, `labels` the result of `flat_cluster`. -/
def clusterSimilar (root : Nat → K) (subitems glbitems : List E) (dist : List K) (labels : List Nat)
    (metric : String) (highest : Bool) : Except Err (List (K × List E)) := do
  let clusters := groupLabels labels
  if clusters = [] then return []
  else
    let scored ← scoreCluster root clusters.values (dist.map (fun d => 1 - d)) metric highest
    scored.mapM (remap subitems glbitems)

/-! ### The two drivers -/

/-- The clusters contributed by one element; a failure counts as none, cbc.py 368-379 and 432-445. -/
def clustersOf {C : Type} (cluster : E → Except Err (List C)) (e : E) : List C :=
  match cluster e with
  | .ok l => l
  | .error _ => []

/-- `cbc_step1_single`, cbc.py 390-446, with `cluster` for `cluster_similar_elements`. -/
def step1Single {C : Type} (cluster : E → Except Err (List C)) (elements : List E) : List C :=
  elements.flatMap (clustersOf cluster)

/-- `data_group[idx]`, cbc.py 310-313: the elements at the positions `i` with `i % num_cores = idx`. -/
def dataGroup (nc : Nat) (elements : List E) (idx : Nat) : List E :=
  (elements.zipIdx.filter (fun p => decide (p.2 % nc = idx))).map Prod.fst

/-- One executed pool task, cbc.py 350-387: process `pid` runs task `idx` and writes its clusters to the file
named after the process; when the matrix cannot be loaded nothing is written. -/
def runTask {C : Type} (cluster : E → Except Err (List C)) (loads : Nat → Bool) (nc : Nat)
    (elements : List E) (files : Dict Nat (List C)) (run : Nat × Nat) : Dict Nat (List C) :=
  if loads run.2 then files.set run.1 ((dataGroup nc elements run.2).flatMap (clustersOf cluster))
  else files

/-- `cbc_step1_multicore`, cbc.py 290-347: `nc` is `cpu_count() - 1`; `runs` lists the executed tasks as
(process, task) in order of execution; `listing` is the order in which `os.listdir` returns the files.  With
`nc = 0` the modulo fails for a non-empty element list, and `Pool(0)` for an empty one. -/
def step1Multicore {C : Type} (cluster : E → Except Err (List C)) (loads : Nat → Bool) (nc : Nat)
    (elements : List E) (runs : List (Nat × Nat)) (listing : List Nat → List Nat) : Except Err (List C) :=
  if nc = 0 then (if elements = [] then .error .value else .error .zeroDivision)
  else
    let files := runs.foldl (runTask cluster loads nc elements) []
    .ok ((listing files.keys).flatMap (fun pid => (files.get? pid).getD []))

end Verif.Cbc
