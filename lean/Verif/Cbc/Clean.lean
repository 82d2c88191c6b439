import Verif.Py.Dict
import Verif.Py.Sort
import Mathlib.Data.List.Dedup
import Mathlib.Algebra.Order.Field.Basic

/-!
# Cleaning clusters (`nephosem/models/cbc.py`, `clean_clusters` and its helpers)

A cluster is a pair (score, list of elements).  Scores are elements of a linearly ordered field `K` (floats in
the code, without NaN); elements (strings in the code) are of any linearly ordered type `E`.  A Python set is
modelled by a duplicate-free list; the code never depends on the iteration order of these sets except through
the order of the resulting set of singletons, and no theorem here depends on that order.
-/

namespace Verif.Cbc

open Verif.Py

variable {K E : Type} [Field K] [LinearOrder K] [LinearOrder E]

/-- `sorted(a) != sorted(b)`. -/
def differ (a b : List E) : Bool := decide (sortedBy id a ≠ sortedBy id b)

/-- The loop of `remove_duplicate`, cbc.py 649-657, with `prevs`, `prevc` in the first argument. -/
def dedupLoop : K × List E → List (K × List E) → List (K × List E)
  | _, [] => []
  | prev, (s, clust) :: rest =>
    if |s - prev.1| > 1 / 10 ^ 9 ∨ differ clust prev.2 = true then
      (s, clust.dedup) :: dedupLoop (s, clust) rest
    else dedupLoop prev rest

/-- `remove_duplicate(clusters)`, cbc.py 643-658. -/
def removeDuplicate : List (K × List E) → List (K × List E)
  | [] => []
  | (prevs, prevc) :: rest => (prevs, prevc.dedup) :: dedupLoop (prevs, prevc) rest

/-- `invidx[e].add(cid)` on a `defaultdict(set)`. -/
def addId (cid : Nat) (d : Dict E (List Nat)) (e : E) : Dict E (List Nat) :=
  let old := (d.get? e).getD []
  d.set e (if cid ∈ old then old else old ++ [cid])

/-- `inverted_index(L)`, cbc.py 695-701. -/
def invertedIndex (L : List (K × List E)) : Dict E (List Nat) :=
  L.zipIdx.foldl (fun d p => p.1.2.foldl (addId p.2) d) []

/-- `remove_singleton(singles, invidx)`, cbc.py 661-669. -/
def removeSingleton (singles : List E) (invidx : Dict E (List Nat)) : List E :=
  singles.filter (fun e => !(invidx.contains e))

/-- One turn of the inner loop of `remove_superset`, cbc.py 681-685. -/
def commonStep (invidx : Dict E (List Nat)) (comm : Option (List Nat)) (e : E) : Option (List Nat) :=
  match comm with
  | none => some ((invidx.get? e).getD [])
  | some s => some (s.filter (fun c => decide (c ∈ (invidx.get? e).getD [])))

/-- The super-clusters of cluster number `cid`, cbc.py 678-687. -/
def superOf (invidx : Dict E (List Nat)) (cid : Nat) (clust : List E) : List Nat :=
  match clust.foldl (commonStep invidx) none with
  | none => []
  | some s => s.filter (fun c => decide (c ≠ cid))

/-- `remove_superset(clusters, invidx)`, cbc.py 672-692. -/
def removeSuperset (clusters : List (K × List E)) (invidx : Dict E (List Nat)) : List (K × List E) :=
  let superclusters := clusters.zipIdx.flatMap (fun p => superOf invidx p.2 p.1.2)
  (clusters.zipIdx.filter (fun p => decide (p.2 ∉ superclusters))).map Prod.fst

/-- `clean_clusters(L)`, cbc.py 593-640: (clusters, singleton elements). `list(c)[0]` is the first element of
the list. -/
def cleanClusters (L : List (K × List E)) : List (K × List E) × List E :=
  let sortedL := sortedByDesc Prod.fst L
  let clusters := sortedL.takeWhile (fun p => decide (0 < p.1))
  let singletons := sortedL.dropWhile (fun p => decide (0 < p.1))
  let sgleles := (singletons.filterMap (fun p => p.2.head?)).dedup
  let diffL := removeDuplicate clusters
  let invidx := invertedIndex diffL
  (removeSuperset diffL invidx, removeSingleton sgleles invidx)

end Verif.Cbc
