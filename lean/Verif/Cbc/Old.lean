import Verif.Cbc.Rounds

/-!
# The older committee selection (`cbc_step3_old`, `nephosem/models/cbc.py` 741-795)
-/

namespace Verif.Cbc

variable {K E V : Type} [LinearOrder K]

/-- The loop body, cbc.py 783-790: position `i` joins the kept positions `C` unless a kept position `j` has
`simmx[j, i] >= theta`. -/
def keepStep (sim : Nat → Nat → K) (theta : K) (C : List Nat) (i : Nat) : List Nat :=
  if C.any (fun j => decide (theta ≤ sim j i)) then C else C ++ [i]

/-- The loop, cbc.py 781-790: position 0 is always kept. -/
def keepPositions (n : Nat) (sim : Nat → Nat → K) (theta : K) : List Nat :=
  (List.range' 1 (n - 1)).foldl (keepStep sim theta) [0]

/-- `cbc_step3_old(L, freqmx, theta)`, cbc.py 741-795.  `vec` is the committee vector of a cluster (764-777, see
`committeeVector`) or its exception.  Without clusters `cosine_similarity` gets no sample and raises `ValueError`. -/
def step3Old [Field K] (cos : V → V → K) (vec : List E → Except Err V) (theta : K) (L : List (K × List E)) :
    Except Err (List (K × List E) × List V) := do
  let vs ← L.mapM (fun p => vec p.2)
  if vs = [] then .error .value
  else
    let C := keepPositions vs.length (simAt cos vs vs) theta
    return (C.filterMap (L[·]?), C.filterMap (vs[·]?))

end Verif.Cbc
