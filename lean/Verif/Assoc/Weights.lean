import Verif.Assoc.Measures
import Verif.Matrix.Model
import Mathlib.Analysis.SpecialFunctions.Sqrt

/-!
# Association matrices, token weights and token vectors: `/repo/nephosem/specutils/mxcalc.py:41-201, 398-427, 462-621`

Matrices are those of `Verif.Matrix`; values are real numbers where a formula needs logarithms, roots or quotients.
-/

namespace Verif.Assoc
open Verif.Py Verif.Matrix

variable {κ : Type} [LinearOrder κ]

/-- Exceptions of the matrix model inside the functions of this module. -/
def lift {α : Type} : Except Matrix.Err α → Except Err α
  | .ok a => .ok a
  | .error e => .error (.py e)

noncomputable section
open Classical

/-- `np.isclose` on real numbers. -/
instance : AllClose ℝ where
  close a b := decide (|a - b| ≤ 1 / 100000000 + 1 / 100000 * |b|)
  refl a := by simp only [sub_self, abs_zero, decide_eq_true_eq]; have := abs_nonneg a; positivity

/-! ### Association matrices -/

/-- The keys of `func_dict`: `mxcalc.py:170-183`. -/
def parseMeas (name : String) : Option Meas :=
  if name = "pmi" then some .pmi
  else if name = "ppmi" then some .ppmi
  else if name = "lik" then some .lik
  else if name = "llik" then some .lik
  else if name = "chisq" then some .chisq
  else if name = "zscore" then some .zscore
  else if name = "dice" then some .dice
  else if name = "deltap" then some .deltap
  else if name = "deltapColl" then some .deltapColl
  else if name = "logratio" then some .logratio
  else none

/-- Loop body of `calc_association`: `mxcalc.py:189-196`. -/
def assocCell (f : Table → Except Err ℝ) (rv cv : List ℝ) (n : ℝ) (e : (Nat × Nat) × ℝ) :
    Except Err ((Nat × Nat) × ℝ) := do
  let r ← lift (getIdx rv e.1.1)
  let c ← lift (getIdx cv e.1.2)
  let v ← f (cellTable e.2 r c n)
  .ok (e.1, v)

/-- `calc_association` with both frequency arrays given (as `compute_association` calls it): `mxcalc.py:126-201`.  A
dense array has no `tocoo`. -/
def calcAssociation (b : Body ℝ) (rv cv : List ℝ) (n : ℝ) (meas : String) : Except Err (Sp ℝ) :=
  match b with
  | .dn _ => .error (.py .attributeError)
  | .sp s =>
    match parseMeas meas with
    | none => .error (.py .notImplemented)
    | some μ => do
      let es ← s.data.mapM (assocCell μ.func rv cv n)
      .ok { fmt := .csr, nr := s.nr, nc := s.nc, data := es }

/-- `vocab.sum()`: `/repo/nephosem/core/vocab.py:346-354`. -/
def freqSum (v : Dict κ ℝ) : ℝ := v.values.sum

/-- `N if N else max(nfreq.sum(), cfreq.sum())`: `mxcalc.py:113`. -/
def totalFreq (nfreq cfreq : Dict κ ℝ) (N : Option ℝ) : ℝ :=
  match N with
  | none => max (freqSum nfreq) (freqSum cfreq)
  | some x => if x = 0 then max (freqSum nfreq) (freqSum cfreq) else x

/-- `compute_association`: `mxcalc.py:87-123`.  The frequency vocabularies are given by their dicts. -/
def computeAssociation (m : Mtx κ ℝ) (nfreq cfreq : Dict κ ℝ) (N : Option ℝ) (meas : String) : Except Err (Mtx κ ℝ) := do
  let n := totalFreq nfreq cfreq N
  let rv ← lift (m.rows.mapM (getKey nfreq))
  let cv ← lift (m.cols.mapM (getKey cfreq))
  let s ← calcAssociation m.body rv cv n meas
  lift (mkMtx (.sp s) m.rows m.cols)

/-- Loop body of `compute_ppmi`: `mxcalc.py:66-76`. -/
def ppmiEntry (positive : Bool) (rv cv : List ℝ) (n : ℝ) (e : (Nat × Nat) × ℝ) : Except Err ((Nat × Nat) × ℝ) := do
  let r ← lift (getIdx rv e.1.1)
  let c ← lift (getIdx cv e.1.2)
  let v ← ppmiCell positive e.2 r c n
  .ok (e.1, v)

/-- `compute_ppmi`: `mxcalc.py:41-83`, with a column vocabulary.  Without a row vocabulary `nfreq.sum()` fails before
the test for `None` is reached. -/
def computePpmi (m : Mtx κ ℝ) (nfreq : Option (Dict κ ℝ)) (cfreq : Dict κ ℝ) (positive : Bool := true) :
    Except Err (Mtx κ ℝ) :=
  match nfreq with
  | none => .error (.py .attributeError)
  | some nfreq => do
    let n := freqSum nfreq
    let rv ← lift (m.rows.mapM (getKey nfreq))
    let cv ← lift (m.cols.mapM (getKey cfreq))
    match m.body with
    | .dn _ => .error (.py .attributeError)
    | .sp s => do
      let es ← s.data.mapM (ppmiEntry positive rv cv n)
      lift (mkMtx (.sp { fmt := .csr, nr := s.nr, nc := s.nc, data := es }) m.rows m.cols)

end

/-! ### Token weights -/

/-- `tok.split('/')`. -/
def splitSlash : List Char → List (List Char)
  | [] => [[]]
  | c :: cs =>
    if c = '/' then [] :: splitSlash cs
    else match splitSlash cs with
      | [] => [[c]]
      | p :: ps => (c :: p) :: ps

/-- `'/'.join(parts)`. -/
def joinSlash : List (List Char) → List Char
  | [] => []
  | [p] => p
  | p :: ps => p ++ '/' :: joinSlash ps

/-- The type of a token string: `mxcalc.py:516`. -/
def tokenType (tokenFormat : String) (tok : List Char) : List Char :=
  if tokenFormat = "lemma/pos" then joinSlash ((splitSlash tok).take 2) else (splitSlash tok).headD []

section
variable {ν : Type} [MulZeroOneClass ν] [DecidableEq ν] [AllClose ν]

/-- `sp.csr_matrix(dense)`: stores the non-zero elements. -/
def toCsr (d : Dn ν) : Sp ν :=
  { fmt := .csr, nr := d.nr, nc := d.nc
    data := (((List.range d.nr).product (List.range d.nc)).map (fun p => (p, d.elem p.1 p.2))).filter (fun e => e.2 ≠ 0) }

/-- `matrix.astype(np.bool)` or `matrix.astype(dtype)`, one element: `mxcalc.py:508-509`.  (`np.bool` exists in NumPy
before 1.24 and from 2.0 on.) -/
def mask (booleanize : Bool) (x : ν) : ν := if booleanize then (if x = 0 then 0 else 1) else x

/-- The loop of `compute_token_weights`: `mxcalc.py:511-522`; `typeOf` gives the type of a token string. -/
def weightElem (typeOf : κ → κ) (booleanize : Bool) (tokens types : List κ) (t w : Sp ν) (i j : Nat) : ν :=
  match tokens[i]? with
  | none => 0
  | some tok =>
    if typeOf tok ∈ types then mask booleanize (t.val i j) * w.val (types.idxOf (typeOf tok)) j else 0

/-- `compute_token_weights`: `mxcalc.py:462-529`.  Dense arrays have no `toarray`. -/
def computeTokenWeights (typeOf : κ → κ) (tc tw : Mtx κ ν) (booleanize : Bool := true) : Except Err (Mtx κ ν) :=
  if tc.cols ≠ tw.cols then .error (.py .valueError)
  else match tc.body, tw.body with
    | .sp t, .sp w =>
      lift (mkMtx (.sp (toCsr { nr := t.nr, nc := t.nc, elem := weightElem typeOf booleanize tc.rows tw.rows t w }))
        tc.rows tc.cols)
    | _, _ => .error (.py .attributeError)

end

/-! ### Token vectors -/

noncomputable section
open Classical

/-- `left.dot(right)` of two arrays whose inner sizes agree, one element. -/
def dotElem (l r : Body ℝ) (i k : Nat) : ℝ := ((List.range l.nc).map (fun j => l.val i j * r.val j k)).sum

/-- Is it an instance of `sp.csr_matrix`? -/
def isCsrBody : Body ℝ → Bool
  | .sp s => decide (s.fmt = .csr)
  | .dn _ => false

/-- `dot_addition`: `mxcalc.py:602-607`. -/
def dotAddition (l r : Body ℝ) : Except Err (Dn ℝ) :=
  if isCsrBody l = true ∧ isCsrBody r = true then .ok { nr := l.nr, nc := r.nc, elem := dotElem l r }
  else .error (.py .assertionError)

/-- Inner loop of `dot_multiplication`: `mxcalc.py:617-620`. -/
def mulStep (l r : Body ℝ) (i k : Nat) (acc : ℝ) (j : Nat) : ℝ :=
  if l.val i j = 0 ∨ r.val j k ≠ 0 then acc else acc * (l.val i j * r.val j k)

/-- Can the array be subscripted? -/
def subscriptable : Body ℝ → Bool
  | .sp s => decide (s.fmt ≠ .coo)
  | .dn _ => true

/-- `dot_multiplication`: `mxcalc.py:610-621`.  A coo matrix cannot be subscripted (for empty loops that would not
matter; this is left out). -/
def dotMultiplication (l r : Body ℝ) : Except Err (Dn ℝ) :=
  if subscriptable l = true ∧ subscriptable r = true then
    .ok { nr := l.nr, nc := r.nc, elem := fun i k => (List.range l.nc).foldl (mulStep l r i k) 1 }
  else .error (.py .typeError)

/-- The largest float, which `np.nan_to_num` puts for infinity. -/
def maxFloat : ℝ := (2 - 1 / 2 ^ 52) * 2 ^ 1023

/-- `np.nan_to_num(x / y)`: 0/0 is nan, x/0 is an infinity. -/
def nanToNumDiv (x y : ℝ) : ℝ := if y = 0 then (if x = 0 then 0 else if 0 < x then maxFloat else -maxFloat) else x / y

/-- `left.sum(axis=1)`, one element. -/
def rowTotal (l : Body ℝ) (i : Nat) : ℝ := ((List.range l.nc).map (fun j => l.val i j)).sum

/-- The branch for `operation='weightedmean'`: `mxcalc.py:582-586`, for sparse arrays. -/
def weightedMean (l r : Body ℝ) : Except Err (Dn ℝ) :=
  match l, r with
  | .sp _, .sp _ => .ok { nr := l.nr, nc := r.nc, elem := fun i k => nanToNumDiv (dotElem l r i k) (rowTotal l i) }
  | _, _ => .error (.py .unmodelled)

/-- The values of `operation`; anything else is refused. -/
inductive Oper where
  | addition | weightedmean | multiplication | other
  deriving DecidableEq, Repr

/-- The values of `normalization`; `sklearn.preprocessing.normalize` refuses anything but l1, l2 and max ('max' is left
out). -/
inductive Norm where
  | no | l1 | l2 | other
  deriving DecidableEq, Repr

/-- The norm of a row, by which `preprocessing.normalize` divides it unless it is 0. -/
def rowNorm (norm : Norm) (s : Sp ℝ) (i : Nat) : ℝ :=
  match norm with
  | .l2 => Real.sqrt (((List.range s.nc).map (fun k => s.val i k ^ 2)).sum)
  | _ => ((List.range s.nc).map (fun k => |s.val i k|)).sum

/-- `preprocessing.normalize(csr, norm)`. -/
def normalize (norm : Norm) (s : Sp ℝ) : Except Err (Sp ℝ) :=
  match norm with
  | .other => .error (.py .valueError)
  | .no => .ok s
  | _ => .ok { s with data := s.data.map (fun e =>
      (e.1, if rowNorm norm s e.1.1 = 0 then e.2 else e.2 / rowNorm norm s e.1.1)) }

/-- The array of the second-order matrix with its rows in the order of the contexts: `mxcalc.py:560-576`. -/
def alignRows (ctx : List κ) (so : Mtx κ ℝ) : Except Err (Body ℝ) :=
  if (∀ c ∈ ctx, c ∈ so.rows) ∧ (∀ c ∈ so.rows, c ∈ ctx) then
    if ctx = so.rows then .ok so.body
    else do
      let u ← lift (reorderRows so ctx)
      .ok u.body
  else .error (.py .valueError)

/-- The branches on `operation`: `mxcalc.py:578-592`. -/
def product (op : Oper) (l r : Body ℝ) : Except Err (Dn ℝ) :=
  match op with
  | .addition => dotAddition l r
  | .weightedmean => weightedMean l r
  | .multiplication => dotMultiplication l r
  | .other => .error (.py .valueError)

/-- `compute_token_vectors`: `mxcalc.py:532-599`. -/
def computeTokenVectors (tc so : Mtx κ ℝ) (op : Oper := .addition) (norm : Norm := .l1) : Except Err (Mtx κ ℝ) := do
  let right ← alignRows tc.cols so
  let prod ← product op tc.body right
  let s ← normalize norm (toCsr prod)
  lift (mkMtx (.sp s) tc.rows so.cols)

/-! ### Cosine similarity -/

/-- Scalar product of rows `a` and `b`. -/
def rowDot (x : Body ℝ) (a b : Nat) : ℝ := ((List.range x.nc).map (fun j => x.val a j * x.val b j)).sum

/-- `sklearn.metrics.pairwise.cosine_similarity`, one element: rows are divided by their Euclidean norm unless that is
0, and multiplied. -/
def cosElem (x : Body ℝ) (a b : Nat) : ℝ :=
  if rowDot x a a = 0 ∨ rowDot x b b = 0 then 0 else rowDot x a b / (Real.sqrt (rowDot x a a) * Real.sqrt (rowDot x b b))

/-- The array `measmx` for an axis: `mxcalc.py:407-414`. -/
def transposeBody : Body ℝ → Body ℝ
  | .sp s => .sp s.transpose
  | .dn d => .dn { nr := d.nc, nc := d.nr, elem := fun i j => d.elem j i }

/-- The similarity array with ones on the diagonal: `mxcalc.py:418-423`. -/
def cosDn (x : Body ℝ) : Dn ℝ :=
  { nr := x.nr, nc := x.nr, elem := fun a b => if a = b then 1 else cosElem x a b }

/-- `cosine_similarity(measmx)` and the matrix around it, `mxcalc.py:416-427`: scikit-learn refuses arrays without rows
or columns. -/
def cosinesOf (x : Body ℝ) (items : List κ) : Except Err (Mtx κ ℝ) :=
  if x.nr = 0 ∨ x.nc = 0 then .error (.py .valueError) else lift (mkMtx (.dn (cosDn x)) items items)

/-- `compute_cosine`: `mxcalc.py:398-427`; `axis` is the argument, anything but 0 and 1 is refused. -/
def computeCosine (m : Mtx κ ℝ) (axis : Int := 0) : Except Err (Mtx κ ℝ) :=
  if axis = 0 then cosinesOf m.body m.rows
  else if axis = 1 then cosinesOf (transposeBody m.body) m.cols
  else .error (.py .valueError)

end

end Verif.Assoc
