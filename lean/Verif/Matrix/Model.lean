import Verif.Matrix.Sparse
import Verif.Py.Sort
import Mathlib.Data.List.Dedup
import Mathlib.Data.Rat.Floor

/-!
# Model of `core/matrix.py` (`TypeTokenMatrix` and its behaviours) and `specutils/mxutils.py`

Row and column items are values of a linearly ordered type `κ` (Python strings).
-/

namespace Verif.Matrix
open Verif.Py

variable {κ ν : Type} [LinearOrder κ]

/-! ### Number types and `np.array(..., dtype=type(data[0]))` -/

/-- What NumPy does to the index and data lists of `transform_dict_to_spmatrix` when they are made arrays of the
type of the first value (`/repo/nephosem/specutils/mxutils.py:76-92`): the index `n` becomes `idx v n`, the value
`w` becomes `cast v w`; `add` is the addition of that type. -/
class NPVal (ν : Type) where
  idx : ν → Nat → Nat
  cast : ν → ν → ν
  add : ν → ν → ν

/-- Python integers: nothing is changed (64-bit overflow is not modelled). -/
instance : NPVal Int := { idx := fun _ n => n, cast := fun _ w => w, add := fun a b => a + b }

/-- A Python or NumPy number with its type.  Floats are idealised as rationals. -/
inductive PyNum where
  | b (x : Bool)
  | i (z : Int)
  | f (q : ℚ)
  deriving DecidableEq, Repr

/-- The numeric value. -/
def PyNum.toRat : PyNum → ℚ
  | .b x => if x then 1 else 0
  | .i z => z
  | .f q => q

/-- Truncation towards zero, `int(q)`. -/
def truncRat (q : ℚ) : Int := q.num.tdiv q.den

/-- Casting an index list and a data list to the type of a value; casting an index list to `bool` turns every
index above 0 into 1. -/
instance : NPVal PyNum where
  idx v n := match v with
    | .b _ => if n = 0 then 0 else 1
    | _ => n
  cast v w := match v with
    | .b _ => .b (w.toRat ≠ 0)
    | .i _ => .i (truncRat w.toRat)
    | .f _ => .f w.toRat
  add v w := match v with
    | .b x => .b (x || w.toRat ≠ 0)
    | .i z => .i (z + truncRat w.toRat)
    | .f q => .f (q + w.toRat)

/-! ### Item lists -/

/-- `{e: i for i, e in enumerate(items)}`: `/repo/nephosem/core/matrix.py:714-741`,
`/repo/nephosem/specutils/mxutils.py:57-58`. For a repeated item the last index wins. -/
def idOf (items : List κ) : Dict κ Nat := Dict.ofPairs (items.zipIdx)

/-- `sorted(set(a) | set(b))`: `/repo/nephosem/core/matrix.py:393-394`,
`/repo/nephosem/specutils/mxutils.py:203`. -/
def sortedUnion (a b : List κ) : List κ := sortedBy id (a ++ b).dedup

/-! ### Dict of dicts and sparse matrices -/

/-- The triples in the order of the loops, `/repo/nephosem/specutils/mxutils.py:67-71`. -/
def dictEntries (d : Dict κ (Dict κ ν)) : List (κ × κ × ν) :=
  (sortedBy Prod.fst d).flatMap (fun rv => (sortedBy Prod.fst rv.2).map (fun cv => (rv.1, cv.1, cv.2)))

/-- `item2rowid[rowitem]`, `item2colid[colitem]`: `KeyError` for unknown items. -/
def locate (rid cid : Dict κ Nat) (e : κ × κ × ν) : Except Err ((Nat × Nat) × ν) :=
  match rid.get? e.1, cid.get? e.2.1 with
  | some i, some j => .ok ((i, j), e.2.2)
  | _, _ => .error .keyError

/-- `transform_dict_to_spmatrix`: `/repo/nephosem/specutils/mxutils.py:37-98`. -/
def dictToSp [NPVal ν] (d : Dict κ (Dict κ ν)) (rows cols : List κ) : Except Err (Sp ν) := do
  let rid := idOf rows
  let cid := idOf cols
  let es ← (dictEntries d).mapM (locate rid cid)
  match es with
  | [] => .error .valueError
  | e0 :: _ =>
    .ok { fmt := .csr, nr := rid.keys.length, nc := cid.keys.length
          data := cooSum NPVal.add (es.map (fun e =>
            ((NPVal.idx e0.2 e.1.1, NPVal.idx e0.2 e.1.2), NPVal.cast e0.2 e.2))) }

/-- Loop body of `transform_spmatrix_to_dict`: `/repo/nephosem/specutils/mxutils.py:124-130`; `IndexError` if an
item list is too short. -/
def putEntry (rows cols : List κ) (d : Dict κ (Dict κ ν)) (e : (Nat × Nat) × ν) : Except Err (Dict κ (Dict κ ν)) :=
  match rows[e.1.1]?, cols[e.1.2]? with
  | some r, some c => .ok (d.set r (((d.get? r).getD []).set c e.2))
  | _, _ => .error .indexError

/-- `transform_spmatrix_to_dict`: `/repo/nephosem/specutils/mxutils.py:101-132`. -/
def spToDict (s : Sp ν) (rows cols : List κ) : Except Err (Dict κ (Dict κ ν)) :=
  s.data.foldlM (putEntry rows cols) []

/-! ### `TypeTokenMatrix` -/

/-- `/repo/nephosem/core/matrix.py:647-700`: the array and the item lists.  Meta data (the name-to-index caches,
which every derived object recomputes because `**kwargs` is ignored by the constructor, lines 671-700) is left
out. -/
structure Mtx (κ ν : Type) where
  body : Body ν
  rows : List κ
  cols : List κ

/-- The constructor: `/repo/nephosem/core/matrix.py:671-700`. -/
def mkMtx [AllClose ν] (b : Body ν) (rows cols : List κ) : Except Err (Mtx κ ν) :=
  if b.nr ≠ rows.length then .error .valueError
  else if b.nc ≠ cols.length then .error .valueError
  else match b with
    | .sp s => .ok ⟨.sp s, rows, cols⟩
    | .dn d => if d.symmetric ∧ rows ≠ cols then .error .valueError else .ok ⟨.dn d, rows, cols⟩

/-- `mtx[row_item, col_item]`: `/repo/nephosem/core/matrix.py:766-802, 162-179`. A coo matrix is not
subscriptable. -/
def getValue [Zero ν] (m : Mtx κ ν) (r c : κ) : Except Err ν :=
  match (idOf m.rows).get? r, (idOf m.cols).get? c with
  | some i, some j => match m.body with
    | .sp s => if s.fmt = .coo then .error .typeError else .ok (s.val i j)
    | .dn d => .ok (d.elem i j)
  | _, _ => .error .keyError

/-- The requested items that exist, with their indices: `/repo/nephosem/core/matrix.py:913-916, 925-928`. -/
def request (items : List κ) (req : List κ) : List κ × List Nat :=
  let sub := req.filter (fun e => (idOf items).contains e)
  (sub, sub.filterMap (fun e => (idOf items).get? e))

/-- `NormalMatrix.submatrix` and, with both index lists, `SquareMatrix.submatrix`:
`/repo/nephosem/core/matrix.py:492-513, 596-611`. -/
def Dn.sub (d : Dn ν) (ri ci : Option (List Nat)) : Dn ν :=
  { nr := (ri.map List.length).getD d.nr
    nc := (ci.map List.length).getD d.nc
    elem := fun i j => d.elem ((ri.map (fun l => l.getD i 0)).getD i) ((ci.map (fun l => l.getD j 0)).getD j) }

/-- `_mxbehavior.submatrix`: `/repo/nephosem/core/matrix.py:260-293, 492-513, 596-611`.  For a square matrix a missing
index list gives an array of three or four dimensions, which the constructor rejects unless the matrix is
1 x 1; that last case is not modelled. -/
def bodySub [AllClose ν] (b : Body ν) (ri ci : Option (List Nat)) : Except Err (Body ν) :=
  match b with
  | .sp s =>
    match ri, ci with
    | none, none => .ok (.sp s)
    | _, _ =>
      if s.fmt = .coo then .error .typeError
      else
        let s := match ri with | some l => s.rowsAt l | none => s
        let s := match ci with | some l => s.colsAt l | none => s
        .ok (.sp s)
  | .dn d =>
    if d.symmetric then
      match ri, ci with
      | some _, some _ => .ok (.dn (d.sub ri ci))
      | _, _ => if d.nr = 1 then .error .unmodelled else .error .valueError
    else
      match ri, ci with
      | none, none => .error .valueError
      | _, _ => .ok (.dn (d.sub ri ci))

/-- `submatrix`: `/repo/nephosem/core/matrix.py:872-943`; `none` for Python's `None`. -/
def submatrix [AllClose ν] (m : Mtx κ ν) (row col : Option (List κ)) : Except Err (Option (Mtx κ ν)) :=
  let rq := row.map (request m.rows)
  let cq := col.map (request m.cols)
  if rq.any (fun q => q.1.isEmpty) then .ok none
  else if cq.any (fun q => q.1.isEmpty) then .ok none
  else do
    let b ← bodySub m.body (rq.map Prod.snd) (cq.map Prod.snd)
    let res ← mkMtx b ((rq.map Prod.fst).getD m.rows) ((cq.map Prod.fst).getD m.cols)
    .ok (some res)

/-- `np.array([item2id[e] for e in item_list])`: `/repo/nephosem/core/matrix.py:1023-1025`; an empty list gives a
float array, which is not a valid index. -/
def indexList (items req : List κ) : Except Err (List Nat) := do
  let l ← req.mapM (getKey (idOf items))
  if l.isEmpty then .error .indexError else .ok l

/-- `_mxbehavior.reorder` for rows: `/repo/nephosem/core/matrix.py:126-146, 296-306, 480-490, 593-594`. -/
def bodyRows [AllClose ν] (b : Body ν) (idx : List Nat) : Except Err (Body ν) :=
  match b with
  | .sp s => if s.fmt = .coo then .error .typeError else .ok (.sp (s.rowsAt idx))
  | .dn d => if d.symmetric then .error .notImplemented else .ok (.dn (d.sub (some idx) none))

/-- `_mxbehavior.reorder` for columns. -/
def bodyCols [AllClose ν] (b : Body ν) (idx : List Nat) : Except Err (Body ν) :=
  match b with
  | .sp s => if s.fmt = .coo then .error .typeError else .ok (.sp (s.colsAt idx))
  | .dn d => if d.symmetric then .error .notImplemented else .ok (.dn (d.sub none (some idx)))

/-- `reorder(item_list, axis=0)`: `/repo/nephosem/core/matrix.py:1001-1037`. -/
def reorderRows [AllClose ν] (m : Mtx κ ν) (items : List κ) : Except Err (Mtx κ ν) := do
  let idx ← indexList m.rows items
  let b ← bodyRows m.body idx
  mkMtx b items m.cols

/-- `reorder(item_list, axis=1)`. -/
def reorderCols [AllClose ν] (m : Mtx κ ν) (items : List κ) : Except Err (Mtx κ ν) := do
  let idx ← indexList m.cols items
  let b ← bodyCols m.body idx
  mkMtx b m.rows items

/-- `transpose`: `/repo/nephosem/core/matrix.py:1225-1227, 433-434, 536-537, 619-620`. -/
def transpose [AllClose ν] (m : Mtx κ ν) : Except Err (Mtx κ ν) :=
  match m.body with
  | .sp s => mkMtx (.sp s.transpose) m.cols m.rows
  | .dn d => if d.symmetric then .error .notImplemented
             else mkMtx (.dn { nr := d.nc, nc := d.nr, elem := fun i j => d.elem j i }) m.cols m.rows

/-- `_mxbehavior.concatenate(axis=0)`: `/repo/nephosem/core/matrix.py:418-431, 521-533, 616-617`.  Concatenating a
sparse with a dense matrix is not modelled. -/
def bodyVcat [AllClose ν] (a b : Body ν) : Except Err (Body ν) :=
  match a, b with
  | .sp s, .sp t => (s.vstack t).map .sp
  | .dn d, .dn e =>
    if d.symmetric then .error .notImplemented
    else if d.nc = e.nc then
      .ok (.dn { nr := d.nr + e.nr, nc := d.nc
                 elem := fun i j => if i < d.nr then d.elem i j else e.elem (i - d.nr) j })
    else .error .valueError
  | _, _ => .error .unmodelled

/-- `_mxbehavior.concatenate(axis=1)`. -/
def bodyHcat [AllClose ν] (a b : Body ν) : Except Err (Body ν) :=
  match a, b with
  | .sp s, .sp t => (s.hstack t).map .sp
  | .dn d, .dn e =>
    if d.symmetric then .error .notImplemented
    else if d.nr = e.nr then
      .ok (.dn { nr := d.nr, nc := d.nc + e.nc
                 elem := fun i j => if j < d.nc then d.elem i j else e.elem i (j - d.nc) })
    else .error .valueError
  | _, _ => .error .unmodelled

/-- `concatenate(targetmx, axis=0)`: `/repo/nephosem/core/matrix.py:1199-1223`. -/
def concatRows [AllClose ν] (m t : Mtx κ ν) : Except Err (Mtx κ ν) := do
  let b ← bodyVcat m.body t.body
  if m.cols ≠ t.cols then .error .assertionError
  else mkMtx b (m.rows ++ t.rows) m.cols

/-- `concatenate(targetmx, axis=1)`. -/
def concatCols [AllClose ν] (m t : Mtx κ ν) : Except Err (Mtx κ ν) := do
  let b ← bodyHcat m.body t.body
  if m.rows ≠ t.rows then .error .assertionError
  else mkMtx b m.rows (m.cols ++ t.cols)

/-! ### Merging -/

/-- `transform_indices`: `/repo/nephosem/specutils/mxutils.py:212-220`.  It reads `indices` and `indptr` as those of
a csr matrix.  For a csc matrix these hold row numbers and column boundaries, so the rebuilt matrix is the
transposed one, provided the shape happens to be square; a coo matrix has no such attributes. -/
def transformIndices (s : Sp ν) (cols new : List κ) : Except Err (Sp ν) := do
  let glb := idOf new
  let sub ← cols.mapM (getKey glb)
  match s.fmt with
  | .csr =>
    let es ← s.data.mapM (fun e => (getIdx sub e.1.2).map (fun k => ((e.1.1, k), e.2)))
    .ok { fmt := .csr, nr := s.nr, nc := new.length, data := es }
  | .csc =>
    let es ← s.data.mapM (fun e => (getIdx sub e.1.1).map (fun k => ((e.1.2, k), e.2)))
    if s.nc = s.nr then .ok { fmt := .csr, nr := s.nr, nc := new.length, data := es }
    else .error .valueError
  | .coo => .error .attributeError

/-- `merge_two_matrices`: `/repo/nephosem/specutils/mxutils.py:170-209`.  Dense matrices have no `indices`; adding a
sparse and a dense matrix is not modelled. -/
def mergeTwo [Add ν] [Zero ν] [DecidableEq ν] [AllClose ν] (m t : Mtx κ ν) : Except Err (Mtx κ ν) :=
  if m.rows = t.rows ∧ m.cols = t.cols then
    match m.body, t.body with
    | .sp a, .sp b => do
      let s ← a.add b
      mkMtx (.sp s) m.rows m.cols
    | .dn a, .dn b =>
      mkMtx (.dn { nr := a.nr, nc := a.nc, elem := fun i j => a.elem i j + b.elem i j }) m.rows m.cols
    | _, _ => .error .unmodelled
  else if m.rows ≠ t.rows then .error .notImplemented
  else
    let cols := sortedUnion m.cols t.cols
    match m.body, t.body with
    | .sp a, .sp b => do
      let a' ← transformIndices a m.cols cols
      let b' ← transformIndices b t.cols cols
      let s ← a'.add b'
      mkMtx (.sp s) m.rows cols
    | _, _ => .error .attributeError

/-- Inner loop body of `mergeDict`: add one value at row `r`. -/
def addEntry [Add ν] [Zero ν] (r : κ) (d : Dict κ (Dict κ ν)) (cv : κ × ν) : Dict κ (Dict κ ν) :=
  let row := (d.get? r).getD []
  d.set r (row.set cv.1 ((row.get? cv.1).getD 0 + cv.2))

/-- Outer loop body of `mergeDict`. -/
def addRow [Add ν] [Zero ν] (d : Dict κ (Dict κ ν)) (rv : κ × Dict κ ν) : Dict κ (Dict κ ν) :=
  rv.2.foldl (addEntry rv.1) (if d.contains rv.1 then d else d.set rv.1 [])

/-- Adding one nested dict into another: `/repo/nephosem/core/matrix.py:399-416` and
`/repo/nephosem/specutils/mxutils.py:273-290`.  (`matrix.update(matrix1)` shares the inner dicts of `matrix1`, which
are temporary.) -/
def mergeDict [Add ν] [Zero ν] (a b : Dict κ (Dict κ ν)) : Dict κ (Dict κ ν) := b.foldl addRow a

/-- `TypeTokenMatrix.merge`: `/repo/nephosem/core/matrix.py:1186-1197, 374-397`. -/
def mergeByName [Add ν] [Zero ν] [NPVal ν] [AllClose ν] (m t : Mtx κ ν) : Except Err (Mtx κ ν) :=
  match m.body, t.body with
  | .sp a, .sp b => do
    let d1 ← spToDict a m.rows m.cols
    let d2 ← spToDict b t.rows t.cols
    let rows := sortedUnion m.rows t.rows
    let cols := sortedUnion m.cols t.cols
    let s ← dictToSp (mergeDict d1 d2) rows cols
    mkMtx (.sp s) rows cols
  | .dn _, _ => .error .notImplemented
  | _, _ => .error .attributeError

/-- The array of a sparse matrix (`merge_matrices` on dense matrices is not modelled). -/
def spOf (m : Mtx κ ν) : Except Err (Sp ν) := match m.body with
  | .sp s => .ok s
  | .dn _ => .error .unmodelled

/-- `spmx += matrices[i].matrix`. -/
def addMtx [Add ν] [Zero ν] [DecidableEq ν] (s : Sp ν) (t : Mtx κ ν) : Except Err (Sp ν) := do
  let t' ← spOf t
  s.add t'

/-- `transform_spmatrix_to_dict(mx.matrix, mx.row_items, mx.col_items)`. -/
def mtxToDict (t : Mtx κ ν) : Except Err (Dict κ (Dict κ ν)) := do
  let s ← spOf t
  spToDict s t.rows t.cols

/-- `merge_matrices`: `/repo/nephosem/specutils/mxutils.py:223-290`, for sparse matrices; `none` for the empty list
(which is handed back). -/
def mergeAll [Add ν] [Zero ν] [DecidableEq ν] [NPVal ν] (ms : List (Mtx κ ν)) :
    Except Err (Option (Sp ν × List κ × List κ)) :=
  match ms with
  | [] => .ok none
  | [m] => do
    let s ← spOf m
    .ok (some (s, m.rows, m.cols))
  | m :: rest =>
    if rest.all (fun t => decide (t.rows = m.rows) && decide (t.cols = m.cols)) then do
      let s ← spOf m
      let u ← rest.foldlM addMtx s
      .ok (some (u, m.rows, m.cols))
    else do
      let ds ← (m :: rest).mapM mtxToDict
      let rows := sortedBy id ((m :: rest).flatMap (fun t => t.rows)).dedup
      let cols := sortedBy id ((m :: rest).flatMap (fun t => t.cols)).dedup
      let u ← dictToSp (ds.foldl mergeDict []) rows cols
      .ok (some (u, rows, cols))

/-! ### Comparisons and multiplication of sparse matrices -/

/-- Comparison operators. -/
inductive Op where
  | lt | le | gt | ge
  deriving DecidableEq, Repr

def Op.holds [LinearOrder ν] : Op → ν → ν → Bool
  | .lt, a, b => decide (a < b)
  | .le, a, b => decide (a ≤ b)
  | .gt, a, b => decide (b < a)
  | .ge, a, b => decide (b ≤ a)

/-- `SparseMatrix.__lt__` etc.: `/repo/nephosem/core/matrix.py:209-258`.  Either branch compares the stored entries
only: SciPy's own comparison does so when the scalar does not satisfy `0 op scalar`, which is when the source uses
it.  SciPy refuses `<= 0` and `>= 0`.  The result is a boolean matrix that stores the true entries. -/
def Sp.cmp [Zero ν] [LinearOrder ν] (s : Sp ν) (op : Op) (k : ν) : Except Err (Sp Bool) :=
  let direct : Bool := match op with | .lt => decide (k ≤ 0) | .le => decide (k ≤ 0) | .gt => decide (0 ≤ k) | .ge => decide (0 ≤ k)
  if direct = true ∧ k = 0 ∧ (op = .le ∨ op = .ge) then .error .notImplemented
  else .ok { fmt := if direct = true ∧ s.fmt ≠ .coo then s.fmt else .csr
             nr := s.nr, nc := s.nc
             data := (s.data.filter (fun e => op.holds e.2 k)).map (fun e => (e.1, true)) }

/-- A boolean matrix used as a factor: `True` counts as 1. -/
def Sp.ofBool [Zero ν] [One ν] (s : Sp Bool) : Sp ν :=
  { fmt := s.fmt, nr := s.nr, nc := s.nc, data := s.data.map (fun e => (e.1, if e.2 then 1 else 0)) }

/-- `SparseMatrix.multiply`: `/repo/nephosem/core/matrix.py:181-207`. -/
def Sp.multiply [Mul ν] [Zero ν] [DecidableEq ν] (s t : Sp ν) : Except Err (Sp ν) :=
  if s.data.values.any (fun v => v = 0) then
    .ok { fmt := .csr, nr := s.nr, nc := s.nc
          data := s.data.filter (fun e => t.data.contains e.1) }
  else s.elmul t

/-- `m.multiply(m op k)`: `/repo/nephosem/core/matrix.py:804-831`.  Only for sparse matrices. -/
def threshold [Mul ν] [One ν] [Zero ν] [LinearOrder ν] [AllClose ν] (m : Mtx κ ν) (op : Op) (k : ν) :
    Except Err (Mtx κ ν) :=
  match m.body with
  | .sp s => do
    let b ← s.cmp op k
    let u ← s.multiply b.ofBool
    mkMtx (.sp u) m.rows m.cols
  | .dn _ => .error .unmodelled

/-! ### Empty rows -/

/-- `SparseMatrix.empty_rows`: `/repo/nephosem/core/matrix.py:324-350, 72-79`. -/
def Sp.emptyRows [Zero ν] [DecidableEq ν] (s : Sp ν) (explicit : Bool) : List Nat :=
  (List.range s.nr).filter (fun i =>
    if explicit then s.data.all (fun e => e.1.1 ≠ i)
    else (List.range s.nc).all (fun j => s.val i j = 0))

/-- `drop_empty_rows`: `/repo/nephosem/core/matrix.py:1165-1180, 1086-1104`.  Dense matrices raise. -/
def dropEmptyRows [Zero ν] [DecidableEq ν] [AllClose ν] (m : Mtx κ ν) (explicit : Bool := false) :
    Except Err (Option (Mtx κ ν)) :=
  match m.body with
  | .sp s =>
    let emptyItems := (s.emptyRows explicit).filterMap (fun i => m.rows[i]?)
    if emptyItems.isEmpty then .ok (some m)
    else submatrix m (some (m.rows.filter (fun e => e ∉ emptyItems))) none
  | .dn d => if d.symmetric then .error .attributeError else .error .notImplemented

/-- `drop_empty`: `/repo/nephosem/core/matrix.py:1106-1124`; `None` has no method `transpose`. -/
def dropEmpty [Zero ν] [DecidableEq ν] [AllClose ν] (m : Mtx κ ν) (axis1 : Bool) (explicit : Bool := false) :
    Except Err (Option (Mtx κ ν)) :=
  if !axis1 then dropEmptyRows m explicit
  else do
    let t ← transpose m
    match ← dropEmptyRows t explicit with
    | none => .error .attributeError
    | some d => do
      let r ← transpose d
      .ok (some r)

/-- `drop(axis=0, n_nonzero)`: `/repo/nephosem/core/matrix.py:1126-1163`.  With a single row the squeezed count is a
scalar, and subscripting it fails. -/
def dropRows [Zero ν] [DecidableEq ν] [AllClose ν] (m : Mtx κ ν) (n : Int) : Except Err (Option (Mtx κ ν)) :=
  match m.body with
  | .sp s =>
    if s.nr = 1 then .error .indexError
    else
      let count (i : Nat) : Int := ((List.range s.nc).filter (fun j => s.val i j ≠ 0)).length
      submatrix m (some (m.rows.zipIdx.filterMap (fun p => if count p.2 > n then some p.1 else none))) none
  | .dn _ => .error .notImplemented

/-- `drop(axis=1, n_nonzero)`. -/
def dropCols [Zero ν] [DecidableEq ν] [AllClose ν] (m : Mtx κ ν) (n : Int) : Except Err (Option (Mtx κ ν)) :=
  match m.body with
  | .sp s =>
    if s.nc = 1 then .error .indexError
    else
      let count (j : Nat) : Int := ((List.range s.nr).filter (fun i => s.val i j ≠ 0)).length
      submatrix m none (some (m.cols.zipIdx.filterMap (fun p => if count p.2 > n then some p.1 else none)))
  | .dn _ => .error .notImplemented

/-! ### Sums -/

/-- `sum()`: `/repo/nephosem/core/matrix.py:864-865`. -/
def total [AddCommMonoid ν] (m : Mtx κ ν) : ν :=
  ((List.range m.body.nr).map (fun i => ((List.range m.body.nc).map (fun j => m.body.val i j)).sum)).sum

/-- `sum(axis=1)`: `/repo/nephosem/core/matrix.py:866-870`.  With a single row the squeezed array is a scalar and
`zip` fails. -/
def rowSums [AddCommMonoid ν] (m : Mtx κ ν) : Except Err (Dict κ ν) :=
  let sums := (List.range m.body.nr).map (fun i => ((List.range m.body.nc).map (fun j => m.body.val i j)).sum)
  if m.body.nr = 1 then .error .typeError else .ok (Dict.ofPairs (m.rows.zip sums))

/-- `sum(axis=0)`. -/
def colSums [AddCommMonoid ν] (m : Mtx κ ν) : Except Err (Dict κ ν) :=
  let sums := (List.range m.body.nc).map (fun j => ((List.range m.body.nr).map (fun i => m.body.val i j)).sum)
  if m.body.nc = 1 then .error .typeError else .ok (Dict.ofPairs (m.cols.zip sums))

/-! ### Token-by-context matrix -/

/-- One token for `transform_nodes_to_matrix`: its string and the strings of its left and right collocates. -/
structure Tok (κ : Type) where
  name : κ
  left : List κ
  right : List κ

/-- The dict of one token: `/repo/nephosem/specutils/mxutils.py:158-162`. -/
def tokRow (t : Tok κ) : Dict κ Int :=
  let cleft := Dict.ofPairs (t.left.zipIdx.map (fun p => (p.1, (p.2 : Int) - (t.left.length : Int))))
  let cright := Dict.ofPairs (t.right.zipIdx.map (fun p => (p.1, (p.2 : Int) + 1)))
  cleft.update cright

/-- `transform_nodes_to_matrix`: `/repo/nephosem/specutils/mxutils.py:135-167`.  The tokens of all type nodes are given
as one list.  `order` is the arbitrary order in which `list(col_collocs)` lists the set of collocates. -/
def nodesToMatrix (toks : List (Tok κ)) (order : List κ → List κ) : Except Err (Mtx κ Int) := do
  let d := Dict.ofPairs (toks.map (fun t => (t.name, tokRow t)))
  let cols := order (toks.flatMap (fun t => (tokRow t).keys)).dedup
  let s ← dictToSp d d.keys cols
  mkMtx (.sp s) d.keys cols

end Verif.Matrix
