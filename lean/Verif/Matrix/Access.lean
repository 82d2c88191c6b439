import Verif.Matrix.Model

/-!
# Model of reading and showing a matrix: `mtx[...]`, `print_matrix`, `describe`
-/

namespace Verif.Matrix
open Verif.Py

variable {κ ν : Type} [LinearOrder κ]

/-! ### Subscripts -/

/-- One subscript: an item name, a Python integer, a slice without a step (slices with a step are not modelled),
a list, or anything else (a NumPy integer, `None`, an array). -/
inductive Idx (κ : Type) where
  | name (k : κ)
  | pos (z : Int)
  | slice (a b : Option Int)
  | list
  | other
  deriving DecidableEq, Repr

/-- What stands between the brackets: one subscript, a pair, or a tuple of another length. -/
inductive Arg (κ : Type) where
  | one (i : Idx κ)
  | pair (r c : Idx κ)
  | tuple (n : Nat)

/-- What comes back: a number, an array of one dimension, or an array of two (as the list of its rows; the number
of columns of an array without rows is left out). -/
inductive Arr (ν : Type) where
  | scalar (v : ν)
  | vec (l : List ν)
  | mat (l : List (List ν))
  deriving DecidableEq, Repr

/-- A subscript after the names have been looked up. -/
inductive Sub where
  | at (z : Int)
  | span (a b : Option Int)
  deriving DecidableEq, Repr

/-- One part of a pair: `/repo/nephosem/core/matrix.py:773-790`. -/
def subOf (ids : Dict κ Nat) (i : Idx κ) : Except Err Sub :=
  match i with
  | .name k => (getKey ids k).map (fun n => .at n)
  | .pos z => .ok (.at z)
  | .slice a b => .ok (.span a b)
  | .list => .error .valueError
  | .other => .error .valueError

/-- A single subscript: `/repo/nephosem/core/matrix.py:793-801`. -/
def soleOf (ids : Dict κ Nat) (i : Idx κ) : Except Err Sub :=
  match i with
  | .slice a b => .ok (.span a b)
  | .pos z => .ok (.at z)
  | .name k => (getKey ids k).map (fun n => .at n)
  | .list => .error .notImplemented
  | .other => .error .valueError

/-- An integer subscript on an axis of length `n` (NumPy and SciPy alike): negative numbers count from the end. -/
def axisAt (n : Nat) (z : Int) : Except Err Nat :=
  if 0 ≤ z then (if z < n then .ok z.toNat else .error .indexError)
  else (if 0 ≤ z + n then .ok (z + n).toNat else .error .indexError)

/-- One end of a slice, moved into `0..n`: `slice.indices(n)`. -/
def clampEnd (n : Nat) (z : Int) : Nat :=
  if z < 0 then (z + n).toNat else min z.toNat n

/-- The positions of a slice on an axis of length `n`: `range(*slice(a, b).indices(n))`. -/
def spanAt (n : Nat) (a b : Option Int) : List Nat :=
  let lo := (a.map (clampEnd n)).getD 0
  let hi := (b.map (clampEnd n)).getD n
  List.range' lo (hi - lo)

/-- `matrix[i, j]` of a NumPy array: an axis subscripted by an integer disappears. -/
def Dn.getPair (d : Dn ν) (i j : Sub) : Except Err (Arr ν) :=
  match i, j with
  | .at x, .at y => do
    let a ← axisAt d.nr x
    let b ← axisAt d.nc y
    .ok (.scalar (d.elem a b))
  | .at x, .span a b => do
    let r ← axisAt d.nr x
    .ok (.vec ((spanAt d.nc a b).map (d.elem r)))
  | .span a b, .at y => do
    let c ← axisAt d.nc y
    .ok (.vec ((spanAt d.nr a b).map (fun r => d.elem r c)))
  | .span a b, .span a' b' =>
    .ok (.mat ((spanAt d.nr a b).map (fun r => (spanAt d.nc a' b').map (d.elem r))))

/-- `matrix[i]` of a NumPy array of two dimensions. -/
def Dn.getSole (d : Dn ν) (i : Sub) : Except Err (Arr ν) :=
  match i with
  | .at x => do
    let r ← axisAt d.nr x
    .ok (.vec ((List.range d.nc).map (d.elem r)))
  | .span a b => .ok (.mat ((spanAt d.nr a b).map (fun r => (List.range d.nc).map (d.elem r))))

/-- The rows and columns that a subscript of a SciPy matrix selects, as positions; SciPy keeps both dimensions. -/
def subAt (n : Nat) (i : Sub) : Except Err (List Nat) :=
  match i with
  | .at x => (axisAt n x).map (fun a => [a])
  | .span a b => .ok (spanAt n a b)

/-- `if len(val.shape) > 1 and val.shape[0] == 1: val = val[0]`: `/repo/nephosem/core/matrix.py:177-178`. -/
def dropRow (l : List (List ν)) : Arr ν :=
  match l with
  | [r] => .vec r
  | _ => .mat l

/-- `SparseMatrix._get_value` with a pair: `/repo/nephosem/core/matrix.py:160-179`. Two integers give a number,
everything else a matrix, which is made an array; a coo matrix cannot be subscripted. -/
def Sp.getPair [Zero ν] (s : Sp ν) (i j : Sub) : Except Err (Arr ν) :=
  if s.fmt = .coo then .error .typeError
  else match i, j with
    | .at x, .at y => do
      let a ← axisAt s.nr x
      let b ← axisAt s.nc y
      .ok (.scalar (s.val a b))
    | i, j => do
      let rs ← subAt s.nr i
      let cs ← subAt s.nc j
      .ok (dropRow (rs.map (fun r => cs.map (s.val r))))

/-- `SparseMatrix._get_value` with a single subscript: `/repo/nephosem/core/matrix.py:160-179`. -/
def Sp.getSole [Zero ν] (s : Sp ν) (i : Sub) : Except Err (Arr ν) :=
  if s.fmt = .coo then .error .typeError
  else do
    let rs ← subAt s.nr i
    .ok (dropRow (rs.map (fun r => (List.range s.nc).map (s.val r))))

/-- `self._mxbehavior[arg]` with a pair: `/repo/nephosem/core/matrix.py:157-179, 459-463`. -/
def Body.getPair [Zero ν] (b : Body ν) (i j : Sub) : Except Err (Arr ν) :=
  match b with
  | .sp s => s.getPair i j
  | .dn d => d.getPair i j

/-- `self._mxbehavior[arg]` with a single subscript: `/repo/nephosem/core/matrix.py:157-179, 459-463`. -/
def Body.getSole [Zero ν] (b : Body ν) (i : Sub) : Except Err (Arr ν) :=
  match b with
  | .sp s => s.getSole i
  | .dn d => d.getSole i

/-- `mtx[arg]`: `/repo/nephosem/core/matrix.py:763-803`. -/
def getItem [Zero ν] (m : Mtx κ ν) (arg : Arg κ) : Except Err (Arr ν) :=
  match arg with
  | .pair r c => do
    let i ← subOf (idOf m.rows) r
    let j ← subOf (idOf m.cols) c
    m.body.getPair i j
  | .tuple _ => .error .valueError
  | .one r => do
    let i ← soleOf (idOf m.rows) r
    m.body.getSole i

/-! ### Showing a matrix -/

/-- The text of a cell of the printed table: an item, the shape, a formatted number, `NaN` or `...`.  `fmt` stands
for `'{:0.4f}'.format(v)` or `str(v)`. -/
inductive Cell (κ ν : Type) where
  | shape (nr nc : Nat)
  | item (k : κ)
  | num (v : ν)
  | nan
  | dots
  deriving DecidableEq, Repr

/-- `min(n, size) if n else size`: `/repo/nephosem/core/matrix.py:1457-1458`; `None` and 0 mean everything. -/
def shownCount (n : Option Int) (size : Nat) : Int :=
  match n with
  | none => size
  | some z => if z = 0 then size else min z size

/-- `l[:n]`. -/
def upTo {α : Type} (l : List α) (n : Int) : List α := l.take (clampEnd l.length n)

/-- `content[i][j+1] = val`: `/repo/nephosem/core/matrix.py:1474-1476`; `IndexError` outside the table. -/
def putCell (content : List (List (Cell κ ν))) (e : (Nat × Nat) × ν) : Except Err (List (List (Cell κ ν))) :=
  match content[e.1.1]? with
  | none => .error .indexError
  | some row =>
    if e.1.2 + 1 < row.length then .ok (content.set e.1.1 (row.set (e.1.2 + 1) (.num e.2)))
    else .error .indexError

/-- `self.rowid2item[i]` with the rest of the row: `/repo/nephosem/core/matrix.py:1468-1473`. -/
def emptyRow (rows : List κ) (nc : Int) (i : Nat) : Except Err (List (Cell κ ν)) :=
  match rows[i]? with
  | none => .error .indexError
  | some r => .ok (.item r :: List.replicate nc.toNat .nan)

/-- The entries of `mtx[:n_rows, :].tocsc()[:, :n_cols].tocoo()`: `/repo/nephosem/core/matrix.py:1464-1466`. -/
def shownEntries (s : Sp ν) (nr nc : Int) : Dict (Nat × Nat) ν :=
  s.data.filter (fun e => decide (e.1.1 < clampEnd s.nr nr ∧ e.1.2 < clampEnd s.nc nc))

/-- The rows of the table of a sparse matrix: `/repo/nephosem/core/matrix.py:1463-1477`. -/
def spContent (s : Sp ν) (rows : List κ) (nr nc : Int) : Except Err (List (List (Cell κ ν))) := do
  let content ← (List.range nr.toNat).mapM (emptyRow rows nc)
  (shownEntries s nr nc).foldlM putCell content

/-- One row of the table of an array. -/
def dnRow (d : Dn ν) (rows : List κ) (nc : Int) (i : Nat) : Except Err (List (Cell κ ν)) :=
  match rows[i]? with
  | none => .error .indexError
  | some r => .ok (.item r :: (List.range (clampEnd d.nc nc)).map (fun j => .num (d.elem i j)))

/-- The rows of the table of an array: `/repo/nephosem/core/matrix.py:1478-1486`. -/
def dnContent (d : Dn ν) (rows : List κ) (nr nc : Int) : Except Err (List (List (Cell κ ν))) :=
  (List.range (clampEnd d.nr nr)).mapM (dnRow d rows nc)

/-- The rows of the table: `/repo/nephosem/core/matrix.py:1463-1488`. -/
def content (b : Body ν) (rows : List κ) (nr nc : Int) : Except Err (List (List (Cell κ ν))) :=
  match b with
  | .sp s => spContent s rows nr nc
  | .dn d => dnContent d rows nr nc

/-- `[row.append("...") for row in res]`: `/repo/nephosem/core/matrix.py:1491-1492`. -/
def dotCols (cut : Bool) (res : List (List (Cell κ ν))) : List (List (Cell κ ν)) :=
  if cut then res.map (fun row => row ++ [.dots]) else res

/-- `res.append(["..."] * len(res[0]))`: `/repo/nephosem/core/matrix.py:1493-1494`. -/
def dotRow (cut : Bool) (res : List (List (Cell κ ν))) : List (List (Cell κ ν)) :=
  if cut then res ++ [List.replicate ((res.head?.map List.length).getD 0) .dots] else res

/-- `print_matrix(n_rows, n_cols)`, up to the call of `tabulate`: `/repo/nephosem/core/matrix.py:1445-1497`. -/
def printTable (m : Mtx κ ν) (n_rows n_cols : Option Int) : Except Err (List (List (Cell κ ν))) := do
  let nr := shownCount n_rows m.body.nr
  let nc := shownCount n_cols m.body.nc
  let header : List (Cell κ ν) := .shape m.body.nr m.body.nc :: (upTo m.cols nc).map .item
  let rest ← content m.body m.rows nr nc
  .ok (dotRow (decide (nr < m.body.nr)) (dotCols (decide (nc < m.body.nc)) (header :: rest)))

/-- `describe`: the shape, whether the matrix is sparse, the number of elements (`.size`: the stored ones of a sparse
matrix) and the density in percent, before formatting: `/repo/nephosem/core/matrix.py:1424-1437`. `none` for
`ZeroDivisionError`. -/
def describe (m : Mtx κ ν) : Option (Nat × Nat × Bool × Nat × ℚ) :=
  let size := match m.body with
    | .sp s => s.data.length
    | .dn d => d.nr * d.nc
  let sparse := match m.body with
    | .sp _ => true
    | .dn _ => false
  if m.body.nr * m.body.nc = 0 then none
  else some (m.body.nr, m.body.nc, sparse, size, ((size * 100 : Nat) : ℚ) / ((m.body.nr * m.body.nc : Nat) : ℚ))

end Verif.Matrix
