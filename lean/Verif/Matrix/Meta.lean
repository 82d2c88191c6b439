import Verif.Py.Dict
import Verif.Vocab.Plain

/-!
# Meta data of matrices: `/repo/nephosem/core/matrix.py:671-700, 742-750, 1257-1261, 1316-1340, 1405-1422`

The attributes of a `TypeTokenMatrix` are its `__dict__`.  Values are of any type `ν`; the array and the behaviour object are left
out, since `meta_data` leaves them out.
-/

namespace Verif.Matrix.Meta
open Verif.Py Verif.Vocab.Plain

variable {ν : Type}

/-- What an attribute can be: an item list, a table of names (`none` for `None`), or what a user gives. -/
inductive Val (ν : Type) where
  | items (l : List Str)
  | table (t : Option (Dict Str Nat))
  | user (v : ν)

/-- The attributes of a matrix but for `matrix` and `_mxbehavior`. -/
abbrev Obj (ν : Type) := Dict String (Val ν)

/-- What goes wrong: an argument given twice; an attribute that is not there or is no item list (`KeyError`). -/
inductive Err where
  | typeError | keyError
  deriving DecidableEq, Repr

/-- The parameters of the constructor that have names: matrix.py 671. -/
def paramNames : List String := ["self", "matrix", "row_items", "col_items"]

/-- `TypeTokenMatrix(matrix, row_items, col_items, **kwargs)`, or with `deep=...` besides (`deep`): matrix.py 671-688.  The keyword
arguments are not stored.  Simplified: the checks of the shape, see `Verif.Matrix.mkMtx`. -/
def construct (deep : Bool) (rows cols : List Str) (kwargs : Dict String (Val ν)) : Except Err (Obj ν) :=
  if kwargs.keys.any (fun k => k ∈ paramNames) then .error .typeError
  else if deep = true ∧ "deep" ∈ kwargs.keys then .error .typeError
  else .ok [("row_items", .items rows), ("col_items", .items cols), ("_item2rowid", .table none), ("_item2colid", .table none)]

/-- `notmeta`, matrix.py 746, as far as these attributes are modelled. -/
def notMeta : List String := ["matrix", "row_items", "col_items", "_mxbehavior"]

/-- `meta_data`, matrix.py 742-750. -/
def metaData (o : Obj ν) : Dict String (Val ν) := o.filter (fun e => decide (e.1 ∉ notMeta))

/-- `mtx.name = value`. -/
def setAttr (o : Obj ν) (k : String) (v : ν) : Obj ν := o.set k (.user v)

/-- A matrix made from another one with the item lists `rows` and `cols`: matrix.py 807-831, 943, 1037, 1084, 1227, 1255.  `deep`: the
call gives `deep=False`, as in `submatrix` (line 943). -/
def derive (deep : Bool) (o : Obj ν) (rows cols : List Str) : Except Err (Obj ν) := construct deep rows cols (metaData o)

/-- `copy` and `deepcopy`: matrix.py 1257-1261. -/
def copy (o : Obj ν) : Obj ν := o

/-- What `save` writes into the meta data file: matrix.py 1317-1340.  Simplified: values are taken to be what `json` can write. -/
def savedMeta (o : Obj ν) : Except Err (Dict String (Val ν)) :=
  match o.get? "row_items", o.get? "col_items" with
  | some r, some c => .ok (Dict.update [("row_items", r), ("col_items", c)] (metaData o))
  | _, _ => .error .keyError

/-- What `load` makes of it: matrix.py 1407-1422. -/
def loaded (file : Dict String (Val ν)) : Except Err (Obj ν) :=
  match file.get? "row_items", file.get? "col_items" with
  | some (.items r), some (.items c) => construct true r c []
  | _, _ => .error .keyError

end Verif.Matrix.Meta
