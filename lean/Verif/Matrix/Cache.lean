import Verif.Matrix.Model

/-!
# Model of the name-to-index tables of a matrix, which are computed once and kept
-/

namespace Verif.Matrix
open Verif.Py

variable {κ : Type} [LinearOrder κ]

/-- A `TypeTokenMatrix` as far as names are concerned: the item lists and the tables `_item2rowid` and `_item2colid`, which
are `None` at first: `/repo/nephosem/core/matrix.py:685-688`. -/
structure Obj (κ : Type) where
  rows : List κ
  cols : List κ
  rid : Option (Dict κ Nat)
  cid : Option (Dict κ Nat)

/-- A new matrix: `/repo/nephosem/core/matrix.py:671-688`.  The tables in `**self.meta_data` are ignored. -/
def Obj.new (rows cols : List κ) : Obj κ := ⟨rows, cols, none, none⟩

/-- `self.item2rowid`: `/repo/nephosem/core/matrix.py:715-726`. -/
def Obj.rowIds (o : Obj κ) : Dict κ Nat := o.rid.getD (idOf o.rows)

/-- `self.item2colid`: `/repo/nephosem/core/matrix.py:729-740`. -/
def Obj.colIds (o : Obj κ) : Dict κ Nat := o.cid.getD (idOf o.cols)

/-- The object after `self.item2rowid`: `/repo/nephosem/core/matrix.py:724-725`. -/
def Obj.keepRows (o : Obj κ) : Obj κ := { o with rid := some o.rowIds }

/-- The object after `self.item2colid`: `/repo/nephosem/core/matrix.py:738-739`. -/
def Obj.keepCols (o : Obj κ) : Obj κ := { o with cid := some o.colIds }

/-- What a program does with matrices; matrices are numbered in the order of their creation. -/
inductive Act (κ : Type) where
  | make (rows cols : List κ)
  | get (o : Nat) (r c : κ)
  | select (o : Nat) (row col : Option (List κ))
  | transpose (o : Nat)
  | copy (o : Nat)
  | renameRow (o i : Nat) (x : κ)
  | renameCol (o i : Nat) (x : κ)

/-- What is observed: the position of the entry that is read, a `KeyError`, or nothing. -/
inductive Out where
  | pos (i j : Nat)
  | keyError
  | nothing
  deriving DecidableEq, Repr

/-- `mtx[r, c]`: the position that is read: `/repo/nephosem/core/matrix.py:766-802`. -/
def Obj.look (o : Obj κ) (r c : κ) : Out :=
  match o.rowIds.get? r, o.colIds.get? c with
  | some i, some j => .pos i j
  | _, _ => .keyError

/-- The names that `submatrix` finds: `/repo/nephosem/core/matrix.py:911-923`; `none` if there are none. -/
def found (ids : Dict κ Nat) (items : List κ) (req : Option (List κ)) : Option (List κ) :=
  match req with
  | none => some items
  | some l => if (l.filter (fun e => ids.contains e)).length = 0 then none else some (l.filter (fun e => ids.contains e))

/-- `submatrix(row, col)`: the object afterwards and the new one, if any: `/repo/nephosem/core/matrix.py:910-943`.  The table
of the columns is not asked for if no row is found. -/
def Obj.select (o : Obj κ) (row col : Option (List κ)) : Obj κ × Option (Obj κ) :=
  let o1 := if row.isSome then o.keepRows else o
  match found o1.rowIds o1.rows row with
  | none => (o1, none)
  | some rs =>
    let o2 := if col.isSome then o1.keepCols else o1
    match found o2.colIds o2.cols col with
    | none => (o2, none)
    | some cs => (o2, some (Obj.new rs cs))

/-- One action; actions on matrices that do not exist change nothing.  `renameRow` is `mtx.row_items[i] = x`. -/
def act (st : List (Obj κ)) (a : Act κ) : List (Obj κ) × Out :=
  match a with
  | .make rows cols => (st ++ [Obj.new rows cols], .nothing)
  | .get n r c => match st[n]? with
    | none => (st, .nothing)
    | some o => (st.set n o.keepRows.keepCols, o.look r c)
  | .select n row col => match st[n]? with
    | none => (st, .nothing)
    | some o => (st.set n (o.select row col).1 ++ (o.select row col).2.toList, .nothing)
  | .transpose n => match st[n]? with
    | none => (st, .nothing)
    | some o => (st ++ [Obj.new o.cols o.rows], .nothing)
  | .copy n => match st[n]? with
    | none => (st, .nothing)
    | some o => (st ++ [o], .nothing)
  | .renameRow n i x => match st[n]? with
    | none => (st, .nothing)
    | some o => (st.set n { o with rows := o.rows.set i x }, .nothing)
  | .renameCol n i x => match st[n]? with
    | none => (st, .nothing)
    | some o => (st.set n { o with cols := o.cols.set i x }, .nothing)

/-- A program: the observations in order. -/
def observe (st : List (Obj κ)) : List (Act κ) → List Out
  | [] => []
  | a :: as => (act st a).2 :: observe (act st a).1 as

end Verif.Matrix
