import Verif.Matrix.Ops

/-!
# Model of matrices in memory: which matrices share an array or a list of items
-/

namespace Verif.Matrix.Mem
open Verif.Py Verif.Matrix

variable {κ ν : Type} [LinearOrder κ]

/-- A matrix in memory: where its array and its two lists of items are: `/repo/nephosem/core/matrix.py:672-686`.  `_mxbehavior` holds
the same array (lines 690-698).  Simplified: whether a dense array counts as symmetric is decided at every call and not once by the
constructor, and names are looked up in the present lists (for the tables that a matrix keeps see `Verif.Matrix.Obj`). -/
structure Ref where
  arr : Nat
  rows : Nat
  cols : Nat
  deriving DecidableEq, Repr

/-- The memory of a program: arrays, lists of items, the program's matrices (`none` after a call that raised an exception or returned
`None`) and the arrays that the program holds itself. -/
structure Memory (κ ν : Type) where
  arrs : List (Body ν)
  lists : List (List κ)
  vars : List (Option Ref)
  own : List Nat

/-- The beginning of a program. -/
def Memory.start : Memory κ ν := ⟨[], [], [], []⟩

/-- What is in memory for a matrix. -/
def Memory.load (st : Memory κ ν) (r : Ref) : Option (Mtx κ ν) :=
  match st.arrs[r.arr]?, st.lists[r.rows]?, st.lists[r.cols]? with
  | some b, some rs, some cs => some ⟨b, rs, cs⟩
  | _, _, _ => none

/-- A call without a result. -/
def Memory.nothing (st : Memory κ ν) : Memory κ ν := { st with vars := st.vars ++ [none] }

/-- A matrix that is the same object as an earlier one. -/
def Memory.same (st : Memory κ ν) (r : Ref) : Memory κ ν := { st with vars := st.vars ++ [some r] }

/-- A matrix with new copies of the lists (`deepcopy`, `/repo/nephosem/core/matrix.py:685-686`) and with the array at `a`
(`deep=False`, lines 674-675). -/
def Memory.around (st : Memory κ ν) (a : Nat) (rows cols : List κ) : Memory κ ν :=
  { st with
    lists := st.lists ++ [rows, cols]
    vars := st.vars ++ [some ⟨a, st.lists.length, st.lists.length + 1⟩] }

/-- A matrix with a new copy of the array as well (`deep=True`, `/repo/nephosem/core/matrix.py:672-673`). -/
def Memory.fresh (st : Memory κ ν) (m : Mtx κ ν) : Memory κ ν :=
  { st with
    arrs := st.arrs ++ [m.body]
    lists := st.lists ++ [m.rows, m.cols]
    vars := st.vars ++ [some ⟨st.arrs.length, st.lists.length, st.lists.length + 1⟩] }

/-- The outcome of a call that makes its own array. -/
def Memory.result (st : Memory κ ν) (r : Except Err (Option (Mtx κ ν))) : Memory κ ν :=
  match r with
  | .ok (some m) => st.fresh m
  | _ => st.nothing

/-- Functions of one matrix that make their own array. -/
inductive Fn1 (κ : Type) where
  | reorderRows (items : List κ)
  | reorderCols (items : List κ)
  | transpose
  | dropRows (n : Int)
  | dropCols (n : Int)
  | copy

/-- Functions of two matrices. -/
inductive Fn2 where
  | merge
  | concatRows
  | concatCols
  | multiply

variable [Semiring ν] [DecidableEq ν] [NPVal ν] [AllClose ν]

/-- `reorder`, `transpose`, `drop` and `copy`: `/repo/nephosem/core/matrix.py:1001-1037, 1132-1163, 1225-1227, 1257-1261`.  All but
`drop` give their array to a constructor with `deep=True`; `drop` calls `submatrix` with names. -/
def Fn1.run (f : Fn1 κ) (m : Mtx κ ν) : Except Err (Option (Mtx κ ν)) :=
  match f with
  | .reorderRows l => (Matrix.reorderRows m l).map some
  | .reorderCols l => (Matrix.reorderCols m l).map some
  | .transpose => (Matrix.transpose m).map some
  | .dropRows n => Matrix.dropRows m n
  | .dropCols n => Matrix.dropCols m n
  | .copy => .ok (some m)

/-- `merge`, `concatenate` and `multiply`: `/repo/nephosem/core/matrix.py:1186-1223, 804-807`, all with `deep=True`. -/
def Fn2.run (f : Fn2) (m t : Mtx κ ν) : Except Err (Option (Mtx κ ν)) :=
  match f with
  | .merge => (mergeByName m t).map some
  | .concatRows => (Matrix.concatRows m t).map some
  | .concatCols => (Matrix.concatCols m t).map some
  | .multiply => (Matrix.multiply m t).map some

/-- What a program does.  Matrices and own arrays are numbered in the order of their creation.  The last four are all changes in
place, such as `m.matrix[i, j] = v` and `m.row_items[i] = x`. -/
inductive Step (κ ν : Type) where
  | array (b : Body ν)
  | make (k : Nat) (rows cols : List κ) (deep : Bool)
  | getMatrix (n : Nat)
  | sub (n : Nat) (row col : Option (List κ))
  | dropEmpty (n : Nat) (axis1 explicit : Bool)
  | one (n : Nat) (f : Fn1 κ)
  | two (n t : Nat) (f : Fn2)
  | changeOwn (k : Nat) (g : Body ν → Body ν)
  | changeArray (n : Nat) (g : Body ν → Body ν)
  | changeRows (n : Nat) (g : List κ → List κ)
  | changeCols (n : Nat) (g : List κ → List κ)

/-- The matrix with a number. -/
def Memory.ref (st : Memory κ ν) (n : Nat) : Option Ref := (st.vars[n]?).bind id

/-- The constructor with an array at `a`: `/repo/nephosem/core/matrix.py:671-700`. -/
def Memory.construct (st : Memory κ ν) (a : Nat) (rows cols : List κ) (deep : Bool) : Memory κ ν :=
  match st.arrs[a]? with
  | none => st.nothing
  | some b => match mkMtx b rows cols with
    | .error _ => st.nothing
    | .ok m => if deep then st.fresh m else st.around a m.rows m.cols

/-- `submatrix`: `/repo/nephosem/core/matrix.py:872-943, 290-293`.  Without names a sparse matrix gives its own array to the
constructor, with `deep=False`; otherwise indexing with an array of positions makes a new array. -/
def Memory.sub (st : Memory κ ν) (r : Ref) (m : Mtx κ ν) (row col : Option (List κ)) : Memory κ ν :=
  match m.body, row, col with
  | .sp _, none, none => st.construct r.arr m.rows m.cols false
  | _, _, _ => st.result (submatrix m row col)

/-- `drop_empty`: `/repo/nephosem/core/matrix.py:1106-1124, 1165-1180`.  If no row is empty, the matrix itself is returned (line 1177). -/
def Memory.dropEmpty (st : Memory κ ν) (r : Ref) (m : Mtx κ ν) (axis1 explicit : Bool) : Memory κ ν :=
  match m.body, axis1 with
  | .sp s, false =>
    if ((s.emptyRows explicit).filterMap (fun i => m.rows[i]?)).isEmpty then st.same r
    else st.result (Matrix.dropEmpty m axis1 explicit)
  | _, _ => st.result (Matrix.dropEmpty m axis1 explicit)

/-- One step; steps with matrices that do not exist have no result. -/
def Memory.step (st : Memory κ ν) (s : Step κ ν) : Memory κ ν :=
  match s with
  | .array b => { st with arrs := st.arrs ++ [b], own := st.own ++ [st.arrs.length] }
  | .make k rows cols deep => match st.own[k]? with
    | none => st.nothing
    | some a => st.construct a rows cols deep
  | .getMatrix n => match (st.ref n).bind st.load with
    | none => st
    | some m => { st with arrs := st.arrs ++ [m.body], own := st.own ++ [st.arrs.length] }
  | .sub n row col => match st.ref n with
    | none => st.nothing
    | some r => match st.load r with
      | none => st.nothing
      | some m => st.sub r m row col
  | .dropEmpty n axis1 explicit => match st.ref n with
    | none => st.nothing
    | some r => match st.load r with
      | none => st.nothing
      | some m => st.dropEmpty r m axis1 explicit
  | .one n f => match (st.ref n).bind st.load with
    | none => st.nothing
    | some m => st.result (f.run m)
  | .two n t f => match (st.ref n).bind st.load, (st.ref t).bind st.load with
    | some m, some u => st.result (f.run m u)
    | _, _ => st.nothing
  | .changeOwn k g => match st.own[k]? with
    | none => st
    | some a => { st with arrs := st.arrs.modify a g }
  | .changeArray n g => match st.ref n with
    | none => st
    | some r => { st with arrs := st.arrs.modify r.arr g }
  | .changeRows n g => match st.ref n with
    | none => st
    | some r => { st with lists := st.lists.modify r.rows g }
  | .changeCols n g => match st.ref n with
    | none => st
    | some r => { st with lists := st.lists.modify r.cols g }

/-- A program. -/
def Memory.run (st : Memory κ ν) (p : List (Step κ ν)) : Memory κ ν := p.foldl Memory.step st

/-- What the program sees of its matrices. -/
def Memory.seen (st : Memory κ ν) : List (Option (Mtx κ ν)) := st.vars.map (fun v => v.bind st.load)

/-- What the program sees of its own arrays. -/
def Memory.seenOwn (st : Memory κ ν) : List (Option (Body ν)) := st.own.map (fun a => st.arrs[a]?)

end Verif.Matrix.Mem
