import Verif.Matrix.Model

/-!
# Matrices in text tables: `/repo/nephosem/core/matrix.py:153-155, 456-458, 556-558, 752-758, 1263-1314`

`to_csv`, `read_csv`, `from_dataframe`.  Pandas (0.24, `/repo/requirements.txt:124`, where `SparseDataFrame` and `as_matrix`
exist) is a parameter: how numbers are written, which type a column gets that is read, which value stands for entries that a
sparse matrix does not store, and how repeated column names are changed.  Quoting of fields, delimiters and encodings are not
modelled: a file is the list of its lines, a line the list of its fields.
-/

namespace Verif.Matrix.Csv
open Verif.Py Verif.Matrix

/-- A name, or the text of a field. -/
abbrev Txt := List Char

/-- A cell of a data frame. -/
inductive Cell (ν : Type) where
  | num (v : ν)
  | nan
  | text (s : Txt)
  deriving DecidableEq

/-- A row or column name of a data frame that was read: a running number, or what a field of the file was read as. -/
inductive Lbl (ν : Type) where
  | pos (n : Nat)
  | of (c : Cell ν)
  deriving DecidableEq

/-- Pandas. -/
structure Pandas (ν : Type) where
  /-- a number as text -/
  put : ν → Txt
  /-- the values of a column that is read, from its fields -/
  infer : List Txt → List (Cell ν)
  /-- the value of what a sparse matrix does not store, in `SparseDataFrame(...).to_dense()` -/
  fill : Cell ν
  /-- column names that are repeated in the header are changed -/
  mangle : List Txt → List Txt

variable {ν : Type}

/-- One field: `nan` is written as the empty string. -/
def Pandas.field (P : Pandas ν) : Cell ν → Txt
  | .num v => P.put v
  | .nan => []
  | .text s => s

/-- A data frame with names of type `κ`. -/
structure Frame (κ ν : Type) where
  index : List κ
  columns : List κ
  cell : Nat → Nat → Cell ν

/-- One cell of the property `dataframe` of the three kinds of arrays: `matrix.py:153-155, 456-458, 556-558`. -/
def cellOf (P : Pandas ν) : Body ν → Nat → Nat → Cell ν
  | .sp s, i, j => match s.stored i j with
    | some v => .num v
    | none => P.fill
  | .dn d, i, j => .num (d.elem i j)

/-- `TypeTokenMatrix.dataframe`: `matrix.py:752-758`. -/
def dataframe (P : Pandas ν) (m : Mtx Txt ν) : Frame Txt ν := ⟨m.rows, m.cols, cellOf P m.body⟩

/-- A file: lines of fields. -/
abbrev File := List (List Txt)

/-- The line of row `i` with the name `r`. -/
def line (P : Pandas ν) (f : Frame Txt ν) (index : Bool) (r : Txt) (i : Nat) : List Txt :=
  (if index then [r] else []) ++ (List.range f.columns.length).map (fun j => P.field (f.cell i j))

/-- `DataFrame.to_csv`. -/
def frameToCsv (P : Pandas ν) (f : Frame Txt ν) (index header : Bool) : File :=
  (if header then [(if index then [[]] else []) ++ f.columns] else []) ++
    f.index.zipIdx.map (fun p => line P f index p.1 p.2)

/-- `TypeTokenMatrix.to_csv`: `matrix.py:1263-1282`. -/
def toCsv (P : Pandas ν) (m : Mtx Txt ν) (index : Bool := true) (header : Bool := true) : File :=
  frameToCsv P (dataframe P m) index header

/-- `Unnamed: k`, the name of column `k` if the header leaves it empty. -/
def unnamed (k : Nat) : Txt := "Unnamed: ".toList ++ (toString k).toList

/-- The column names from the header. -/
def headerNames (P : Pandas ν) (header : List Txt) : List Txt :=
  P.mangle (header.zipIdx.map (fun p => if p.1 = [] then unnamed p.2 else p.1))

/-- The values of column `j`. -/
def column (P : Pandas ν) (rows : List (List Txt)) (j : Nat) : List (Cell ν) := P.infer (rows.map (fun r => r.getD j []))

/-- `pd.read_csv(filename, sep, index_col, header='infer')` with `index_col` None (`false`) or 0 (`true`), for files all of whose
lines have as many fields as the first; others are not modelled. -/
def readFrame (P : Pandas ν) (indexCol : Bool) : File → Except Err (Frame (Lbl ν) ν)
  | [] => .error .valueError
  | header :: rows =>
    if rows.all (fun r => decide (r.length = header.length)) then
      if indexCol then
        match headerNames P header with
        | [] => .error .indexError
        | _ :: cs => .ok ⟨(column P rows 0).map .of, cs.map (fun c => .of (.text c)),
            fun i j => ((column P rows (j + 1))[i]?).getD .nan⟩
      else .ok ⟨(List.range rows.length).map .pos, (headerNames P header).map (fun c => .of (.text c)),
            fun i j => ((column P rows j)[i]?).getD .nan⟩
    else .error .unmodelled

/-- Is some cell a text? -/
def hasText (nr nc : Nat) (cell : Nat → Nat → Cell ν) : Bool :=
  (List.range nr).any (fun i => (List.range nc).any (fun j => match cell i j with | .text _ => true | _ => false))

/-- `np.allclose` on two cells: `nan` is close to nothing. -/
def cellClose [AllClose ν] : Cell ν → Cell ν → Bool
  | .num a, .num b => AllClose.close a b
  | _, _ => false

/-- `check_symmetric` (`matrix.py:66-69`) of an array without text. -/
def looksSymmetric [AllClose ν] (nr nc : Nat) (cell : Nat → Nat → Cell ν) : Bool :=
  decide (nr = nc) && (List.range nr).all (fun i => (List.range nc).all (fun j => cellClose (cell i j) (cell j i)))

variable [Zero ν] [DecidableEq ν] [AllClose ν]

instance : Zero (Cell ν) := ⟨.num 0⟩

/-- `sp.csr_matrix(array)`: stores what is not 0; `nan` is not 0. -/
def csrOf (nr nc : Nat) (cell : Nat → Nat → Cell ν) : Sp (Cell ν) :=
  { fmt := .csr, nr := nr, nc := nc
    data := (((List.range nr).product (List.range nc)).map (fun p => (p, cell p.1 p.2))).filter (fun e => e.2 ≠ .num 0) }

/-- `from_dataframe` with the constructor: `matrix.py:1307-1314, 671-700`.  SciPy has no conversion for arrays with text
(`TypeError`), and `np.allclose` (asked for square arrays) neither. -/
def fromDataframe (f : Frame (Lbl ν) ν) (issparse : Bool) : Except Err (Mtx (Lbl ν) (Cell ν)) :=
  let nr := f.index.length
  let nc := f.columns.length
  if issparse then
    if hasText nr nc f.cell then .error .typeError
    else .ok ⟨.sp (csrOf nr nc f.cell), f.index, f.columns⟩
  else if nr = nc ∧ hasText nr nc f.cell = true then .error .typeError
  else if looksSymmetric nr nc f.cell = true ∧ f.index ≠ f.columns then .error .valueError
  else .ok ⟨.dn ⟨nr, nc, f.cell⟩, f.index, f.columns⟩

/-- `TypeTokenMatrix.read_csv`: `matrix.py:1284-1305`. -/
def readCsv (P : Pandas ν) (file : File) (indexCol : Bool := false) (issparse : Bool := false) :
    Except Err (Mtx (Lbl ν) (Cell ν)) := do
  let f ← readFrame P indexCol file
  fromDataframe f issparse

end Verif.Matrix.Csv
