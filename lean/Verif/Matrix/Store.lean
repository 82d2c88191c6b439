import Verif.Matrix.Model
import Verif.Vocab.Plain

/-!
# Model of `TypeTokenMatrix.save` and `TypeTokenMatrix.load`

`/repo/nephosem/core/matrix.py:1316-1422`.  A file system is a map from path strings to file contents; two
different strings are two different files.  Meta data files hold the item lists; that JSON and the text encoding
give back what was written is trusted, and the further keys of the meta data file (which `load` does not read) are
left out.  `.npz` files hold the three arrays of a compressed sparse matrix, exactly as SciPy keeps them.
-/

namespace Verif.Matrix
open Verif.Py Verif.Vocab.Plain

variable {κ ν : Type} [LinearOrder κ]

/-! ### Path strings -/

/-- The part of a path up to and including the last slash. -/
def dirPart (p : Str) : Str := (p.reverse.dropWhile (fun c => c ≠ '/')).reverse

/-- `os.path.basename`. -/
def basePart (p : Str) : Str := (p.reverse.takeWhile (fun c => c ≠ '/')).reverse

/-- `os.path.splitext`: the extension starts at the last dot of the last path component, unless only dots precede
it there. -/
def splitext (p : Str) : Str × Str :=
  let r := (basePart p).reverse
  match r.dropWhile (fun c => c ≠ '.') with
  | [] => (p, [])
  | _ :: pre =>
    if pre.any (fun c => c ≠ '.') then
      (dirPart p ++ pre.reverse, '.' :: (r.takeWhile (fun c => c ≠ '.')).reverse)
    else (p, [])

def extPac : Str := ".pac".toList
def extMeta : Str := ".meta".toList
def extNpz : Str := ".npz".toList
def extNpy : Str := ".npy".toList

/-! ### Files -/

/-- The arrays `data`, `indices`, `indptr` and `shape` of a compressed sparse matrix. -/
structure Arrays (ν : Type) where
  data : List ν
  indices : List Nat
  indptr : List Nat
  nr : Nat
  nc : Nat
  deriving DecidableEq, Repr

/-- File contents. -/
inductive File (κ ν : Type) where
  | info (rows cols : List κ)
  | npz (a : Arrays ν)
  | npy (d : Dn ν)
  | zip (members : List (Str × File κ ν))

/-- A file system. -/
abbrev FS (κ ν : Type) := Str → Option (File κ ν)

/-- Open for writing and write. -/
def FS.write (fs : FS κ ν) (p : Str) (f : File κ ν) : FS κ ν := fun q => if q = p then some f else fs q

/-- `os.remove`. -/
def FS.remove (fs : FS κ ν) (p : Str) : FS κ ν := fun q => if q = p then none else fs q

/-- Number of rows of a csr, columns of a csc matrix. -/
def Sp.nMajor (s : Sp ν) : Nat := match s.fmt with | .csc => s.nc | _ => s.nr

/-- The coordinate by which a compressed matrix is cut into blocks: row of a csr, column of a csc matrix. -/
def Sp.maj (s : Sp ν) (p : Nat × Nat) : Nat := match s.fmt with | .csc => p.2 | _ => p.1

/-- The other coordinate. -/
def Sp.mnr (s : Sp ν) (p : Nat × Nat) : Nat := match s.fmt with | .csc => p.1 | _ => p.2

/-- The stored entries, block by block. -/
def Sp.blocks (s : Sp ν) : List (List ((Nat × Nat) × ν)) :=
  (List.range s.nMajor).map (fun i => s.data.filter (fun e => s.maj e.1 = i))

/-- SciPy's arrays of a csr or csc matrix: the entries block by block, and the block boundaries (SciPy contract).  The
order within a block is immaterial. -/
def Sp.arrays (s : Sp ν) : Arrays ν :=
  { data := s.blocks.flatten.map (fun e => e.2)
    indices := s.blocks.flatten.map (fun e => s.mnr e.1)
    indptr := (List.range (s.nMajor + 1)).map (fun i => ((s.blocks.map List.length).take i).sum)
    nr := s.nr, nc := s.nc }

/-- `sp.csr_matrix((data, indices, indptr), shape=shape)` (SciPy contract): the number of boundaries must be the number
of rows plus one. -/
def Arrays.toCsr (a : Arrays ν) : Except Err (Sp ν) :=
  if a.indptr.length = a.nr + 1 then
    .ok { fmt := .csr, nr := a.nr, nc := a.nc
          data := (List.range a.nr).flatMap (fun i =>
            (((a.indices.zip a.data).take (a.indptr.getD (i + 1) 0)).drop (a.indptr.getD i 0)).map
              (fun jv => ((i, jv.1), jv.2))) }
  else .error .valueError

/-! ### `save` -/

/-- `basename` after lines 1322-1332 of `/repo/nephosem/core/matrix.py`. -/
def saveBase (name : Str) (pack : Bool) : Str :=
  if pack then (if (splitext name).2 = extPac then (splitext name).1 else name) else name

/-- `filename` after lines 1323-1328. -/
def zipName (name : Str) : Str := if (splitext name).2 = extPac then name else name ++ extPac

/-- The array file: extension and contents, `/repo/nephosem/core/matrix.py:1342-1353`.  A coo matrix has no
`indices`. -/
def bodyFile (b : Body ν) : Except Err (Str × File κ ν) :=
  match b with
  | .sp s => if s.fmt = .coo then .error .attributeError else .ok (extNpz, .npz s.arrays)
  | .dn d => .ok (extNpy, .npy d)

/-- `save(filename, pack=pack)`: `/repo/nephosem/core/matrix.py:1316-1366`: the file system afterwards and the outcome. -/
def save (fs : FS κ ν) (m : Mtx κ ν) (name : Str) (pack : Bool := true) : FS κ ν × Except Err Unit :=
  let base := saveBase name pack
  let info := base ++ extMeta
  let fs := fs.write info (.info m.rows m.cols)
  match bodyFile m.body with
  | .error e => (fs, .error e)
  | .ok (ext, f) =>
    let mx := base ++ ext
    let fs := fs.write mx f
    if pack then
      let fs := fs.write (zipName name)
        (.zip [(basePart info, .info m.rows m.cols), (basePart mx, f)])
      ((fs.remove info).remove mx, .ok ())
    else (fs, .ok ())

/-! ### `load` -/

/-- `basename` in `load`: `/repo/nephosem/core/matrix.py:1384-1386`. -/
def loadBase (name : Str) : Str := if (splitext name).2 = extPac then (splitext name).1 else name

/-- `zf.extractall(dest_dir)`: `/repo/nephosem/core/matrix.py:1388-1391`. -/
def extractAll (fs : FS κ ν) (dir : Str) (ms : List (Str × File κ ν)) : FS κ ν :=
  ms.foldl (fun fs x => fs.write (dir ++ x.1) x.2) fs

/-- Unpacking, the first part of `load`: `/repo/nephosem/core/matrix.py:1384-1391`.  A file that is not a zip archive is
an error of the zip module (not distinguished here). -/
def unpack (fs : FS κ ν) (base : Str) : Except Err (FS κ ν) :=
  match fs (base ++ extPac) with
  | none => .error .fileNotFound
  | some (.zip ms) => .ok (extractAll fs (dirPart (base ++ extPac)) ms)
  | some _ => .error .unmodelled

/-- Reading the two files, the second part of `load`: `/repo/nephosem/core/matrix.py:1393-1415`: the name of the array file
and the parts of the matrix.  Files of another kind than their extension says are not modelled. -/
def readParts (fs : FS κ ν) (base : Str) : Except Err (Str × Body ν × List κ × List κ) := do
  let mx ← (if (fs (base ++ extNpz)).isSome then .ok (base ++ extNpz)
    else if (fs (base ++ extNpy)).isSome then .ok (base ++ extNpy)
    else .error Err.valueError)
  match fs (base ++ extMeta) with
  | none => .error .fileNotFound
  | some (.info rows cols) =>
    match fs mx with
    | some (.npz a) => do
      let s ← a.toCsr
      .ok (mx, .sp s, rows, cols)
    | some (.npy d) => .ok (mx, .dn d, rows, cols)
    | _ => .error .unmodelled
  | some _ => .error .unmodelled

/-- `load(filename, pack=pack)`: `/repo/nephosem/core/matrix.py:1368-1422`: the file system afterwards and the outcome. -/
def load [AllClose ν] (fs : FS κ ν) (name : Str) (pack : Bool := true) : FS κ ν × Except Err (Mtx κ ν) :=
  let base := loadBase name
  match (if pack then unpack fs base else .ok fs) with
  | .error e => (fs, .error e)
  | .ok fs =>
    match readParts fs base with
    | .error e => (fs, .error e)
    | .ok (mx, b, rows, cols) =>
      (if pack then (fs.remove (base ++ extMeta)).remove mx else fs, mkMtx b rows cols)

end Verif.Matrix
