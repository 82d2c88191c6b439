import Verif.Engine.Accumulate
import Verif.Window.Props
import Verif.Matrix.PropsMerge

/-!
# Model of `ColFreqHandler` as a whole: `/repo/nephosem/models/typetoken.py:184-478`

The loops over one file are in `Verif.Window.Model`, the job engine in `Verif.Engine.Model`, the matrices in
`Verif.Matrix.Model`.
-/

namespace Verif.Cooc
open Verif.Py Verif.Vocab Verif.Corpus Verif.Window Verif.Engine Verif.Matrix

variable {ℓ μ κ : Type} [LinearOrder κ]

/-- `count_values`: `/repo/nephosem/utils.py:178-183`. -/
def countValues (d : Nested κ) : Nat := (d.map (fun p => (Dict.keys p.2).length)).sum

/-- `dict2matrix`: `/repo/nephosem/models/typetoken.py:475-478`. -/
def dict2matrix (d : Nested κ) (rows cols : List κ) : Except Matrix.Err (Mtx κ Int) := do
  let s ← dictToSp d rows cols
  mkMtx (.sp s) rows cols

/-- What a worker puts: `-1`, or the name of the temporary file with its matrix.  Simplified: the result carries the
matrix itself.  The file is written by `save(.., pack=False)` into a directory named by the process id
(`/repo/nephosem/core/handler.py:100-107`), which no other living worker uses, and read back by `load(.., pack=False)`;
that this gives the matrix back is C28. -/
inductive ColRes (κ : Type) where
  | minus1
  | sub (m : Mtx κ Int)

/-- State of a worker before its first job: `typetoken.py:228-246` (with a column vocabulary), `289-296` (without:
an own empty `chunk_col_vocab`). -/
def colInit (colv : Vocab κ) : ColData κ := { mtx := [], colv := if Vocab.len colv = 0 then Vocab.empty else colv }

/-- `_do_process_job`: `typetoken.py:352-359`.  The file loop never raises (`C10_exact`), so its error branch is not
taken. -/
def colUpd (f : Formatter ℓ μ κ) (L R : Nat) (rowv : Vocab κ) (d : ColData κ) (file : List ℓ) : ColData κ :=
  match updateFile f L R (colCallbacks f rowv) d file with
  | .ok d' => d'
  | .error _ => d

/-- After the stop marker: `typetoken.py:275-287` (with a column vocabulary), `320-334` (without).  An exception of
`dict2matrix` ends the worker before it puts anything.  `chunk` is the value count after the last job. -/
def colEmit (rowv colv : Vocab κ) (d : ColData κ) : List (ColRes κ) :=
  let cols := if Vocab.len colv = 0 then itemList d.colv else itemList colv
  if 0 < countValues d.mtx then
    match dict2matrix d.mtx (itemList rowv) cols with
    | .ok m => [.sub m]
    | .error _ => []
  else if Vocab.len colv = 0 then [] else [.minus1]

/-- `_worker_loop`: `typetoken.py:228-350`. -/
def colProg (f : Formatter ℓ μ κ) (L R : Nat) (rowv colv : Vocab κ) : Prog (List ℓ) (ColData κ) (ColRes κ) :=
  accumulate (colInit colv) (colUpd f L R rowv) (colEmit rowv colv)

/-- One result in `_process_results`: `typetoken.py:453-462`.  A matrix object has neither `__bool__` nor `__len__`,
so `not resmtx` means `resmtx is None`. -/
def mergeRes (acc : Option (Mtx κ Int)) : ColRes κ → Except Matrix.Err (Option (Mtx κ Int))
  | .minus1 => .ok acc
  | .sub m => match acc with
    | none => .ok (some m)
    | some a => (mergeTwo a m).map some

/-- `_process_results`: `typetoken.py:448-473`.  Removing the temporary files is left out. -/
def processResults (rs : List (ColRes κ)) : Except Matrix.Err (Option (Mtx κ Int)) := rs.foldlM mergeRes none

/-- `build_col_freq`: `typetoken.py:198-223`, given the state `s` in which the workers are joined.  An empty row
vocabulary returns `None` before anything is started. -/
def buildColFreq (rowv : Vocab κ) (s : State (List ℓ) (ColData κ) (ColRes κ)) : Except Matrix.Err (Option (Mtx κ Int)) :=
  if Vocab.len rowv = 0 then .ok none else processResults (readAll s)

end Verif.Cooc
