import Verif.Cooc.Model
import Verif.Matrix.Store

/-!
# Temporary files of `ColFreqHandler`: `/repo/nephosem/models/typetoken.py:271-287, 319-334, 448-473`

`Verif.Cooc.Model` puts the matrices of the workers into the result queue as they are.  The code saves each of them in two
files, puts the name, and the parent loads and removes the files.  This file models that, with the file system of
`Verif.Matrix.Store`.
-/

namespace Verif.Cooc
open Verif.Py Verif.Vocab Verif.Corpus Verif.Window Verif.Engine Verif.Matrix Verif.Vocab.Plain

variable {κ : Type} [LinearOrder κ]

/-- `"{}/sub.{}".format(self.subtmpdir, i)` with `i = 0` and `subtmpdir = os.path.join(self.tmpdir, str(self.pid))`:
`typetoken.py:278, 322`, `/repo/nephosem/core/handler.py:100-107`.  `dir` is the temporary directory of the handler, without a
slash at its end. -/
def tmpName (dir pid : Str) : Str := dir ++ '/' :: (pid ++ '/' :: ['s', 'u', 'b', '.', '0'])

/-- What a worker does after its stop marker, `typetoken.py:275-287, 320-334`: for a matrix the files are written and the name
is put, otherwise `-1` or nothing (`colEmit`).  The state is the file system and the result queue, `none` for `-1`. -/
def emitTmp (dir : Str) (rowv colv : Vocab κ) (st : FS κ Int × List (Option Str)) (pid : Str) (d : ColData κ) :
    FS κ Int × List (Option Str) :=
  (colEmit rowv colv d).foldl (fun st r => match r with
    | .minus1 => (st.1, st.2 ++ [none])
    | .sub m => ((save st.1 m (tmpName dir pid) false).1, st.2 ++ [some (tmpName dir pid)])) st

/-- One result in `_process_results`, `typetoken.py:453-473`: load, merge, remove the two files.  The removal of the empty
directory is left out; a failing removal is only logged. -/
def collectOne (st : FS κ Int × Option (Mtx κ Int)) : Option Str → Except Matrix.Err (FS κ Int × Option (Mtx κ Int))
  | none => .ok st
  | some name =>
    match load st.1 name false with
    | (_, .error e) => .error e
    | (fs, .ok m) =>
      match mergeRes st.2 (.sub m) with
      | .error e => .error e
      | .ok acc => .ok ((fs.remove (name ++ extMeta)).remove (name ++ extNpz), acc)

/-- `_process_results`: `typetoken.py:448-473`. -/
def collect (fs : FS κ Int) (queue : List (Option Str)) : Except Matrix.Err (FS κ Int × Option (Mtx κ Int)) :=
  queue.foldlM collectOne (fs, none)

/-- `clean_dir(nephosem.tmpdir)` when any handler is constructed, in this or another program: `core/handler.py:93-94`,
`/repo/nephosem/utils.py:93-105`.  The files in that directory and below are removed. -/
def cleanTmp (home : Str) (fs : FS κ Int) : FS κ Int := fun p => if (home ++ ['/']).isPrefixOf p then none else fs p

end Verif.Cooc
