import Verif.Setup.Config
import Verif.Vocab.Plain
import Verif.Py.Sort

/-!
# Temporary directories and file lists

`nephosem/core/handler.py` 86-94 and 244-299, `nephosem/utils.py` 86-175.

Paths are of an abstract type `P`, with `join` for `os.path.join` and `below dir p` for "`p` lies in `dir` or
further down".  File names are lists of characters.
-/

namespace Verif.Setup

open Verif.Py
open Verif.Vocab.Plain (Str strip)

/-- The settings a handler looks at when it chooses its directories. -/
structure DirSettings (P : Type) where
  tmpPath : Option P
  outputPath : Option P
deriving DecidableEq

/-- The environment: the default directory `nephosem.tmpdir`, path joining, position in the tree, and which
entries `os.remove`/`rmtree` can delete. -/
structure Env (P : Type) where
  dflt : P
  join : P → String → P
  below : P → P → Bool
  removable : P → Bool

variable {P : Type}

/-- `clean_dir(dirname)`, utils.py 93-105, on the paths of all existing files; failures are logged. -/
def cleanDir (env : Env P) (dir : P) (files : List P) : List P :=
  files.filter (fun p => !(env.below dir p && env.removable p))

/-- The choice of `self.tmpdir`, handler.py 255-268. -/
def chooseTmp (env : Env P) (indicator : String) (s : DirSettings P) : Except Err P := do
  let tmp ← (match s.tmpPath with
    | some t => .ok t
    | none => match s.outputPath with
      | none => .error .key  -- `self.settings['output-path']`
      | some _ => .ok env.dflt)
  return env.join tmp indicator

/-- What a new handler knows: its temporary directory and its output directory. -/
structure Handler (P : Type) where
  tmpdir : P
  outputPath : P
deriving DecidableEq

/-- Constructing a handler, handler.py 86-94 and 244-268: first the default temporary directory is created and
emptied, then the directories are chosen.  (`CorpusFormatter` is left out.)  Returns the files that are left
and the handler. -/
def construct (env : Env P) (indicator : String) (s : DirSettings P) (files : List P) :
    List P × Except Err (Handler P) :=
  (cleanDir env env.dflt files, do
    let tmpdir ← chooseTmp env indicator s
    return ⟨tmpdir, s.outputPath.getD env.dflt⟩)

/-! ## File lists -/

/-- The disk, for reading: name ↦ lines. `isFnames` tells whether `os.path.splitext` finds the extension
`.fnames`. -/
structure Disk where
  lines : Str → Option (List Str)
  isFnames : Str → Bool

/-- One line of a file list, utils.py 141-145. -/
def keepLine (line : Str) : Option Str :=
  let l := strip line
  if l.length ≤ 0 || l.head? == some '#' then none else some l

/-- Placing a name, utils.py 151-155. -/
def placeName (dirname fname : Str) : Str :=
  if '/' ∉ fname then dirname ++ '/' :: fname else fname

/-- `read_fnames(filename, dirname, encoding)`, utils.py 121-158; the encoding is not modelled. -/
def readFnames (disk : Disk) (filename dirname : Str) (_encoding : Str := "utf-8".toList) :
    Except Err (List Str) :=
  let filename := if disk.isFnames filename then filename else filename ++ ".fnames".toList
  match disk.lines filename with
  | none => .error .io
  | some ls => .ok ((ls.filterMap keepLine).map (placeName dirname))

/-- The result of `os.walk`: root, sub-directories, files. -/
abbrev Walk := List (Str × List Str × List Str)

/-- `read_fnames_of_corpus`, utils.py 161-174. Tuples are sorted by their first component only: the roots
`os.walk` gives are distinct. -/
def readFnamesOfCorpus (join : Str → Str → Str) (walk : Walk) : List Str :=
  (sortedBy Prod.fst walk).flatMap (fun r => r.2.2.map (join r.1))

/-- The `fnames` argument. -/
inductive Fnames where
  | none
  | list (l : List Str)
  | file (name : Str)
  | other

/-- `prepare_fnames(fnames)`, handler.py 275-299; `walk` is `none` if there is no corpus path (`TypeError`). -/
def prepareFnames (disk : Disk) (join : Str → Str → Str) (walk : Option Walk) (encoding : Str) :
    Fnames → Except Err (List Str)
  | .none => match walk with
    | some w => .ok (readFnamesOfCorpus join w)
    | Option.none => .error .type
  | .list l => .ok l
  | .file name => readFnames disk name encoding
  | .other => .error .value

end Verif.Setup
