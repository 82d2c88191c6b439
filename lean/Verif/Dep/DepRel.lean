import Verif.Dep.Sentence
import Verif.Dep.Feature
import Verif.Cooc.Model

/-!
# `DepRelHandler` as a whole: `/repo/nephosem/models/deprel.py:43-276`

Jobs and results go through the engine of `Verif.Engine.Model` (`DepCall`); here are the concrete matches of a file and the
matrix built from the recorded matches.
-/

namespace Verif.Dep
open Verif.Py Verif.Window Verif.Engine Verif.Matrix Verif.Cooc

/-- `sorted(s)` for a set `s` with the elements of a list. -/
def sortedSet {κ : Type} [LinearOrder κ] (l : List κ) : List κ := sortedBy id l.dedup

/-- The counting and the matrix of `build_matrix_by_matches` from the list of (target, feature) pairs in the order in which
they are read: `/repo/nephosem/models/deprel.py:149-163`. -/
def pairMatrix {κ : Type} [LinearOrder κ] (ps : List (κ × κ)) : Except Matrix.Err (Mtx κ Int) :=
  dict2matrix (ps.foldl (fun d p => bump d p.1 p.2) []) (sortedSet (ps.map Prod.fst)) (sortedSet (ps.map Prod.snd))

/-- The two strings of a match: `deprel.py:154, 156`. -/
def pairOf (grp : String → String → Nat → Option String) (tok : Bool) (m : Macro) (mt : Match) : Except Err (String × String) := do
  let t ← targetStr grp tok m mt
  let f ← featureStr grp m mt
  .ok (t, f)

/-- The pairs of one macro. -/
def macroPairs (grp : String → String → Nat → Option String) (tok : Bool) (m : Macro) : Except Err (List (String × String)) :=
  m.found.mapM (pairOf grp tok m)

/-- The loops of `build_matrix_by_matches`: `deprel.py:151-157`. -/
def matchPairs (grp : String → String → Nat → Option String) (tok : Bool) (ms : List Macro) : Except Err (List (String × String)) := do
  let l ← ms.mapM (macroPairs grp tok)
  .ok l.flatten

/-- Exceptions of the matrix classes among those of this model; only `ValueError` can occur. -/
def ofMatrixErr : Matrix.Err → Err
  | .keyError => .keyError
  | .typeError => .typeError
  | .indexError => .indexError
  | .attributeError => .attributeError
  | _ => .valueError

/-- `build_matrix_by_matches`: `/repo/nephosem/models/deprel.py:147-163`. -/
def matchMatrix (grp : String → String → Nat → Option String) (tok : Bool) (ms : List Macro) : Except Err (Mtx String Int) := do
  let ps ← matchPairs grp tok ms
  match pairMatrix ps with
  | .ok m => .ok m
  | .error e => .error (ofMatrixErr e)

/-- A corpus file: the base name without its extension (`deprel.py:256`) and its lines. -/
structure CorpusFile where
  base : String
  lines : List String

/-- The file name handed to the sentences: only in token mode (`deprel.py:239, 260`). -/
def fileId (tok : Bool) (c : CorpusFile) : Option String := if tok then some c.base else none

/-- The matches that a worker finds in one file for the macro with number `i` (macros without earlier matches): `found` of
the engine model.  A file that raises an exception ends its worker; this case is excluded by the hypotheses of the theorems. -/
def depFound (rx : String → String → Bool) (istree : Graph → Bool) (f : LineFormat) (tok : Bool) (targets : List String)
    (macros : List Macro) (c : CorpusFile) (i : Nat) : List Match :=
  match depJob rx istree f (fileId tok c) targets macros c.lines with
  | .ok ms => match ms[i]? with
    | some m => m.found
    | none => []
  | .error _ => []

/-- The macros of the handler after `_process_results`: `deprel.py:269-276`. -/
def withFound (macros : List Macro) (acc : Nat → List Match) : List Macro :=
  macros.zipIdx.map (fun e => { e.1 with found := acc e.2 })

end Verif.Dep
