import Verif.Dep.DepRel
import Verif.Dep.Readers

/-!
# Setting up a `DepRelHandler`: `/repo/nephosem/models/deprel.py:43-103`
-/

namespace Verif.Dep
open Verif.Py Verif.Vocab.Plain

/-- What the caller may give as `targets`: nothing, a list, a vocabulary (its keys), or something else. -/
inductive TargetsArg where
  | none
  | list (l : List String)
  | vocab (keys : List String)
  | other

/-- A `DepRelHandler` as far as templates are concerned: the keys of `targets`, `mode == 'token'` and the macros. -/
structure DepHandler where
  targets : List String
  tok : Bool
  macros : List Macro

/-- `DepRelHandler.__init__`: `/repo/nephosem/models/deprel.py:46-60`.  The keys of `{t: 0 for t in targets}` are the
different elements in the order of their first occurrence.  The settings and workers are left out. -/
def newDepHandler (targets : TargetsArg) (tok : Bool) : Except Err DepHandler :=
  match targets with
  | .none => .ok ⟨[], tok, []⟩
  | .list l => .ok ⟨Dict.keys (l.foldl (fun d t => Dict.set d t (0 : Int)) []), tok, []⟩
  | .vocab ks => .ok ⟨ks, tok, []⟩
  | .other => .error .attributeError

/-- A macro without its matches: `deprel.py:97-99`. -/
def clearMatches (m : Macro) : Macro := { m with found := [] }

/-- `read_templates`: `/repo/nephosem/models/deprel.py:62-103`.  `file` is the table that the file name leads to, `none` if no
(or an empty) name is given.  A missing file or a file that is no table is left out. -/
def readTemplates (h : DepHandler) (macros : Option (List Macro)) (file : Option (List (Str × Str))) : Except Err DepHandler :=
  match macros with
  | some (m :: ms) => .ok { h with macros := (m :: ms).map clearMatches }
  | _ =>
    match file with
    | some rows => (readCsvMacros rows).map (fun ms => { h with macros := ms })
    | none => .error .valueError

end Verif.Dep
