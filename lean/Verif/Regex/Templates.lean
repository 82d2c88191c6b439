import Verif.Regex.Lemmas
import Verif.Dep.Feature
import Verif.Front.Vocab

/-!
# Regular expressions of templates and of `Vocab.match`

The models of dependency templates have what `re.match` does as parameters; here these are filled in.
-/

namespace Verif.Regex

open Verif.Py
open Verif.Vocab.Plain (Str)
open Verif.Vocab (Vocab)

/-- `re.match(regex, value)` as a truth value, `/repo/nephosem/core/graph.py:476, 497`. -/
def rxS (u : Tables) (regex value : String) : Bool := (reMatch u regex.toList value.toList).isSome

/-- `re.match(regex, value).group(gid)`, `/repo/nephosem/core/graph.py:670-676, 695-698, 766-786`; `none` for exceptions. -/
def grpS (u : Tables) (regex value : String) (gid : Nat) : Option String :=
  match reMatch u regex.toList value.toList with
  | none => none
  | some m => match m[gid]? with
    | some (some g) => some (String.ofList g)
    | _ => none

/-- `Vocab.match(column, pattern)`, `/repo/nephosem/core/vocab.py:323-344`, with its regular expression. -/
def vocabMatch (u : Tables) (pattern column : Str) (v : Vocab Str) : Except Verif.Front.VErr (List Str) :=
  Verif.Front.matchItems (fun s => (reMatch u pattern s).isSome) column v

end Verif.Regex
