import Verif.Regex.Model
import Verif.Corpus.Formatter
import Verif.Dep.Sentence

/-!
# From the text of a corpus file to items: lines, white space, line machine

`/repo/nephosem/core/handler.py:323-338`, `/repo/nephosem/models/typetoken.py:158-166` and
`/repo/nephosem/models/deprel.py:293-305` open the file with `codecs.open`, iterate over its lines and strip each of them.
Decoding is not modelled: a file is its decoded text.
-/

namespace Verif.Regex

open Verif.Py
open Verif.Vocab.Plain (Str isSpace isBreak strip)
open Verif.Items (Match Settings Formatter Err Line readLine getType getColloc)

/-- `for line in fin` with `codecs.open` (handler.py 323-325): `str.splitlines(keepends=True)`, so that every line boundary
of Unicode ends a line, and `\r\n` is one boundary.  The first argument holds the characters of the current line, the last
one first.  Reading in chunks is not modelled. -/
def corpusLines : Str → Str → List Str
  | acc, [] => if acc = [] then [] else [acc.reverse]
  | acc, c :: cs =>
    if isBreak c then
      if c = '\r' ∧ cs.head? = some '\n' then corpusLines (c :: acc) cs
      else (c :: acc).reverse :: corpusLines [] cs
    else corpusLines (c :: acc) cs

/-- The lines of a file as the handlers see them: stripped (handler.py 327). -/
def fileLines (text : Str) : List Str := (corpusLines [] text).map strip

/-- What `update_one_file` makes of the lines of a file, with their numbers (handler.py 324-338). -/
def readText (rx : Verif.Items.Regex) (f : Formatter) (text : Str) : Except Err (List (Nat × Line)) :=
  ((fileLines text).zipIdx 1).mapM (fun p => do
    let l ← readLine rx f p.1
    return (p.2, l))

/-- The formatter as the models of counting use it (terms.py 640-687).  Simplified: a line whose type cannot be built (a
group that takes no part in the match, or too few groups) has the empty type here; Python raises. -/
def asFormatter (rx : Verif.Items.Regex) (f : Formatter) : Verif.Corpus.Formatter Str Match Str where
  matchLine line := match f.lineMachine with
    | some m => rx m line
    | none => none
  isSep line := match f.single with
    | some m => (rx m line).isSome
    | none => false
  getType m := match getType f m with
    | .ok t => t
    | .error _ => []
  getColloc m := match getColloc f m with
    | .ok t => t
    | .error _ => []

/-- The settings shipped with the package that a formatter uses: `/repo/nephosem/config.ini:13-25`. -/
def shipped : Settings :=
  [("line-machine", "([^\\t]+)\\t([^\\t]+)\\t([^\\t]+)".toList), ("line-format", "word,pos,lemma".toList),
   ("type", "lemma/pos".toList), ("colloc", "lemma/pos".toList), ("token", "word/pos/fid/lid".toList),
   ("boundary-detection-mechanism", "single".toList), ("separator-line-machine", "</artikel>".toList),
   ("single-boundary-machine", "</artikel>".toList),
   ("left-boundary-machine", "^<artikel naam  =  \"([^\"]+)\"   >   $".toList), ("right-boundary-machine", "^</artikel>$".toList)]

/-- The settings as the dependency handlers use them: `/repo/nephosem/core/terms.py:576-687`, with real line machines.  Simplified:
a group that takes no part in the match is empty here, `None` in Python; machines of columns have no such groups. -/
def depFormat (u : Tables) (toInt : String → Option Nat) (lm sep : Str) (columns nodeAttr : List String) (edgeAttr : Option (List String))
    (currID headID : String) : Verif.Dep.LineFormat where
  groups line := (reMatch u lm line.toList).map (fun m => m.map (fun g => String.ofList (g.getD [])))
  isSep line := (reMatch u sep line.toList).isSome
  toInt := toInt
  columns := columns
  nodeAttr := nodeAttr
  edgeAttr := edgeAttr
  currID := currID
  headID := headID

/-- The lines of a file for `read_sentence`, `/repo/nephosem/models/deprel.py:293-296`. -/
def depLines (text : Str) : List String := (fileLines text).map String.ofList

end Verif.Regex
