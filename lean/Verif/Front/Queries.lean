import Verif.Items.Text
import Verif.Py.Dict

/-!
# Word queries (`nephosem/utils.py` 346-469)

A query file is its decoded text, or nothing if there is no such file.
-/

namespace Verif.Front

open Verif.Py
open Verif.Vocab.Plain (Str strip lines)

/-- A word query: a string, or a dictionary from corpus names to words (the value `none` is Python's `None`). -/
inductive Query where
  | plain (s : Str)
  | table (d : Dict Str (Option Str))
  deriving DecidableEq, Repr

/-- One field of a line with tabs, utils.py 426-434. -/
def fieldStep (key : Str) (item : Dict Str (Option Str)) (field : Str) : Dict Str (Option Str) :=
  match Items.split ':' field with
  | [c, w] =>
    let item' := Dict.set item (strip c) (some (strip w))
    if (Dict.get? item' key).join = none then Dict.set item' key (some (strip w)) else item'
  | _ => item

/-- One line of the file, utils.py 414-435; nothing for a line that is skipped. -/
def readLine (key : Str) (raw : Str) : Option Query :=
  let line := strip raw
  match line with
  | [] => none
  | '#' :: _ => none
  | _ => if '\t' ∈ line
    then some (.table ((Items.split '\t' line).foldl (fieldStep key) [(key, none)]))
    else some (.plain line)

/-- `read_word_queries(fname, wquery_default_key)`, utils.py 346-436, on the text of the file. -/
def readWordQueries (key : Str) : Option Str → List Query
  | none => []
  | some text => (lines [] text).filterMap (readLine key)

/-- `get_word_str(wquery, specific, corpus_name, def_key)`, utils.py 442-469; an error is the `KeyError` of line 468,
which is also raised when no default key is given.  A result of `none` is Python's `None`. -/
def getWordStr (q : Query) (specific : Bool) (corpus : Str) (defKey : Option Str) : Except Unit (Option Str) :=
  match q with
  | .plain s => .ok (some s)
  | .table d =>
    match (if specific then Dict.get? d corpus else none) with
    | some w => .ok w
    | none =>
      match defKey.bind (Dict.get? d) with
      | some w => .ok w
      | none => .error ()

end Verif.Front
