import Verif.Vocab.Plain
import Verif.Items.Text

/-!
# Further methods of vocabularies (`nephosem/core/vocab.py`)

Items are strings here, because their parts matter.
-/

namespace Verif.Front

open Verif.Py
open Verif.Vocab (Vocab)
open Verif.Vocab.Plain (Str)

/-- `s.rsplit(c, 1)[0]` for a one-character separator: the text before the last one, or the whole text. -/
def beforeLast (c : Char) (s : Str) : Str :=
  if c ∈ s then ((s.reverse.dropWhile (fun x => x != c)).drop 1).reverse else s

/-- `select_items(word)`, vocab.py 278-291. -/
def selectItems (v : Vocab Str) (word : Str) : Vocab Str :=
  Vocab.mk' (v.freq.foldl (fun d p => if word = beforeLast '/' p.1 then Dict.set d p.1 p.2 else d) [])

/-- The frequency of a type or zero, vocab.py 305-308. -/
def freqOrZero (v : Vocab Str) (t : Str) : Int :=
  match Dict.get? v.freq t with
  | some n => n
  | none => 0

/-- The dictionary that `make_type_file(type_list, out_fname)` writes, vocab.py 293-310.  Writing the JSON file
itself is not modelled. -/
def makeTypeFile (v : Vocab Str) (types : List Str) : Dict Str Int :=
  types.foldl (fun d t => Dict.set d t (freqOrZero v t)) []

/-- The exceptions of the methods here. -/
inductive VErr where
  | key | type | name
  deriving DecidableEq, Repr

/-- `regex_item(x[column], pattern)` for a row of the data frame, vocab.py 323-326 and 343.  What `re.match` says about
a string is the parameter `re`; it refuses a number. -/
def regexCell (re : Str → Bool) (column : Str) (p : Str × Int) : Except VErr Bool :=
  if column = "item".toList then .ok (re p.1)
  else if column = "freq".toList then .error .type
  else .error .key

/-- `match(column_name, pattern)`, vocab.py 328-344: the cells of the column in the rows that match.  Only rows of the
column `item` get as far as being returned.  Simplified: for an empty vocabulary an unknown column name is a `KeyError`
in Python. -/
def matchItems (re : Str → Bool) (column : Str) (v : Vocab Str) : Except VErr (List Str) := do
  let keep ← (Vocab.dataframe v).mapM (regexCell re column)
  return (((Vocab.dataframe v).zip keep).filter (·.2)).map (·.1.1)

/-- `select_subsets(specif_words)`, vocab.py 470-515: the first statement of the first loop (491) uses the name
`WordDict`, which is defined nowhere in the package; so only the empty list of words gets past it. -/
def selectSubsets (words : List Str) : Except VErr (Dict Str Unit) :=
  match words with
  | [] => .ok []
  | _ :: _ => .error .name

/-- What looking up an attribute of a vocabulary gives. -/
inductive Attribute where
  | defined
  | self
  | none
  deriving DecidableEq, Repr

/-- `getattr(vocab, name)`, vocab.py 179-184: `defined` says which names the object or its class has.
Python asks `__getattr__` for the others; a function that ends without `return` returns `None`. -/
def getAttribute (defined : Str → Bool) (name : Str) : Except Unit Attribute :=
  if defined name then .ok .defined
  else if name = "freq".toList then .ok .self
  else .ok .none

/-- The end of `copy.deepcopy(obj)` for an object without a `__deepcopy__` method (`copy._reconstruct` of the standard
library): a fresh object is asked for its method `__setstate__`; if it has none, the attributes are copied, and
otherwise the answer is called.  `lookup` is how the object answers for the name; calling `None` is a `TypeError`. -/
def reconstruct {α : Type} (lookup : Except Unit Attribute) (attributes : α) (setstate : α → Except VErr α) :
    Except VErr α :=
  match lookup with
  | .error () => .ok attributes
  | .ok .none => .error .type
  | .ok _ => setstate attributes

/-- `copy.deepcopy(vocab)`, see `reconstruct` and vocab.py 179-184.  The class defines no `__setstate__`, and the
answer for `__deepcopy__` is `None`, which counts as no such method. -/
def copyDeepcopy (defined : Str → Bool) (v : Vocab Str) : Except VErr (Vocab Str) :=
  reconstruct (getAttribute defined "__setstate__".toList) v .ok

end Verif.Front
