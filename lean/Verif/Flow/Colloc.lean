import Verif.Front.Tokens
import Verif.Vocab.Model

/-!
# `TypeToken.make_token_colloc`: `/repo/nephosem/models/typetoken.py:1156-1175`
-/

namespace Verif.Flow
open Verif.Py Verif.Vocab Verif.Matrix Verif.Front
open Verif.Vocab.Plain (Str)
open Verif.Items (TypeN)

/-- Exceptions: of the nodes, of the matrix functions, and `AttributeError` for the missing `type_nodes`. -/
inductive CErr where
  | items (e : Items.Err)
  | matrix (e : Matrix.Err)
  | attribute
  deriving DecidableEq

/-- The collocates that are recorded, sorted: typetoken.py 1166-1170. -/
def observed (d : Dict Str (Dict Str Int)) : List Str := sortedBy id (d.flatMap (fun p => Dict.keys p.2)).dedup

/-- The columns, typetoken.py 1163-1170; `get_item_list()` is sorted (`Verif.Vocab.itemList`). -/
def collocCols (v : Vocab Str) (d : Dict Str (Dict Str Int)) : List Str :=
  if Vocab.len v = 0 then observed d else itemList v

/-- The rows, typetoken.py 1162. -/
def collocRows (d : Dict Str (Dict Str Int)) : List Str := sortedBy id (Dict.keys d)

/-- The matrix of one type from its nested dict, typetoken.py 1162-1172. -/
def collocMatrix (v : Vocab Str) (d : Dict Str (Dict Str Int)) : Except Matrix.Err (Mtx Str Int) := do
  let s ← dictToSp d (collocRows d) (collocCols v d)
  mkMtx (.sp s) (collocRows d) (collocCols v d)

/-- One type, typetoken.py 1160-1172.  An empty vocabulary stands for `None` as well. -/
def typeColloc (lspan rspan : Nat) (fmt : Str) (v : Vocab Str) (n : TypeN) : Except CErr (Mtx Str Int) :=
  match readTokenColloc lspan rspan fmt (Dict.keys v.freq) n with
  | .error e => .error (.items e)
  | .ok d => match collocMatrix v d with
    | .error e => .error (.matrix e)
    | .ok m => .ok m

/-- The loop over the types, typetoken.py 1158-1175. -/
def collocLoop (lspan rspan : Nat) (fmt : Str) (v : Vocab Str) (nodes : Dict Str TypeN) :
    Except CErr (Dict Str (Mtx Str Int)) :=
  nodes.mapM (fun p => do
    let m ← typeColloc lspan rspan fmt v p.2
    return (p.1, m))

/-- `make_token_colloc(type_nodes, colloc_vocab)`, typetoken.py 1156-1175; `attr` is the attribute `type_nodes`, if it
exists; it is used if no nodes or an empty dict are given. -/
def makeTokenColloc (lspan rspan : Nat) (fmt : Str) (v : Vocab Str) (attr given : Option (Dict Str TypeN)) :
    Except CErr (Dict Str (Mtx Str Int)) :=
  match given with
  | some (p :: nodes) => collocLoop lspan rspan fmt v (p :: nodes)
  | _ => match attr with
    | some nodes => collocLoop lspan rspan fmt v nodes
    | none => .error .attribute

end Verif.Flow
