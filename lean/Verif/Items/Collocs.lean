import Verif.Items.Nodes

/-!
# The collocates of a type node (`nephosem/core/terms.py` 207-220)

`ItemNode` defines neither `__eq__` nor `__hash__`, so a Python set of item nodes tells them apart by identity.  A node is
therefore given with its identity, a number.
-/

namespace Verif.Items

open Verif.Py
open Verif.Vocab.Plain (Str)

/-- An item node as an object. -/
structure NodeObj where
  ident : Nat
  attrs : Attrs
deriving DecidableEq

/-- The collocates of a token node, `None` if it was made without them (terms.py 309). -/
structure TokenObj where
  lcollocs : Option (List NodeObj)
  rcollocs : Option (List NodeObj)
deriving DecidableEq

/-- `collocs.update(set(nodes))`: the set as the list of its members in the order of their arrival (a Python set has no order of
its own); `set(None)` is a `TypeError`. -/
def addNodes (acc : List NodeObj) : Option (List NodeObj) → Except Err (List NodeObj)
  | none => .error .type
  | some ns => .ok (ns.foldl (fun acc n => if acc.any (fun x => x.ident == n.ident) then acc else acc ++ [n]) acc)

/-- The loop of `get_collocs`, terms.py 217-219. -/
def collocsLoop : List TokenObj → List NodeObj → Except Err (List NodeObj)
  | [], acc => .ok acc
  | t :: ts, acc => do
    let acc ← addNodes acc t.lcollocs
    let acc ← addNodes acc t.rcollocs
    collocsLoop ts acc

/-- `TypeNode.get_collocs()`, also `TypeNode.collocs`: terms.py 207-220. -/
def getCollocs (tokens : List TokenObj) : Except Err (List NodeObj) := collocsLoop tokens []

end Verif.Items
