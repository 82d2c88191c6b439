import Verif.Dep.Match
import Verif.Py.Sort
import Mathlib.Data.String.Basic

/-!
# Target and feature strings of matches: `/repo/nephosem/core/graph.py:658-787`

`re.match(regex, value).group(gid)` is a parameter `grp`, with `none` for every exception (no match, no such group): the
bare `except` of the code turns all of them into `*`.  A group that took no part in the match is `None` in Python, and
`str.join` raises on it; this case is left out.
-/

namespace Verif.Dep
open Verif.Py

section
variable (grp : String → String → Nat → Option String)

/-- `re.match(regex, value).group(gid)`, or `*`. -/
def groupStr (regex value : String) (gid : Nat) : String := (grp regex value gid).getD "*"

/-- One attribute of a node or edge representation: `graph.py:686-693, 767-774, 780-786`. -/
def attrRepr (pat item : Attrs) (e : String × Nat) : Except Err String := do
  let regex ← getD pat e.1
  let v ← getD item e.1
  .ok (groupStr grp regex v e.2)

/-- The same for nodes: the value of `lid` is an integer, on which `re.match` raises `TypeError`. -/
def nodeAttrRepr (pat item : Attrs) (e : String × Nat) : Except Err String := do
  let regex ← getD pat e.1
  let v ← getD item e.1
  if e.1 = "lid" then .error .typeError else .ok (groupStr grp regex v e.2)

/-- The loop body of `target`: `graph.py:663-678`; `none` for an attribute that is skipped. -/
def targetAttr (tok : Bool) (pat item : Attrs) (e : String × Nat) : Except Err (Option String) :=
  if isTokenAttr e.1 then
    if tok then do
      let v ← getD item e.1
      .ok (some v)
    else .ok none
  else do
    let v ← attrRepr grp pat item e
    .ok (some v)

/-- `target(index, mode)` of a match: `graph.py:658-680`; `tok` for `mode='token'`. -/
def targetStr (tok : Bool) (m : Macro) (mt : Match) : Except Err String := do
  let pat ← getD m.graph.nodes m.targetIdx
  let item ← getD mt.nodes m.targetIdx
  let vals ← m.targetAttrs.mapM (targetAttr grp tok pat item)
  .ok (m.connector.intercalate (vals.filterMap id))

/-- `get_node_repr`: `graph.py:763-774`, with the lookup `node_dict[nid]` of its callers. -/
def nodeRepr (m : Macro) (mt : Match) (v : Nat) : Except Err String := do
  let item ← getD mt.nodes v
  let pat ← getD m.graph.nodes v
  let vals ← m.featNodeAttrs.mapM (nodeAttrRepr grp pat item)
  .ok (m.connector.intercalate vals)

/-- `get_edge_repr`: `graph.py:776-787`, with the lookup `edge_dict[eid]` of its callers. -/
def edgeRepr (m : Macro) (mt : Match) (e : Nat × Nat) : Except Err String := do
  let item ← getD mt.edges e
  let pat ← getD m.graph.edges e
  let vals ← m.featEdgeAttrs.mapM (attrRepr grp pat item)
  .ok (m.connector.intercalate vals)

/-- `feature_simple`: `graph.py:689-702`. -/
def featureSimple (m : Macro) (mt : Match) (idx : Nat) : Except Err String := nodeRepr grp m mt idx

/-- `s.split(':')[0]`. -/
def firstPart (s : String) : String := String.ofList (s.toList.takeWhile (· ≠ ':'))

/-- `':'.join([a, b])`. -/
def colon (a b : String) : String := a ++ ":" ++ b

/-- A successor with its representation: `graph.py:730-735`. -/
def succRepr (m : Macro) (mt : Match) (cur succ : Nat) : Except Err (Nat × String) := do
  let er ← edgeRepr grp m mt (cur, succ)
  let nr ← nodeRepr grp m mt succ
  .ok (succ, colon er nr)

/-- What is shown of one of several successors: `graph.py:739-743`. -/
def shown (m : Macro) (e : Nat × String) : String :=
  if e.1 = m.targetIdx then colon (firstPart e.2) "#T#" else e.2

/-- What is shown of an only successor: `graph.py:752-760`. -/
def shownOne (m : Macro) (mt : Match) (cur succ : Nat) : Except Err String := do
  let er ← edgeRepr grp m mt (cur, succ)
  let nr ← nodeRepr grp m mt succ
  .ok (if succ = m.targetIdx then colon er "#T#" else colon er nr)

/-- A successor followed by its own successors: `graph.py:739-745`. -/
def addRest (m : Macro) (e : Nat × String) (rest : Except Err String) : Except Err String :=
  match rest with
  | .ok t => .ok (shown m e ++ t)
  | .error err => .error err

/-- `preorder_recur`: `graph.py:721-761`.  The strings appended to `reprs` are returned joined; the fuel bounds the depth
of the recursion. -/
def preorder (m : Macro) (mt : Match) : Nat → Nat → Except Err String
  | 0, _ => .error .diverges
  | n + 1, cur =>
    match m.graph.succ cur with
    | [] => .ok ""
    | [w] => do
      let one ← shownOne grp m mt cur w
      let rest ← preorder m mt n w
      .ok ("->" ++ one ++ rest)
    | ws => do
      let succs ← ws.mapM (succRepr grp m mt cur)
      let parts ← (sortedBy (fun e : Nat × String => e.2) succs).mapM (fun e => addRest m e (preorder m mt n e.1))
      .ok ("->" ++ "[" ++ ",".intercalate parts ++ "]")

/-- `feature_full`: `graph.py:704-719`. -/
def featureFull (m : Macro) (mt : Match) : Except Err String := do
  let start ← (if 1 = m.targetIdx then .ok "#T#" else nodeRepr grp m mt 1)
  if 1 ∈ m.graph.nodes.keys then do
    let rest ← preorder grp m mt (m.graph.nodes.length + 1) 1
    .ok (start ++ rest)
  else .error .networkX

/-- `feature(index)`: `graph.py:682-687`. -/
def featureStr (m : Macro) (mt : Match) : Except Err String :=
  match m.featureIdx with
  | none => featureFull grp m mt
  | some i => featureSimple grp m mt i

end

end Verif.Dep
