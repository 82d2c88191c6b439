import Verif.Dep.Graph

/-!
# Matching patterns against sentences: `/repo/nephosem/specutils/deputils.py:161-360`, `core/graph.py:458-501, 604-652`

Attribute values are strings; `re.match(regex, value)` is a parameter `rx`.  The attribute `id` which networkx edges get is
left out (the code skips it).  The attribute `lid` of the nodes of a sentence is an integer in Python (`graph.py:265`), on which `re.match`
raises `TypeError`; here it is kept as the decimal string that `target` makes of it, and conditions on it raise `TypeError`.
-/

namespace Verif.Dep
open Verif.Py

/-- Attributes of a node or an edge: values in sentences, regular expressions in patterns. -/
abbrev Attrs := Dict String String

/-- Sentence graphs and pattern graphs. -/
abbrev Graph := DG Attrs Attrs

section
variable (rx : String → String → Bool)

/-- The loop over the attributes of a pattern node or edge: `graph.py:473-480, 494-501`. -/
def matchLoop : Attrs → Attrs → Except Err Bool
  | [], _ => .ok true
  | (attr, regex) :: rest, item =>
    match item.get? attr with
    | none => .error .keyError
    | some v => if rx regex v then matchLoop rest item else .ok false

/-- The same loop for nodes: `graph.py:475-480`, where the value of `lid` is an integer. -/
def matchNodeLoop : Attrs → Attrs → Except Err Bool
  | [], _ => .ok true
  | (attr, regex) :: rest, item =>
    match item.get? attr with
    | none => .error .keyError
    | some v => if attr = "lid" then .error .typeError else if rx regex v then matchNodeLoop rest item else .ok false

/-- Truth value of what `match_node` and `match_edge` return: an empty dict counts as false. -/
def matchAttrs (pat item : Attrs) : Except Err Bool :=
  match matchLoop rx pat item with
  | .ok b => .ok (b && !pat.isEmpty)
  | .error e => .error e

/-- The same for nodes. -/
def matchNodeAttrs (pat item : Attrs) : Except Err Bool :=
  match matchNodeLoop rx pat item with
  | .ok b => .ok (b && !pat.isEmpty)
  | .error e => .error e

/-- `match_node`: `graph.py:458-480`, as a truth value. -/
def matchNode (p : Graph) (item : Attrs) (idx : Nat) : Except Err Bool :=
  if item = [] then .ok false
  else match p.nodes.get? idx with
    | none => .error .keyError
    | some pat => matchNodeAttrs rx pat item

/-- `match_edge`: `graph.py:482-501`, as a truth value. -/
def matchEdge (p : Graph) (item : Attrs) (idx : Nat × Nat) : Except Err Bool :=
  match p.edges.get? idx with
  | none => .error .keyError
  | some pat => matchAttrs rx pat item

/-- The matching successors of `scur` for the pattern node `fsuc`: `deputils.py:340-351`. -/
def cands (s p : Graph) (scur fcur fsuc : Nat) (onemap : Dict Nat Nat) : List Nat → Except Err (List Nat)
  | [] => .ok []
  | ssuc :: rest =>
    if ssuc ∈ onemap.keys then cands s p scur fcur fsuc onemap rest
    else
      match s.nodes.get? ssuc, s.edges.get? (scur, ssuc) with
      | some vitem, some eitem => do
        let vm ← matchNode rx p vitem fsuc
        let em ← matchEdge rx p eitem (fcur, fsuc)
        let r ← cands s p scur fcur fsuc onemap rest
        .ok (if vm && em then ssuc :: r else r)
      | _, _ => .error .keyError

/-- The extensions of one map: `deputils.py:339-356`. -/
def extendOne (s p : Graph) (scur fcur fsuc : Nat) (onemap : Dict Nat Nat) : Except Err (List (Dict Nat Nat)) := do
  let ms ← cands rx s p scur fcur fsuc onemap (s.succ scur)
  .ok (ms.map (fun ssuc => Dict.set onemap ssuc fsuc))

/-- One round over the queue: `deputils.py:336-357`. -/
def succStep (s p : Graph) (scur fcur : Nat) (mapping : List (Dict Nat Nat)) (fsuc : Nat) :
    Except Err (List (Dict Nat Nat)) := do
  let parts ← mapping.mapM (extendOne rx s p scur fcur fsuc)
  .ok parts.flatten

/-- `{v: k for k, v in m.items()}`. -/
def invert (m : Dict Nat Nat) : Dict Nat Nat := Dict.ofPairs (m.map (fun e => (e.2, e.1)))

/-- `match_successors`: `deputils.py:311-360`.  The first component of the result is whether the list is non-empty. -/
def matchSuccessors (s : Graph) (scur : Nat) (p : Graph) (fcur : Nat) : Except Err (List (Dict Nat Nat)) :=
  if p.outDeg fcur = 0 then .ok [[]]
  else do
    let mapping ← (p.succ fcur).foldlM (succStep rx s p scur fcur) [[]]
    .ok (mapping.map invert)

/-- `match_level`: `deputils.py:270-308`; `none` is `(False, None)`. -/
def matchLevelGo (s p : Graph) : List (Nat × Nat) → List (Dict Nat Nat) → Except Err (Option (List (Dict Nat Nat)))
  | [], currmaps => .ok (some currmaps)
  | (fn, sn) :: rest, currmaps =>
    if p.outDeg fn = 0 then matchLevelGo s p rest currmaps
    else do
      let succmaps ← matchSuccessors rx s sn p fn
      if succmaps = [] then .ok none
      else matchLevelGo s p rest (currmaps.flatMap (fun prevone => succmaps.map (fun onemap => Dict.update prevone onemap)))

def matchLevel (s p : Graph) (prevmap : Dict Nat Nat) : Except Err (Option (List (Dict Nat Nat))) :=
  matchLevelGo rx s p prevmap [[]]

/-- A partial match is the list of its level maps; the maps that continue it: `deputils.py:222-234`. -/
def nextLevel (s p : Graph) (lmatch : List (Dict Nat Nat)) : Except Err (List (List (Dict Nat Nat))) :=
  match lmatch.getLast? with
  | none => .error .indexError
  | some currmap => do
    let r ← matchLevel rx s p currmap
    match r with
    | none => .ok []
    | some succs => .ok (succs.map (fun sucmap => lmatch ++ [sucmap]))

/-- `subtree_match` up to the call of `add_match`: `deputils.py:195-237`.  Returns the list of full matches. -/
def subtree (s p : Graph) (depth : Nat) : Nat → List (List (Dict Nat Nat)) → Except Err (List (List (Dict Nat Nat)))
  | 0, _ => .error .diverges
  | n + 1, lmatches =>
    match lmatches with
    | [] => .ok []
    | l :: _ =>
      if l.length = depth then .ok lmatches
      else do
        let parts ← lmatches.mapM (nextLevel rx s p)
        subtree s p depth n parts.flatten

/-- The merged maps of the levels: `deputils.py:243-246`. -/
def mergeLevels (lmatch : List (Dict Nat Nat)) : Dict Nat Nat := lmatch.foldl Dict.update []

/-- The matches found from one sentence node: the loop body of `tree_match`, `deputils.py:184-190`. -/
def matchFrom (s p : Graph) (depth froot : Nat) (node : Nat × Attrs) : Except Err (List (Dict Nat Nat)) := do
  let m ← matchNode rx p node.2 froot
  if m then do
    let ls ← subtree rx s p depth (depth + 1) [[[(froot, node.1)]]]
    .ok (ls.map mergeLevels)
  else .ok []

/-- The node maps that `tree_match` hands to `add_match`: `deputils.py:161-192`; `depth` is `macro.depth`. -/
def treeMaps (s p : Graph) (depth : Nat) : Except Err (List (Dict Nat Nat)) := do
  let froot ← getRoot p
  let parts ← s.nodes.mapM (matchFrom rx s p depth froot)
  .ok parts.flatten

end

/-- A recorded match: `matched_nodes` and `matched_edges`. -/
structure Match where
  nodes : Dict Nat Attrs
  edges : Dict (Nat × Nat) Attrs
  deriving DecidableEq, Repr

/-- `MacroGraph` (`graph.py:604-652`): the pattern graph, the attributes of the target string with their group numbers,
those of feature nodes and edges, the target filter (only membership is used; `none` for `None`), the matches. -/
structure Macro where
  graph : Graph
  targetIdx : Nat
  featureIdx : Option Nat
  targetAttrs : Dict String Nat
  featNodeAttrs : Dict String Nat
  featEdgeAttrs : Dict String Nat
  filter : Option (List String)
  connector : String
  depth : Nat
  found : List Match

/-- `d[k]`. -/
def getD {κ ν : Type} [DecidableEq κ] (d : Dict κ ν) (k : κ) : Except Err ν :=
  match d.get? k with
  | some v => .ok v
  | none => .error .keyError

/-- The attributes left out of target strings of types. -/
def isTokenAttr (a : String) : Bool := a == "FID" || a == "LID" || a == "fid" || a == "lid"

/-- The string that is looked up in the target filter: `deputils.py:250-253`. -/
def filterKey (m : Macro) (nodes : Dict Nat Attrs) : Except Err String := do
  let t ← getD nodes m.targetIdx
  let vals ← (m.targetAttrs.keys.filter (fun a => !isTokenAttr a)).mapM (fun a => getD t a)
  .ok (m.connector.intercalate vals)

/-- `target_type not in macro.target_filter` is false, or there is no filter: `deputils.py:249-257`. -/
def passes (m : Macro) (nodes : Dict Nat Attrs) : Except Err Bool :=
  match m.filter with
  | none => .ok true
  | some l => do
    let k ← filterKey m nodes
    .ok (decide (k ∈ l))

/-- The attributes of the matched nodes: `deputils.py:248`. -/
def nodeAttrs (s : Graph) (e : Nat × Nat) : Except Err (Nat × Attrs) := do
  let a ← getD s.nodes e.2
  .ok (e.1, a)

/-- The attributes of the matched edges: `deputils.py:263-264`. -/
def edgeAttrs (s : Graph) (nodemapping : Dict Nat Nat) (e : Nat × Nat) : Except Err ((Nat × Nat) × Attrs) := do
  let h ← getD nodemapping e.1
  let t ← getD nodemapping e.2
  let a ← getD s.edges (h, t)
  .ok (e, a)

/-- Loop body of `add_match`: `deputils.py:242-267`.  With `fid`, the name of the file, in token mode; there the node
attributes of the sentence are changed in place, always to the same value; here only in the match, so that this is the same only for
patterns without conditions on `FID` and `fid` (`GoodMacro`). -/
def addOne (s : Graph) (fid : Option String) (m : Macro) (nodemapping : Dict Nat Nat) : Except Err (Option Match) := do
  let nodes ← nodemapping.mapM (nodeAttrs s)
  let ok ← passes m nodes
  if ok then do
    let nodes := match fid with
      | none => nodes
      | some f => nodes.map (fun e => (e.1, Dict.set (Dict.set e.2 "FID" f) "fid" f))
    let edges ← m.graph.edges.keys.mapM (edgeAttrs s nodemapping)
    .ok (some ⟨nodes, edges⟩)
  else .ok none

/-- `tree_match`: `deputils.py:161-192`.  `istree` is `sentence.istree`, i.e. `networkx.is_tree` or false if that
raises. -/
def treeMatch (rx : String → String → Bool) (istree : Bool) (s : Graph) (fid : Option String) (m : Macro) : Except Err Macro :=
  if istree then do
    let maps ← treeMaps rx s m.graph m.depth
    let ms ← maps.mapM (addOne s fid m)
    .ok { m with found := m.found ++ ms.filterMap id }
  else .ok m

end Verif.Dep
