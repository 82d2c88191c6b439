import Verif.Dep.Match
import Verif.Vocab.Plain

/-!
# Undirected sentence graphs and the older matchers: `/repo/nephosem/core/graph.py:38-140, 284-379`,
`/repo/nephosem/specutils/deputils.py:363-422`, `/repo/nephosem/core/terms.py:711-736`
-/

namespace Verif.Dep
open Verif.Py Verif.Vocab.Plain

/-- `networkx.Graph`: nodes are strings; an edge is kept under the order in which it was first added, with its `rel`. -/
structure UG where
  nodes : List Str
  edges : Dict (Str × Str) Str

/-- `graph.add_node(v)`. -/
def UG.addNode (g : UG) (v : Str) : UG := if v ∈ g.nodes then g else { g with nodes := g.nodes ++ [v] }

/-- The key under which the edge between two nodes is kept. -/
def UG.keyOf (g : UG) (u v : Str) : Str × Str := if (v, u) ∈ g.edges.keys then (v, u) else (u, v)

/-- `Graph.add_edge`: `/repo/nephosem/core/graph.py:68-70`; networkx adds missing nodes, and an edge that exists gets the
new relation. -/
def UG.addEdge (g : UG) (u v rel : Str) : UG :=
  { nodes := ((g.addNode u).addNode v).nodes, edges := g.edges.set (g.keyOf u v) rel }

/-- `graph[u][v]['rel']`, `none` if there is no such edge. -/
def UG.rel (g : UG) (u v : Str) : Option Str :=
  match g.edges.get? (u, v) with
  | some r => some r
  | none => g.edges.get? (v, u)

/-- The other end of an edge. -/
def otherNode (v : Str) (e : (Str × Str) × Str) : Option Str :=
  if e.1.1 = v then some e.1.2 else if e.1.2 = v then some e.1.1 else none

/-- `nx.all_neighbors(graph, v)`. -/
def UG.nbrs (g : UG) (v : Str) : List Str := g.edges.filterMap (otherNode v)

/-- One dependency of a sentence. -/
structure RawWord where
  name : Str
  idx : Int
  head : Int
  rel : Str

/-- One line: `/repo/nephosem/core/graph.py:83-89`; lines without six fields are skipped. -/
def rawLine (line : Str) : Except Err (Option RawWord) :=
  match splitTab (strip line) with
  | [_, pos, lemma_, idx, head, rel] =>
    match parseInt idx, parseInt head with
    | some i, some h => .ok (some { name := lemma_ ++ '/' :: pos, idx := i, head := h, rel := rel })
    | _, _ => .error .valueError
  | _ => .ok none

/-- `id2node[idx]`. -/
def nodeName (ids : Dict Int Str) (i : Int) : Except Err Str :=
  match ids.get? i with
  | some s => .ok s
  | none => .error .keyError

/-- One edge: `/repo/nephosem/core/graph.py:95-97`. -/
def addDep (ids : Dict Int Str) (g : UG) (w : RawWord) : Except Err UG := do
  let u ← nodeName ids w.idx
  let v ← nodeName ids w.head
  .ok (g.addEdge u v w.rel)

/-- `id2node` after the first loop. -/
def rawIds (ws : List RawWord) : Dict Int Str := ws.foldl (fun d w => d.set w.idx w.name) [(0, "root".toList)]

/-- `Graph(sentence)`, i.e. `build_graph_raw`: `/repo/nephosem/core/graph.py:39-51, 72-97`; the
same text is in `deprel/basic.py` 55-67, 77-86, 88-113.  The first loop is split
into reading the lines, filling `id2node`, and adding the nodes. -/
def buildRaw (sentence : List Str) : Except Err UG := do
  let ws ← sentence.mapM rawLine
  let ws := ws.filterMap id
  ws.foldlM (addDep (rawIds ws)) (ws.foldl (fun g w => g.addNode w.name) { nodes := [], edges := [] })

/-! ### Matching paths -/

/-- What is given to `Graph.match`: a `PathTemplate` or, as the documentation of `match_graph` says, a `Path` (which has no
`match_node`): `/repo/nephosem/core/terms.py:711-752`; the same text is in
`deprel/basic.py` 161-203. -/
inductive PathArg where
  | template (nodes edges : List String)
  | path
  deriving DecidableEq, Repr

/-- `path.match_node(nd)` with the default index 0: `/repo/nephosem/core/terms.py:723-725`. -/
def headMatches (rx : String → Str → Bool) (p : PathArg) (nd : Str) : Except Err Bool :=
  match p with
  | .path => .error .attributeError
  | .template [] _ => .error .indexError
  | .template (r :: _) _ => .ok (rx r nd)

/-- `match_path(nd, ..., step=0, valid_seq=[nd])`: `/repo/nephosem/specutils/deputils.py:388-422`.  A template without
edges is complete at once; else the first neighbour leads to `path.match_edge(..., idx=step)`, and `PathTemplate.match_edge`
has no parameter `idx`. -/
def matchPath (g : UG) (edges : List String) (nd : Str) : Except Err (List (List Str)) :=
  if edges = [] then .ok [[nd]]
  else match g.nbrs nd with
    | [] => .ok []
    | _ :: _ => .error .typeError

/-- One node of the loop of `match_graph`: `/repo/nephosem/specutils/deputils.py:377-384`. -/
def matchAt (rx : String → Str → Bool) (g : UG) (p : PathArg) (acc : List (List Str)) (nd : Str) :
    Except Err (List (List Str)) := do
  let b ← headMatches rx p nd
  match b, p with
  | false, _ => .ok acc
  | true, .template _ edges => do
    let found ← matchPath g edges nd
    .ok (acc ++ found)
  | true, .path => .error .attributeError

/-- `Graph.match(path)`, i.e. `match_graph`: `/repo/nephosem/core/graph.py:118-130` (the same in `deprel/basic.py` 134-146),
`/repo/nephosem/specutils/deputils.py:363-385`. -/
def matchGraph (rx : String → Str → Bool) (g : UG) (p : PathArg) : Except Err (List (List Str)) :=
  g.nodes.foldlM (matchAt rx g p) []

/-! ### `match_target_feature` -/

/-- `feature.match_node(vitem, idx=feature.target)` where `vitem` is a string: `/repo/nephosem/core/graph.py:297-300,
458-480`.  `target` is `none` unless `set_target` (866-867) was called, because `feature.target` is then a method, which is
not a node.  A string cannot be subscripted by an attribute name, and a pattern node without attributes gives `{}`, which is
false; so the truth value is never true. -/
def labelMatches (p : Graph) (target : Option Nat) (label : String) : Except Err Bool :=
  if label = "" then .ok false
  else match target with
    | none => .error .keyError
    | some t => match p.nodes.get? t with
      | none => .error .keyError
      | some [] => .ok false
      | some (_ :: _) => .error .typeError

/-- One node of the loop: `/repo/nephosem/core/graph.py:297-306`; `sub v m` stands for the effect of `match_sub_template`
(328-379), started at the node `v`, on the macro. -/
def targetStep (sub : Nat → Macro → Macro) (target : Option Nat) (m : Macro) (node : Nat × Attrs) : Except Err Macro := do
  let b ← labelMatches m.graph target ((node.2.get? "label").getD "ROOT")
  .ok (if b then sub node.1 m else m)

/-- `match_target_feature`: `/repo/nephosem/core/graph.py:284-307`.  `match_sub_template` is a parameter. -/
def matchTargetFeature (sub : Nat → Macro → Macro) (s : Graph) (m : Macro) (target : Option Nat) : Except Err Macro :=
  s.nodes.foldlM (targetStep sub target) m

end Verif.Dep
