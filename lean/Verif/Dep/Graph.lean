import Verif.Py.Dict

/-!
# Directed graphs: `/repo/nephosem/core/graph.py:143-198` and the tree functions of `specutils/deputils.py:121-158`

`networkx.DiGraph` is modelled by its node and edge dictionaries.  Node identifiers are natural numbers (Python ints; the
corpus and the pattern files give indices from 0 or 1 on).
-/

namespace Verif.Dep
open Verif.Py

/-- Exceptions; `diverges` stands for a `while True` loop that never ends. -/
inductive Err where
  | networkX | keyError | valueError | indexError | typeError | attributeError | assertionError | diverges
  deriving DecidableEq, Repr

/-- `networkx.DiGraph`: nodes and edges with their attributes, in order of insertion. -/
structure DG (α β : Type) where
  nodes : Dict Nat α
  edges : Dict (Nat × Nat) β
  deriving DecidableEq, Repr

variable {α β : Type}

/-- `graph.successors(u)`: networkx keeps them in order of insertion. -/
def DG.succ (g : DG α β) (u : Nat) : List Nat := (g.edges.filter (fun e => decide (e.1.1 = u))).map (fun e => e.1.2)

/-- `graph.predecessors(v)`. -/
def DG.pred (g : DG α β) (v : Nat) : List Nat := (g.edges.filter (fun e => decide (e.1.2 = v))).map (fun e => e.1.1)

/-- `graph.out_degree(u)`. -/
def DG.outDeg (g : DG α β) (u : Nat) : Nat := (g.succ u).length

/-- The loop of `get_root`: `/repo/nephosem/specutils/deputils.py:124-130`.  Every node visited in a finite walk without
repetition costs one unit of fuel, so that running out of it means that the walk is in a cycle. -/
def rootWalk (g : DG α β) : Nat → Nat → Except Err Nat
  | 0, _ => .error .diverges
  | n + 1, v =>
    match g.pred v with
    | [] => .ok v
    | u :: _ => rootWalk g n u

/-- `get_root`: `/repo/nephosem/specutils/deputils.py:121-131`.  It starts at node 1; `predecessors` of an unknown node is
a `NetworkXError`, raised outside the `try`. -/
def getRoot (g : DG α β) : Except Err Nat :=
  if 1 ∈ g.nodes.keys then rootWalk g (g.nodes.length + 1) 1 else .error .networkX

/-- `get_depth_of_node`: `/repo/nephosem/specutils/deputils.py:146-158`. -/
def depthWalk (g : DG α β) : Nat → Nat → Except Err Nat
  | 0, _ => .error .diverges
  | n + 1, v =>
    match g.pred v with
    | [] => .ok 1
    | u :: _ =>
      match depthWalk g n u with
      | .ok d => .ok (d + 1)
      | .error e => .error e

/-- One round of the loop of `get_depth`: `/repo/nephosem/specutils/deputils.py:137-142`. -/
def depthStep (g : DG α β) (maxdepth : Nat) (v : Nat) : Except Err Nat :=
  if g.outDeg v = 0 then
    match depthWalk g (g.nodes.length + 1) v with
    | .ok depth => .ok (if depth > maxdepth then depth else maxdepth)
    | .error e => .error e
  else .ok maxdepth

/-- `get_depth`: `/repo/nephosem/specutils/deputils.py:134-143`. -/
def getDepth (g : DG α β) : Except Err Nat := g.nodes.keys.foldlM (depthStep g) 1

/-! ### `PatternGraph.islinear`: `/repo/nephosem/core/graph.py:428-456` -/

/-- The edges in the order in which `to_undirected` inserts them: by source node, then by successor. -/
def DG.adjEdges (g : DG α β) : List (Nat × Nat) := g.nodes.keys.flatMap (fun u => (g.succ u).map (fun v => (u, v)))

/-- The other end of an edge, if `v` is an end. -/
def otherEnd (v : Nat) (e : Nat × Nat) : Option Nat := if e.1 = v then some e.2 else if e.2 = v then some e.1 else none

/-- `gx.neighbors(v)` of the undirected graph, for graphs without loops and without pairs of opposite edges (trees have
none). -/
def DG.nbrs (g : DG α β) (v : Nat) : List Nat := g.adjEdges.filterMap (otherEnd v)

/-- The loop: `graph.py:443-455`.  The fuel is twice the number of nodes, more than a walk in a tree can use. -/
def linWalk (g : DG α β) : Nat → Nat → Nat → Except Err Bool
  | 0, _, _ => .error .diverges
  | n + 1, cur, nxt =>
    if (g.nbrs nxt).length = 3 then .ok false
    else if (g.nbrs nxt).length = 1 then .ok true
    else match (g.nbrs nxt).find? (fun w => decide (w ≠ cur)) with
      | some w => linWalk g n nxt w
      | none => linWalk g n cur nxt

/-- `islinear`: `graph.py:428-456`; the same text is in `deprel/basic.py` 448-475.  `cur = 0` serves as "no node of degree 1 found". -/
def isLinear (g : DG α β) : Except Err Bool :=
  if g.edges.length = 1 then .ok true
  else
    match g.nodes.keys.find? (fun v => decide ((g.nbrs v).length = 1)) with
    | none => .ok false
    | some cur =>
      if cur = 0 then .ok false
      else match g.nbrs cur with
        | [] => .ok false
        | nxt :: _ => linWalk g (2 * g.nodes.length + 2) cur nxt

end Verif.Dep
