import Verif.Dep.Basic

/-!
# The features of a template: `/repo/nephosem/deprel/basic.py:424-443, 489-543`
-/

namespace Verif.Dep.Basic
open Verif.Py Verif.Dep

/-- A `networkx.DiGraph` object: the graph with its labels, and the attribute `feature` of the nodes and edges that have it. -/
structure Cell where
  graph : LGraph
  nodeFlags : Dict Nat Bool
  edgeFlags : Dict (Nat × Nat) Bool

/-- `FeatureGraph` objects of one template: the graph objects (that of the template is the first), and for every feature the place of its
graph object and its target.  `matched_nodes`, `matched_edges`, `depth` and `nonlinear` are left out here (see `Feature`). -/
structure Shop where
  heap : List Cell
  feats : List (Nat × Int)

/-- What a node is marked with: `basic.py:532-537`; the same in `/repo/nephosem/core/graph.py:856-861`. -/
def nodeMark (target : Int) (filter : Dict Nat Bool) (v : Nat) : Bool :=
  if (v : Int) = target then false
  else match filter.get? v with
    | some b => b
    | none => true

/-- `set_feature`, on the graph object: `basic.py:528-540`; the same in `/repo/nephosem/core/graph.py:853-864`.  The values of the filter,
which can be anything, are truth values here. -/
def markCell (target : Int) (filter : Dict Nat Bool) (c : Cell) : Cell :=
  { c with
    nodeFlags := c.graph.nodes.keys.foldl (fun d v => d.set v (nodeMark target filter v)) c.nodeFlags
    edgeFlags := c.graph.edges.keys.foldl (fun d e => d.set e true) c.edgeFlags }

/-- The graph object of a new feature: `basic.py:436-443`: a copy.  A graph without nodes is false, so that `nodes.items()` of `None` is
an `AttributeError`. -/
def copyGraph (heap : List Cell) (ref : Nat) : Except Err (List Cell × Nat) :=
  match heap[ref]? with
  | none => .error .attributeError
  | some c => if c.graph.nodes = [] then .error .attributeError else .ok (heap ++ [c], heap.length)

/-- `set_feature` of a feature: the graph object is changed in place. -/
def setFeatureAt (s : Shop) (ref : Nat) (target : Int) (filter : Dict Nat Bool) : Shop :=
  { s with heap := s.heap.modify ref (markCell target filter) }

/-- `FeatureGraph(template, target, feature_filter)`: `basic.py:498-522`. -/
def newFeature (s : Shop) (target : Int) (filter : Dict Nat Bool) : Except Err Shop := do
  let (heap, ref) ← copyGraph s.heap 0
  .ok (setFeatureAt { heap := heap, feats := s.feats ++ [(ref, target)] } ref target filter)

/-- What a program does with the features of a template. -/
inductive MarkOp where
  /-- `FeatureGraph(template, target, filter)`; the default target is -1 -/
  | new (target : Int) (filter : Dict Nat Bool)
  /-- `feature.set_target(target)`: `basic.py:542-543` -/
  | target (i : Nat) (target : Int)
  /-- `feature.set_feature(filter)` -/
  | mark (i : Nat) (filter : Dict Nat Bool)

/-- One step; features that do not exist are not asked for. -/
def markStep (s : Shop) : MarkOp → Except Err Shop
  | .new t f => newFeature s t f
  | .target i t => .ok { s with feats := s.feats.modify i (fun x => (x.1, t)) }
  | .mark i f =>
    match s.feats[i]? with
    | none => .ok s
    | some (ref, t) => .ok (setFeatureAt s ref t f)

/-- A program, beginning with a template. -/
def markRun (template : LGraph) (ops : List MarkOp) : Except Err Shop :=
  ops.foldlM markStep { heap := [⟨template, [], []⟩], feats := [] }

end Verif.Dep.Basic
