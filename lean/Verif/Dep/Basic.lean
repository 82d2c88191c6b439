import Verif.Dep.Match
import Verif.Dep.RawGraph

/-!
# The older matcher of labelled trees: `/repo/nephosem/deprel/basic.py:218-766`

In the package `nephosem.deprel` nodes have one attribute `label` and edges one attribute `rel`.  A node that is only named
by an edge has no label.  `re.compile(regex).match(value)` is a parameter `rx`, as in `Verif/Dep/Match.lean`.  The edge attribute
`id` and the attribute `feature` of nodes and edges, which the matcher never reads, are left out.
-/

namespace Verif.Dep.Basic
open Verif.Py Verif.Dep Verif.Vocab.Plain

/-- `DiGraph`: `/repo/nephosem/deprel/basic.py:218-268`. -/
abbrev LGraph := DG (Option String) String

/-- `add_node`: `basic.py:250-252`; a known node gets the new label. -/
def addNode (g : LGraph) (v : Nat) (label : String) : LGraph := { g with nodes := g.nodes.set v (some label) }

/-- A node without label, if it is not there yet. -/
def touch (d : Dict Nat (Option String)) (v : Nat) : Dict Nat (Option String) := if v ∈ d.keys then d else d.set v none

/-- `add_edge`: `basic.py:254-256`. -/
def addEdge (g : LGraph) (e : Nat × Nat) (rel : String) : LGraph :=
  { nodes := touch (touch g.nodes e.1) e.2, edges := g.edges.set e rel }

/-- `generate_graph` (`basic.py:291-295`) and the same loops of `TemplateGraph.__init__` (`basic.py:437-441`). -/
def generate (nodes : Dict Nat String) (edges : Dict (Nat × Nat) String) : LGraph :=
  edges.foldl (fun g e => addEdge g e.1 e.2) (nodes.foldl (fun g e => addNode g e.1 e.2) ⟨[], []⟩)

/-- `int(s)` for node numbers.  Simplified: negative numbers, which no corpus has, are refused here. -/
def natOf (s : Str) : Except Err Nat :=
  match parseInt s with
  | some (.ofNat n) => .ok n
  | _ => .error .valueError

/-- One line of a sentence: `basic.py:307-317`. -/
def lineStep (st : Dict Nat String × Dict (Nat × Nat) String) (line : Str) : Except Err (Dict Nat String × Dict (Nat × Nat) String) :=
  match splitTab (strip line) with
  | [_, pos, type_, idx, hd, rel] => do
    let i ← natOf idx
    let h ← natOf hd
    .ok (st.1.set i (String.ofList (type_ ++ '/' :: pos)), st.2.set (h, i) (String.ofList rel))
  | _ => .ok st

/-- `SentenceGraph(sentence=...)`: `basic.py:271-319`. -/
def sentenceGraph (sentence : List Str) : Except Err LGraph :=
  if sentence = [] then .error .valueError
  else do
    let st ← sentence.foldlM lineStep ([], [])
    .ok (generate st.1 st.2)

section
variable (rx : String → String → Bool)

/-- `['label']` of a node: `KeyError` for unknown nodes and for nodes without label. -/
def label (g : LGraph) (v : Nat) : Except Err String :=
  match g.nodes.get? v with
  | some (some l) => .ok l
  | _ => .error .keyError

/-- `['rel']` of an edge. -/
def rel (g : LGraph) (e : Nat × Nat) : Except Err String :=
  match g.edges.get? e with
  | some r => .ok r
  | none => .error .keyError

/-- `match_node`: `basic.py:477-479`. -/
def matchNode (f : LGraph) (item : String) (idx : Nat) : Except Err Bool := do
  let re ← label f idx
  .ok (rx re item)

/-- `match_edge`: `basic.py:481-483`. -/
def matchEdge (f : LGraph) (item : String) (idx : Nat × Nat) : Except Err Bool := do
  let re ← rel f idx
  .ok (rx re item)

/-- The matching successors: `basic.py:747-757`. -/
def cands (s f : LGraph) (scur fcur fsuc : Nat) (onemap : Dict Nat Nat) : List Nat → Except Err (List Nat)
  | [] => .ok []
  | ssuc :: rest =>
    if ssuc ∈ onemap.keys then cands s f scur fcur fsuc onemap rest
    else do
      let vitem ← label s ssuc
      let erel ← rel s (scur, ssuc)
      let vm ← matchNode rx f vitem fsuc
      let em ← matchEdge rx f erel (fcur, fsuc)
      let r ← cands s f scur fcur fsuc onemap rest
      .ok (if vm && em then ssuc :: r else r)

/-- The extensions of one map: `basic.py:745-762`. -/
def extendOne (s f : LGraph) (scur fcur fsuc : Nat) (onemap : Dict Nat Nat) : Except Err (List (Dict Nat Nat)) := do
  let ms ← cands rx s f scur fcur fsuc onemap (s.succ scur)
  .ok (ms.map (fun ssuc => Dict.set onemap ssuc fsuc))

/-- One round over the queue: `basic.py:741-763`. -/
def succStep (s f : LGraph) (scur fcur : Nat) (mapping : List (Dict Nat Nat)) (fsuc : Nat) : Except Err (List (Dict Nat Nat)) := do
  let parts ← mapping.mapM (extendOne rx s f scur fcur fsuc)
  .ok parts.flatten

/-- `match_successors`: `basic.py:720-766`. -/
def matchSuccessors (s : LGraph) (scur : Nat) (f : LGraph) (fcur : Nat) : Except Err (List (Dict Nat Nat)) :=
  if f.outDeg fcur = 0 then .ok [[]]
  else do
    let mapping ← (f.succ fcur).foldlM (succStep rx s f scur fcur) [[]]
    .ok (mapping.map invert)

/-- `match_level`: `basic.py:682-717`; `none` is `(False, None)`. -/
def matchLevelGo (s f : LGraph) : List (Nat × Nat) → List (Dict Nat Nat) → Except Err (Option (List (Dict Nat Nat)))
  | [], nextmaps => .ok (some nextmaps)
  | (fn, sn) :: rest, nextmaps =>
    if f.outDeg fn = 0 then matchLevelGo s f rest nextmaps
    else do
      let succmaps ← matchSuccessors rx s sn f fn
      if succmaps = [] then .ok none
      else matchLevelGo s f rest (nextmaps.flatMap (fun prevone => succmaps.map (fun onemap => Dict.update prevone onemap)))

def matchLevel (s f : LGraph) (currmap : Dict Nat Nat) : Except Err (Option (List (Dict Nat Nat))) :=
  matchLevelGo rx s f currmap [[]]

/-- The loop body of `subtree_match`: `basic.py:664-676`. -/
def nextLevel (s f : LGraph) (lmatch : List (Dict Nat Nat)) : Except Err (List (List (Dict Nat Nat))) :=
  match lmatch.getLast? with
  | none => .error .indexError
  | some currmap => do
    let r ← matchLevel rx s f currmap
    match r with
    | none => .ok []
    | some succs => .ok (succs.map (fun sucmap => lmatch ++ [sucmap]))

/-- `subtree_match` up to the recording: `basic.py:633-679`. -/
def subtree (s f : LGraph) (depth : Nat) : Nat → List (List (Dict Nat Nat)) → Except Err (List (List (Dict Nat Nat)))
  | 0, _ => .error .diverges
  | n + 1, lmatches =>
    match lmatches with
    | [] => .ok []
    | l :: _ =>
      if l.length = depth then .ok lmatches
      else do
        let parts ← lmatches.mapM (nextLevel rx s f)
        subtree s f depth n parts.flatten

end

/-- `matched_nodes` and `matched_edges` of one match. -/
structure Found where
  nodes : Dict Nat String
  edges : Dict (Nat × Nat) String
  deriving DecidableEq, Repr

/-- `FeatureGraph`: `basic.py:489-540`: the graph, the number of the target node, `get_depth` of the graph (the functions of
`basic.py:566-603` are those of `deputils.py:121-158`), the matches. -/
structure Feature where
  graph : LGraph
  target : Nat
  depth : Nat
  found : List Found
  deriving DecidableEq

/-- The labels of the matched words: `basic.py:656`. -/
def nodeLabel (s : LGraph) (e : Nat × Nat) : Except Err (Nat × String) := do
  let l ← label s e.2
  .ok (e.1, l)

/-- The relations of the matched edges: `basic.py:658-659`. -/
def edgeLabel (s : LGraph) (m : Dict Nat Nat) (e : Nat × Nat) : Except Err ((Nat × Nat) × String) := do
  let h ← getD m e.1
  let t ← getD m e.2
  let r ← rel s (h, t)
  .ok (e, r)

/-- One recorded match: `basic.py:651-661`. -/
def record (s f : LGraph) (m : Dict Nat Nat) : Except Err Found := do
  let nodes ← m.mapM (nodeLabel s)
  let edges ← f.edges.keys.mapM (edgeLabel s m)
  .ok ⟨nodes, edges⟩

/-- The loop body of `tree_match`: `basic.py:624-630`.  A node without label counts as `ROOT`. -/
def matchFrom (rx : String → String → Bool) (s f : LGraph) (depth froot : Nat) (node : Nat × Option String) : Except Err (List Found) := do
  let m ← matchNode rx f (node.2.getD "ROOT") froot
  if m then do
    let ls ← subtree rx s f depth (depth + 1) [[[(froot, node.1)]]]
    (ls.map mergeLevels).mapM (record s f)
  else .ok []

/-- `str(sentence)`: `basic.py:355-368`, needed for the log message only: an index too large for the list of the nodes is an
`IndexError`. -/
def reprOk (s : LGraph) : Bool := s.nodes.keys.all (fun v => decide (v < s.nodes.length))

/-- `istree`: `basic.py:231-234`; `tree` is `networkx.is_tree`. -/
def isTree (tree : LGraph → Bool) (g : LGraph) : Bool := if g.edges = [] then false else tree g

/-- `tree_match`: `basic.py:606-630`; the matches that are added to the feature. -/
def treeMatch (rx : String → String → Bool) (tree : LGraph → Bool) (s : LGraph) (f : Feature) : Except Err Feature :=
  if isTree tree s = false then (if reprOk s then .ok f else .error .indexError)
  else if isTree tree f.graph = false then .error .assertionError
  else do
    let froot ← getRoot f.graph
    let parts ← s.nodes.mapM (matchFrom rx s f.graph f.depth froot)
    .ok { f with found := f.found ++ parts.flatten }

/-! ### Matching from the target: `basic.py:325-351, 370-421` -/

/-- One step of a walk: to node `ss` of the sentence and `tt` of the template, over the edges `es` and `et`.
`basic.py:388-391` and `410-413`. -/
def stepOk (rx : String → String → Bool) (s f : LGraph) (ss tt : Nat) (es et : Nat × Nat) : Except Err (Option String) := do
  let srel ← rel s es
  let sitem ← label s ss
  let trel ← rel f et
  let titem ← label f tt
  .ok (if rx trel srel && rx titem sitem then some srel else none)

/-- A walk so far: `valid_nodes` (sentence node, template node) and `valid_edges` (relation, template edge), the last one
first. -/
structure Walk where
  nodes : List (Nat × Nat)
  edges : List (String × (Nat × Nat))

/-- The record of a complete walk: `basic.py:372-374`. -/
def recordWalk (s : LGraph) (w : Walk) : Except Err Found := do
  let nodes ← w.nodes.reverse.mapM (fun e => nodeLabel s (e.2, e.1))
  .ok ⟨Dict.ofPairs nodes, Dict.ofPairs (w.edges.reverse.map (fun e => (e.2, e.1)))⟩

/-- A step of a walk: the new nodes of the sentence and of the template and the edges between them and the current ones. -/
structure Move where
  ss : Nat
  tt : Nat
  es : Nat × Nat
  et : Nat × Nat

/-- The steps that are tried, in this order: `basic.py:381-387, 403-409`.  The previous nodes are left out; `(-1, -1)`, which is no
node, is `none`. -/
def moves (s f : LGraph) (currs currt : Nat) (prevs prevt : Option Nat) : List Move :=
  ((f.pred currt).filter (fun v => decide (some v ≠ prevt))).flatMap (fun tt =>
    ((s.pred currs).filter (fun v => decide (some v ≠ prevs))).map (fun ss => ⟨ss, tt, (ss, currs), (tt, currt)⟩)) ++
  ((f.succ currt).filter (fun v => decide (some v ≠ prevt))).flatMap (fun tt =>
    ((s.succ currs).filter (fun v => decide (some v ≠ prevs))).map (fun ss => ⟨ss, tt, (currs, ss), (currt, tt)⟩))

/-- `match_sub_template`: `basic.py:370-421`; the matches in the order in which they are added.  Every call makes the walk
longer by one node, and a walk with as many nodes as the template is complete, so that the number of nodes is fuel enough. -/
def matchSub (rx : String → String → Bool) (s f : LGraph) : Nat → Walk → Except Err (List Found)
  | 0, _ => .error .diverges
  | n + 1, w =>
    if w.nodes.length = f.nodes.length then do
      let r ← recordWalk s w
      .ok [r]
    else match w.nodes with
      | [] => .error .indexError
      | (currs, currt) :: rest => do
        let parts ← (moves s f currs currt (rest.head?.map Prod.fst) (rest.head?.map Prod.snd)).mapM (fun m => do
          let r ← stepOk rx s f m.ss m.tt m.es m.et
          match r with
          | none => .ok []
          | some srel => matchSub rx s f n ⟨(m.ss, m.tt) :: w.nodes, (srel, m.et) :: w.edges⟩)
        .ok parts.flatten

/-- `match_target_feature`: `basic.py:325-351`. -/
def matchTarget (rx : String → String → Bool) (s : LGraph) (f : Feature) : Except Err Feature := do
  let parts ← s.nodes.mapM (fun e => do
    let m ← matchNode rx f.graph (e.2.getD "ROOT") f.target
    if m then matchSub rx s f.graph f.graph.nodes.length ⟨[(e.1, f.target)], []⟩ else .ok [])
  .ok { f with found := f.found ++ parts.flatten }

end Verif.Dep.Basic
