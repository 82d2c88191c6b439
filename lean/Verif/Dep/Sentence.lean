import Verif.Dep.Match

/-!
# Sentences of a corpus file and their graphs: `/repo/nephosem/models/deprel.py:194-307`, `core/graph.py:201-271`

A corpus file is its list of lines, already stripped (`read_sentence` and `build_graph` both strip).  `line_machine.match`
is the parameter `groups`, which gives the list `group(0), group(1), ...` of a matching line; groups which take no part in
the match (Python's `None`) are left out.  Python's `int` on the columns of the indices is the parameter `toInt`, restricted to
natural numbers.
-/

namespace Verif.Dep
open Verif.Py

/-- The parts of `CorpusFormatter` used for dependencies: `/repo/nephosem/core/terms.py:571-687`.  `columns` is
`global_columns`, `nodeAttr` and `edgeAttr` the split settings `node-attr` and `edge-attr` (`none` if that is not set), `currID` and
`headID` the settings of these names or their defaults. -/
structure LineFormat where
  groups : String → Option (List String)
  isSep : String → Bool
  toInt : String → Option Nat
  columns : List String
  nodeAttr : List String
  edgeAttr : Option (List String)
  currID : String
  headID : String

/-- One line of `read_sentence`: `/repo/nephosem/models/deprel.py:296-305`.  The state holds the sentences yielded, the current
sentence, and the number of lines read. -/
def readLine (f : LineFormat) (st : List (List (Nat × String)) × List (Nat × String) × Nat) (line : String) :
    List (List (Nat × String)) × List (Nat × String) × Nat :=
  let lid := st.2.2 + 1
  let sentence := if (f.groups line).isSome then st.2.1 ++ [(lid, line)] else st.2.1
  if f.isSep line then (st.1 ++ [sentence], [], lid) else (st.1, sentence, lid)

/-- The last lines of `read_sentence`: `deprel.py:306-307`. -/
def readEnd (st : List (List (Nat × String)) × List (Nat × String) × Nat) : List (List (Nat × String)) :=
  if st.2.1.length > 0 then st.1 ++ [st.2.1] else st.1

/-- `read_sentence`: `/repo/nephosem/models/deprel.py:279-307`; the list of all sentences of the generator. -/
def readSentence (f : LineFormat) (file : List String) : List (List (Nat × String)) :=
  readEnd (file.foldl (readLine f) ([], [], 0))

/-- `self.__dict__.get('_column', 0)`: `/repo/nephosem/core/terms.py:611-613, 669`: the number of the last place where the
column is named, 0 if it is not. -/
def colPos (columns : List String) (col : String) : Nat :=
  (columns.zipIdx.foldl (fun acc e => if e.1 = col then e.2 + 1 else acc) 0)

/-- `CorpusFormatter.get` for columns other than `type`, `colloc`, `token`: `terms.py:660-670`. -/
def getCol (f : LineFormat) (g : List String) (col : String) : Except Err String :=
  match g[colPos f.columns col]? with
  | some v => .ok v
  | none => .error .indexError

/-- `int(...)`. -/
def intOf (f : LineFormat) (s : String) : Except Err Nat :=
  match f.toInt s with
  | some n => .ok n
  | none => .error .valueError

/-- `d[k][a] = v` for `defaultdict(lambda: defaultdict(str))`. -/
def setIn {κ : Type} [DecidableEq κ] (d : Dict κ Attrs) (k : κ) (a v : String) : Dict κ Attrs :=
  d.set k (Dict.set ((d.get? k).getD []) a v)

/-- The two dicts of `build_graph`. -/
abbrev Parts := Dict Nat Attrs × Dict (Nat × Nat) Attrs

/-- The loop over the columns: `/repo/nephosem/core/graph.py:260-265`. -/
def colStep (f : LineFormat) (ea g : List String) (n h : Nat) (st : Parts) (col : String) : Except Err Parts := do
  let v ← getCol f g col
  .ok (if col ∈ f.nodeAttr then (setIn st.1 n col v, st.2)
    else if col ∈ ea then (st.1, setIn st.2 (h, n) col v)
    else st)

/-- The loop over the lines of a sentence: `/repo/nephosem/core/graph.py:246-267`.  Line numbers are kept as strings. -/
def lineStep (f : LineFormat) (st : Parts) (e : Nat × String) : Except Err Parts :=
  match f.groups e.2 with
  | none => .ok st
  | some g =>
    match f.edgeAttr with
    | none => .error .attributeError
    | some ea => do
      let c ← getCol f g f.currID
      let n ← intOf f c
      let d ← getCol f g f.headID
      let h ← intOf f d
      let st' ← f.columns.foldlM (colStep f ea g n h) st
      .ok (setIn st'.1 n "lid" (toString e.1), st'.2)

/-- `graph.add_node(idx, **vals)`. -/
def addNode (g : Graph) (e : Nat × Attrs) : Graph :=
  { g with nodes := g.nodes.set e.1 (Dict.update ((g.nodes.get? e.1).getD []) e.2) }

/-- A node without attributes, if it is not there yet. -/
def touch (d : Dict Nat Attrs) (v : Nat) : Dict Nat Attrs := if v ∈ d.keys then d else d.set v []

/-- `add_edge`: `/repo/nephosem/core/graph.py:184-186` and networkx.  An attribute named `id` is a `TypeError` because the
keyword is given twice. -/
def addEdge (g : Graph) (e : (Nat × Nat) × Attrs) : Except Err Graph :=
  if "id" ∈ Dict.keys e.2 then .error .typeError
  else .ok { nodes := touch (touch g.nodes e.1.1) e.1.2,
             edges := g.edges.set e.1 (Dict.update ((g.edges.get? e.1).getD []) e.2) }

/-- `generate_graph`: `/repo/nephosem/core/graph.py:231-235`. -/
def generateGraph (st : Parts) : Except Err Graph :=
  st.2.foldlM addEdge (st.1.foldl addNode ⟨[], []⟩)

/-- `SentenceGraph(sentence=...)`: `/repo/nephosem/core/graph.py:201-271`. -/
def sentenceGraph (f : LineFormat) (sentence : List (Nat × String)) : Except Err Graph :=
  if sentence = [] then .error .valueError
  else do
    let st ← sentence.foldlM (lineStep f) ([], [])
    generateGraph st

/-- The loop body of `update_dep_rel_type` and `update_dep_rel_token`: `/repo/nephosem/models/deprel.py:226-267`; `fid` is the
file name in token mode.  `istree` is `networkx.is_tree`.  The warning for other sentences takes the least and greatest line
number, of which there is at least one. -/
def matchSentence (rx : String → String → Bool) (istree : Graph → Bool) (f : LineFormat) (fid : Option String)
    (macros : List Macro) (sentence : List (Nat × String)) : Except Err (List Macro) := do
  let g ← sentenceGraph f sentence
  if istree g then macros.mapM (treeMatch rx (istree g) g fid) else .ok macros

/-- `_do_process_job`: `/repo/nephosem/models/deprel.py:194-216`.  Copies of the macros get the targets of the handler as
filter; `targets` is never `None` (`deprel.py:46-60`). -/
def depJob (rx : String → String → Bool) (istree : Graph → Bool) (f : LineFormat) (fid : Option String)
    (targets : List String) (macros : List Macro) (file : List String) : Except Err (List Macro) :=
  (readSentence f file).foldlM (matchSentence rx istree f fid) (macros.map (fun m => { m with filter := some targets }))

end Verif.Dep
