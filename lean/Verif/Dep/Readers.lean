import Verif.Dep.Sentence
import Verif.Dep.Pattern
import Verif.Items.Text

/-!
# Reading patterns and macros: `/repo/nephosem/core/graph.py:386-426, 507-598, 617-652, 889-1025`

Files are given by their lines or, for XML, by their trees.  What `networkx` and `pandas` read from a file is a
parameter.  `int` is the parameter `toNat`, restricted to natural numbers.
-/

namespace Verif.Dep
open Verif.Py Verif.Vocab.Plain

/-! ### Conditions given as strings: `PatternGraph.__init__` -/

/-- `s.index(p)`: the first place where `p` occurs. -/
def findSub (p s : Str) : Option Nat := (List.range (s.length + 1)).find? (fun i => p.isPrefixOf (s.drop i))

/-- `s.index(p)`, with the exception. -/
def indexOf (p s : Str) : Except Err Nat :=
  match findSub p s with
  | some i => .ok i
  | none => .error .valueError

/-- `s.replace(p, '')` for `p` not empty; the number bounds the length of `s`. -/
def eraseGo (p : Str) : Nat → Str → Str
  | 0, s => s
  | _ + 1, [] => []
  | n + 1, c :: s => if p.isPrefixOf (c :: s) then eraseGo p n ((c :: s).drop p.length) else c :: eraseGo p n s

/-- `s.replace(p, '')`. -/
def eraseAll (p s : Str) : Str := if p = [] then s else eraseGo p (s.length + 1) s

/-- `s.rsplit('/', 1)`. -/
def rsplitSlash (s : Str) : List Str :=
  if '/' ∈ s then [((s.reverse.dropWhile (· ≠ '/')).tail).reverse, (s.reverse.takeWhile (· ≠ '/')).reverse] else [s]

/-- One condition: the name of its group and the expression without that name, graph.py 404-407 and 414-417. -/
def namedPart (reg : Str) : Except Err (String × String) := do
  let start ← indexOf ['?', 'P', '<'] reg
  let stop ← indexOf ['>'] reg
  .ok (String.ofList ((reg.take stop).drop (start + 3)), String.ofList (eraseAll ((reg.take (stop + 1)).drop start) reg))

/-- The attributes of a string: graph.py 401-407 and 411-417. -/
def strAttrs (s : Str) : Except Err Attrs := do
  let ps ← (rsplitSlash s).mapM namedPart
  .ok (Dict.ofPairs ps)

/-- What `nodes` and `edges` map to: a string, or a dict of attributes. -/
inductive Cond where
  | str (s : Str)
  | attrs (a : Attrs)

/-- graph.py 399-407. -/
def condAttrs : Cond → Except Err Attrs
  | .str s => strAttrs s
  | .attrs a => .ok a

/-- `PatternGraph`: the graph; `id` is set from outside (`none`: the attribute does not exist); `repr_`; `nonlinear`. -/
structure Pattern where
  graph : Graph
  id : Option Nat
  repr : Option Str
  nonlinear : Bool
  deriving DecidableEq

/-- The end of the constructor, graph.py 422-423. -/
def finishPattern (g : Graph) : Except Err Pattern := do
  let l ← isLinear g
  .ok ⟨g, none, none, !l⟩

/-- The loops of the constructor, graph.py 398-418.  Attributes named like the parameters of `add_node` and `add_edge`
are left out of consideration but for `id`. -/
def condGraph (nodes : Dict Nat Cond) (edges : Dict (Nat × Nat) Cond) : Except Err Graph := do
  let ns ← nodes.mapM (fun e : Nat × Cond => do
    let a ← condAttrs e.2
    .ok (e.1, a))
  let es ← edges.mapM (fun e : (Nat × Nat) × Cond => do
    let a ← condAttrs e.2
    .ok (e.1, a))
  es.foldlM addEdge (ns.foldl addNode ⟨[], []⟩)

/-- `PatternGraph(nodes, edges)`, graph.py 386-426.  That exceptions in conditions of edges come after all conditions of
nodes is as in the code; which of several exceptions is raised between conditions and `add_edge` is simplified. -/
def newPattern (nodes : Dict Nat Cond) (edges : Dict (Nat × Nat) Cond) : Except Err Pattern := do
  let g ← condGraph nodes edges
  finishPattern g

/-- `PatternGraph(graph=g)`, graph.py 386-426: an empty graph counts as no graph, and then `nodes` is `None`. -/
def patternOf (g : Graph) : Except Err Pattern :=
  if g.nodes = [] then .error .attributeError else finishPattern g

/-! ### `PatternGraph.read_csv` and `MacroGraph.read_csv` -/

/-- One row of the table, graph.py 533-542. -/
def csvPattern (target feature : Str) : Except Err Pattern := do
  let r ← parsePattern (strip target) (strip feature)
  let p ← newPattern (r.1.map (fun e => (e.1, Cond.str e.2))) (r.2.map (fun e => (e.1, Cond.str e.2)))
  .ok { p with repr := some (strip feature) }

/-- `PatternGraph.read_csv`, graph.py 507-544; `rows` are the two columns that `pandas` reads. -/
def readCsv (rows : List (Str × Str)) : Except Err (List Pattern) := rows.mapM (fun r => csvPattern r.1 r.2)

/-- `MacroGraph.read_csv`, graph.py 889-897: the constructor has no parameter `target`, so that it raises `TypeError` for
the first template. -/
def readCsvMacros (rows : List (Str × Str)) : Except Err (List Macro) := do
  let ps ← readCsv rows
  match ps with
  | [] => .ok []
  | _ :: _ => .error .typeError

/-! ### `PatternGraph.read_graphml` -/

/-- `line.strip().startswith(p)`. -/
def starts (p : String) (line : Str) : Bool := p.toList.isPrefixOf (strip line)

/-- graph.py 557. -/
def graphStart (line : Str) : Bool := starts "<graph" line && !starts "<graphml" line

/-- The second loop, graph.py 561-571: the pieces, and the line with the end of the file if it is found. -/
def pieces : List Str → List Str → List (List Str) × Option Str
  | _, [] => ([], none)
  | cur, l :: ls =>
    if starts "</graphml" l then ([], some l)
    else if starts "</graph" l then ((cur ++ [l]) :: (pieces [] ls).1, (pieces [] ls).2)
    else pieces (cur ++ [l]) ls

/-- The strings handed to the parser, as lists of lines, graph.py 548-572; `None` cannot be joined. -/
def graphDocs (lines : List Str) : Except Err (List (List Str)) :=
  let header := lines.takeWhile (fun l => !graphStart l)
  let r := pieces [] (lines.dropWhile (fun l => !graphStart l))
  match r.2 with
  | some ender => .ok (r.1.map (fun gml => header ++ gml ++ [ender]))
  | none => if r.1 = [] then .ok [] else .error .typeError

/-- What is read from XML: `key` elements with `attr.name`, what they are for, and the text of the first `default`
element, if there is one; `networkx.parse_graphml` of a string (its first graph); the `id` of the first `graph`. -/
structure GraphmlLib where
  keys : List Str → Except Err (List (String × String × Option String))
  parse : List Str → Except Err Graph
  graphId : List Str → Except Err Nat

/-- graph.py 574-583: for which elements an attribute is declared is not looked at. -/
def defaultsOf (keys : List (String × String × Option String)) : Dict String String :=
  Dict.ofPairs (keys.filterMap (fun k => k.2.2.map (fun v => (k.1, v))))

/-- graph.py 588-591. -/
def addDefaults (defaults : Dict String String) (attrs : Attrs) : Attrs :=
  defaults.foldl (fun a e => if e.1 ∈ Dict.keys a then a else Dict.set a e.1 e.2) attrs

/-- graph.py 586-597. -/
def graphmlPattern (lib : GraphmlLib) (defaults : Dict String String) (doc : List Str) : Except Err Pattern := do
  let g ← lib.parse doc
  let gid ← lib.graphId doc
  let p ← patternOf { g with nodes := g.nodes.map (fun e => (e.1, addDefaults defaults e.2)) }
  .ok { p with id := some gid }

/-- `PatternGraph.read_graphml`, graph.py 547-598. -/
def readGraphml (lib : GraphmlLib) (lines : List Str) : Except Err (List Pattern) := do
  let docs ← graphDocs lines
  let keys ← lib.keys lines
  docs.mapM (graphmlPattern lib (defaultsOf keys))

/-! ### `MacroGraph.read_xml` -/

/-- Nodes of `xml.dom.minidom`; `text` are texts and comments, both of which have `data`. -/
inductive Xml where
  | text (data : Str)
  | elem (tag : Str) (attrs : Dict Str Str) (children : List Xml)

mutual
/-- A node and its descendants with a tag, in document order. -/
def Xml.byTag (t : Str) : Xml → List Xml
  | .text _ => []
  | .elem g a cs => if g = t then .elem g a cs :: byTagL t cs else byTagL t cs
/-- `getElementsByTagName` of a node with these children. -/
def byTagL (t : Str) : List Xml → List Xml
  | [] => []
  | x :: xs => Xml.byTag t x ++ byTagL t xs
end

/-- `childNodes`. -/
def Xml.children : Xml → List Xml
  | .text _ => []
  | .elem _ _ cs => cs

/-- `x.getElementsByTagName(t)[0]`. -/
def first (t : String) (cs : List Xml) : Except Err Xml :=
  match byTagL t.toList cs with
  | [] => .error .indexError
  | x :: _ => .ok x

/-- `x.attributes[a].value`. -/
def attrOf (a : String) : Xml → Except Err Str
  | .text _ => .error .typeError
  | .elem _ as _ => match as.get? a.toList with
    | some v => .ok v
    | none => .error .keyError

/-- `x.childNodes[0].data`. -/
def dataOf (x : Xml) : Except Err Str :=
  match x.children with
  | [] => .error .indexError
  | .text s :: _ => .ok s
  | .elem _ _ _ :: _ => .error .attributeError

/-- `s.split(sep)` for separators of several characters; the number bounds the length of `s`. -/
def splitLong (sep : Str) : Nat → Str → Str → List Str
  | 0, acc, _ => [acc.reverse]
  | _ + 1, acc, [] => [acc.reverse]
  | n + 1, acc, c :: s =>
    if sep.isPrefixOf (c :: s) then acc.reverse :: splitLong sep n [] ((c :: s).drop sep.length)
    else splitLong sep n (c :: acc) s

/-- `s.split(sep)`. -/
def splitSep (sep s : Str) : Except Err (List Str) :=
  match sep with
  | [] => .error .valueError
  | [c] => .ok (Items.split c s)
  | _ => .ok (splitLong sep (s.length + 1) [] s)

/-- `int(s)`. -/
def readNat (toNat : Str → Option Nat) (s : Str) : Except Err Nat :=
  match toNat s with
  | some n => .ok n
  | none => .error .valueError

/-- The group number of one attribute, graph.py 944-946 and 956-958. -/
def groupOf (toNat : Str → Option Nat) (cs : List Xml) (attr : Str) : Except Err (String × Nat) := do
  let e ← first (String.ofList attr) cs
  let v ← attrOf "group" e
  let n ← readNat toNat v
  .ok (String.ofList attr, n)

/-- The format of the nodes, graph.py 937-946 and 949-958. -/
def nodeFmt (toNat : Str → Option Nat) (fmt : Xml) : Except Err (Dict String Nat) := do
  let nf ← first "node-fmt" fmt.children
  let st ← first "string" nf.children
  let connector ← attrOf "connector" st
  let s ← dataOf st
  let attrs ← splitSep connector s
  let ps ← attrs.mapM (groupOf toNat nf.children)
  .ok (Dict.ofPairs ps)

/-- The description of a target or a feature, graph.py 1010-1011 and 1018-1019. -/
def descOf (x : Xml) : Except Err Str :=
  match byTagL "description".toList x.children with
  | [] => .ok "no description".toList
  | d :: _ => dataOf d

/-- A macro with what `parse_macro_xml` sets. -/
structure ReadMacro where
  id : Nat
  mac : Macro
  targetDesc : Str
  featDesc : Str

/-- `MacroGraph(pattern, target_idx, feature_idx)`, graph.py 617-651; `featureIdx` is `none` for -1.  `target_filter` is an
empty dict by default; the connector is that of the class. -/
def newMacro (p : Pattern) (targetIdx : Nat) (featureIdx : Option Nat) : Except Err Macro := do
  let q ← patternOf p.graph
  let d ← getDepth q.graph
  .ok ⟨q.graph, targetIdx, featureIdx, [], [], [], some [], "/", d, []⟩

/-- The number of the feature node, graph.py 1014-1017: any exception gives -1. -/
def featureIdxOf (toNat : Str → Option Nat) (feature : Xml) : Option Nat :=
  match attrOf "featureID" feature with
  | .ok v => toNat v
  | .error _ => none

/-- `parse_macro_xml`, graph.py 976-1025. -/
def parseMacro (toNat : Str → Option Nat) (id2patt : Dict Nat Pattern) (x : Xml) : Except Err ReadMacro := do
  let v ← attrOf "id" x
  let mid ← readNat toNat v
  let patt ← first "sub-graph-pattern" x.children
  let pv ← attrOf "id" patt
  let pid ← readNat toNat pv
  let target ← first "target" x.children
  let tv ← attrOf "nodeID" target
  let tidx ← readNat toNat tv
  let tdesc ← descOf target
  let feature ← first "feature" x.children
  let fdesc ← descOf feature
  let p ← getD id2patt pid
  let m ← newMacro p tidx (featureIdxOf toNat feature)
  .ok ⟨mid, m, tdesc, fdesc⟩

/-- One round of the loop over the macros, graph.py 964-971. -/
def formatted (ta na : Dict String Nat) (edge : Str) (m : ReadMacro) : ReadMacro :=
  { m with mac := { m.mac with targetAttrs := ta, featNodeAttrs := na, featEdgeAttrs := [(String.ofList edge, 1)] } }

/-- `p.id` and the pattern. -/
def withId (p : Pattern) : Except Err (Nat × Pattern) :=
  match p.id with
  | some i => .ok (i, p)
  | none => .error .attributeError

/-- `MacroGraph.read_xml`, graph.py 899-974; `doc` are the children of the document. -/
def readXml (toNat : Str → Option Nat) (doc : List Xml) (patterns : List Pattern) : Except Err (List ReadMacro) := do
  let ps ← patterns.mapM withId
  let tf ← first "target-fmt" doc
  let ta ← nodeFmt toNat tf
  let ff ← first "feature-fmt" doc
  let na ← nodeFmt toNat ff
  let ef ← first "edge-fmt" ff.children
  let edge ← dataOf ef
  (byTagL "target-feature-macro".toList doc).mapM (fun x => do
    let m ← parseMacro toNat (Dict.ofPairs ps) x
    .ok (formatted ta na edge m))

end Verif.Dep
