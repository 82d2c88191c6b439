import Verif.Dep.RawGraph
import Verif.Dep.Pattern

/-!
# Graphs from lists of dependencies: `/repo/nephosem/core/graph.py:99-116`
-/

namespace Verif.Dep
open Verif.Py Verif.Vocab.Plain

/-- `from_node, rel, to_node = line.strip().split(',')`: `/repo/nephosem/core/graph.py:110`; `none` where unpacking raises
`ValueError`. -/
def depLine (line : Str) : Option (Str × Str × Str) :=
  match splitComma (strip line) with
  | [a, r, b] => some (a, r, b)
  | _ => none

/-- The lines after both look-ups: `/repo/nephosem/core/graph.py:113-116`. -/
def joinNodes (g : UG) (u v rel : Str) : UG :=
  let g := g.addNode u
  let g := if v ∈ g.nodes then g else g.addNode v
  g.addEdge u v rel

/-- `Graph.build_graph(sentence, id2node)`: `/repo/nephosem/core/graph.py:99-116`, with the graph as it is left also where an
exception ends the loop.  `id2node` has strings as keys, which is what the split gives; the default arguments `None`, which are a
`TypeError`, are left out. -/
def buildDeps (ids : Dict Str Str) (g : UG) : List Str → Except Err Unit × UG
  | [] => (.ok (), g)
  | l :: ls =>
    match depLine l with
    | none => (.error .valueError, g)
    | some (a, r, b) =>
      match ids.get? a with
      | none => (.error .keyError, g)
      | some u =>
        match ids.get? b with
        | none => (.error .keyError, g)
        | some v => buildDeps ids (joinNodes g u v r) ls

end Verif.Dep
