import Verif.Dep.Graph
import Verif.Vocab.Plain

/-!
# The arrow notation of patterns: `/repo/nephosem/specutils/deputils.py:41-118`

The keyword arguments `larrow`, `rarrow` are always left at `<-` and `->` (`graph.py:538` and the recursive calls).
-/

namespace Verif.Dep
open Verif.Py Verif.Vocab.Plain

/-- `s[i:i+2] == '<-' or s[i:i+2] == '->'`, for the suffix of `s` from `i` on. -/
def isArrow (s : Str) : Bool := s.take 2 == ['<', '-'] || s.take 2 == ['-', '>']

/-- `find_arrow` with `start = 0`, the only value used: `deputils.py:41-54`. -/
def findArrow (s : Str) : Nat :=
  ((List.range s.length).find? (fun i =>
    isArrow (s.drop i) && !(decide ('[' ∈ s.take i) && !decide (']' ∈ s.take i)))).getD s.length

/-- `s.split(',')`. -/
def splitComma : Str → List Str
  | [] => [[]]
  | c :: cs =>
    if c = ',' then [] :: splitComma cs
    else match splitComma cs with
      | [] => [[c]]
      | h :: t => (c :: h) :: t

/-- `rel, next_node = s.split(' ', 1)`: `deputils.py:78`; without a space, unpacking raises `ValueError`. -/
def splitSpace (s : Str) : Except Err (Str × Str) :=
  if ' ' ∈ s then .ok (s.takeWhile (· ≠ ' '), (s.dropWhile (· ≠ ' ')).tail) else .error .valueError

/-- `node_dict` and `edge_dict`. -/
abbrev Read := Dict Nat Str × Dict (Nat × Nat) Str

/-- `parse_sub`: `deputils.py:57-93`.  Every recursive call gets a shorter string; the fuel bounds the recursion. -/
def parseSub : Nat → Nat → Str → Str → Read → Except Err Read
  | 0, _, _, _, _ => .error .diverges
  | n + 1, prev, sub, arrow, st =>
    if (strip sub).length ≤ 0 then .ok st
    else if sub.head? = some '[' ∧ sub.getLast? = some ']' then
      ((splitComma (sub.tail.dropLast)).map strip).foldlM (fun st node => parseSub n prev (strip node) arrow st) st
    else do
      let i := findArrow sub
      let (rel, node) ← splitSpace (strip (sub.take i))
      let nid := st.1.length + 1
      let nodes := Dict.set st.1 nid (strip node)
      let edges := if arrow = ['<', '-'] then Dict.set st.2 (nid, prev) (strip rel) else Dict.set st.2 (prev, nid) (strip rel)
      if i = sub.length then .ok (nodes, edges)
      else parseSub n nid (sub.drop (i + 2)) ((sub.drop i).take 2) (nodes, edges)

/-- `parse_pattern`: `deputils.py:96-118`. -/
def parsePattern (target feature : Str) : Except Err Read :=
  let feature := strip feature
  let sub := strip (feature.drop 2)
  parseSub (sub.length + 1) 1 sub (feature.take 2) ([(1, strip target)], [])

end Verif.Dep
