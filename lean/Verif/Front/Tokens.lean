import Verif.Items.Nodes
import Verif.Matrix.Model

/-!
# Concordances, token-context positions and token weights

`save_concordance` (`nephosem/utils.py` 274-304), `read_token_colloc` and `build_tc_weight_matrix`
(`nephosem/models/typetoken.py` 1178-1243).
-/

namespace Verif.Front

open Verif.Py
open Verif.Items (TokenN TypeN Attrs Err toColloc join split)
open Verif.Vocab.Plain (Str)

/-! ## Concordances -/

/-- The collocates of one side as one cell, utils.py 289-292; iterating over `None` is a `TypeError`. -/
def side (fmt : Str) : Option (List Attrs) → Except Err Str
  | none => .error .type
  | some cs => do
    let ss ← cs.mapM (fun c => toColloc c (some fmt))
    return join ' ' ss

/-- The line of one token, utils.py 289-292. -/
def concordLine (fmt : Str) (t : TokenN) : Except Err Str := do
  let l ← side fmt t.lcollocs
  let r ← side fmt t.rcollocs
  let s ← t.token
  let c ← toColloc t.attrs (some fmt)
  return join '\t' [s, l, c, r] ++ ['\n']

/-- The two loops of `save_concordance`, utils.py 287-292, over the tokens in order: what the file holds at the end, and
the exception that ended it, if any. -/
def concordLoop (fmt : Str) : List TokenN → Str × Option Err
  | [] => ([], none)
  | t :: ts =>
    match concordLine fmt t with
    | .error e => ([], some e)
    | .ok line => (line ++ (concordLoop fmt ts).1, (concordLoop fmt ts).2)

/-- `save_concordance(fname, typenodes, colloc_fmt)`, utils.py 274-292.  `codecs.open(…, 'w')` empties the file. -/
def saveConcordance (typenodes : Dict Str TypeN) (fmt : Str) : Str × Option Err :=
  concordLoop fmt (typenodes.flatMap (fun p => p.2.tokens))

/-! ## Token-context positions -/

/-- The entries `(collocate, position)` of one side in the order they are written, typetoken.py 1195-1208.  `near` lists
the collocates from the target outwards, `sign` is the side. -/
def sideWrites (fmt : Str) (span : Nat) (sign : Int) (near : List Attrs) : Except Err (List (Str × Int)) :=
  ((near.take span).zipIdx).mapM (fun p => do
    let s ← toColloc p.1 (some fmt)
    return (s, sign * ((p.2 : Int) + 1)))

/-- `len(None)` is a `TypeError`, terms.py 371-376. -/
def collocs : Option (List Attrs) → Except Err (List Attrs)
  | none => .error .type
  | some l => .ok l

/-- The entries of one token, typetoken.py 1193-1208.  `lcollocs[-(i+1)]` counts from the end.  An empty or missing
vocabulary lets every collocate pass.  Negative spans are left out. -/
def tokenWrites (lspan rspan : Nat) (fmt : Str) (vocab : List Str) (t : TokenN) :
    Except Err (List (Str × Str × Int)) := do
  let s ← t.token
  let lc ← collocs t.lcollocs
  let l ← sideWrites fmt lspan (-1) lc.reverse
  let rc ← collocs t.rcollocs
  let r ← sideWrites fmt rspan 1 rc
  return ((l ++ r).filter (fun e => vocab.isEmpty || decide (e.1 ∈ vocab))).map (fun e => (s, e.1, e.2))

/-- `matrix[tok_str][colloc_str] = position` for nested `defaultdict`s, typetoken.py 1202 and 1208. -/
def write (d : Dict Str (Dict Str Int)) (w : Str × Str × Int) : Dict Str (Dict Str Int) :=
  Dict.set d w.1 (Dict.set ((Dict.get? d w.1).getD []) w.2.1 w.2.2)

/-- `read_token_colloc(type_node, colloc_vocab, settings)`, typetoken.py 1178-1209. -/
def readTokenColloc (lspan rspan : Nat) (fmt : Str) (vocab : List Str) (n : TypeN) :
    Except Err (Dict Str (Dict Str Int)) := do
  let ws ← n.tokens.mapM (tokenWrites lspan rspan fmt vocab)
  return ws.flatten.foldl write []

/-! ## Token weights -/

open Verif.Matrix (Mtx mtxToDict dictToSp mkMtx AllClose)

/-- `'/'.join(tok.split('/')[:-2])`, typetoken.py 1222. -/
def typeOfToken (tok : Str) : Str := join '/' ((split '/' tok).dropLast.dropLast)

/-- The groups `type2token`, typetoken.py 1219-1228. -/
def groupTokens (weights : Dict Str (Dict Str Int)) (toks : List Str) : Dict Str (List Str) :=
  toks.foldl (fun g tok =>
    if Dict.contains weights (typeOfToken tok)
    then Dict.set g (typeOfToken tok) ((Dict.get? g (typeOfToken tok)).getD [] ++ [tok])
    else g) []

/-- The weights of one token, typetoken.py 1233-1239. -/
def copyRow (row : Dict Str Int) (tok : Str) (d : Dict Str (Dict Str Int)) (feats : List Str) :
    Dict Str (Dict Str Int) :=
  feats.foldl (fun d f =>
    match Dict.get? row f with
    | some v => write d (tok, f, v)
    | none => d) d

/-- One token of a group, typetoken.py 1232-1239; a token without contexts is a `KeyError`. -/
def weighToken (contexts weights : Dict Str (Dict Str Int)) (d : Dict Str (Dict Str Int)) (p : Str × Str) :
    Except Matrix.Err (Dict Str (Dict Str Int)) :=
  match Dict.get? contexts p.2 with
  | none => .error .keyError
  | some feats => .ok (copyRow ((Dict.get? weights p.1).getD []) p.2 d (Dict.keys feats))

/-- The pairs of type and token in the order of the loops, typetoken.py 1230-1232. -/
def pairs (g : Dict Str (List Str)) : List (Str × Str) := g.flatMap (fun p => p.2.map (fun tok => (p.1, tok)))

/-- `build_tc_weight_matrix(tcPositionMTX, twMTX)`, typetoken.py 1213-1243. -/
def buildTcWeights (tc tw : Mtx Str Int) : Except Matrix.Err (Mtx Str Int) := do
  let contexts ← mtxToDict tc
  let weights ← mtxToDict tw
  let d ← (pairs (groupTokens weights tc.rows)).foldlM (weighToken contexts weights) []
  let s ← dictToSp d tc.rows tw.cols
  mkMtx (.sp s) tc.rows tc.cols

end Verif.Front
