import Verif.Window.Model
import Verif.Engine.Model
import Verif.Matrix.Model

/-!
# Token retrieval end to end: `TokenHandler`, `/repo/nephosem/models/typetoken.py:481-657`

The engine (`Verif.Engine`), the loop over a file (`Verif.Window`) and the making of the matrix (`Verif.Matrix`) are
put together.  A file is given by its identifier and its lines.
-/

namespace Verif.Flow
open Verif.Py Verif.Vocab Verif.Corpus Verif.Window Verif.Engine Verif.Matrix

variable {ℓ μ κ φ : Type} [LinearOrder κ]

/-- Within a file every item node carries the identifier of the file besides its match, typetoken.py 606-615
(`fid=fid`): the formatter on such pairs. -/
def tagged (f : Formatter ℓ μ κ) (fid : φ) : Formatter ℓ (φ × μ) κ :=
  { matchLine := fun l => (f.matchLine l).map (fun m => (fid, m)), isSep := f.isSep
    getType := fun x => f.getType x.2, getColloc := fun x => f.getColloc x.2 }

/-- `self.type2toks`: query types with their token lists. -/
abbrev Toks (φ μ κ : Type) := Dict κ (List (Token (φ × μ)))

/-- `_do_process_job`, typetoken.py 564-569.  Simplified: if the loop raises (only with right span 0, `C11_false`), the
worker dies; the model then leaves the dict alone, and the theorems assume a right span above 0. -/
def tokUpd (f : Formatter ℓ μ κ) (L R : Nat) (colv : Option (Vocab κ)) (d : Toks φ μ κ) (file : φ × List ℓ) : Toks φ μ κ :=
  match updateFile (tagged f file.1) L R (tokCallbacks (tagged f file.1) colv) d file.2 with
  | .ok d' => d'
  | .error _ => d

/-- The column vocabulary of a handler, typetoken.py 504-506: an empty one is none.  The filter is `in`. -/
def handlerVocab (colv : Vocab κ) : Option (Vocab κ) := if Vocab.len colv = 0 then none else some colv

/-- What the workers of a new handler run, typetoken.py 508-510 and 538-562. -/
def retrieveProg (f : Formatter ℓ μ κ) (L R : Nat) (colv : Vocab κ) (queries : List κ) :
    Prog (φ × List ℓ) (Bool × Toks φ μ κ) (TokRes (Toks φ μ κ)) :=
  tokenProg (queries.map (fun q => (q, []))) (tokUpd f L R (handlerVocab colv))

/-- The loop over one result, typetoken.py 650-652, with the merging of 655 done at once: `TypeNode.merge` of nodes
of one type concatenates their token lists (terms.py 265-284), and the nodes of one key have one type. -/
def addRes (acc : Toks φ μ κ) : TokRes (Toks φ μ κ) → Toks φ μ κ
  | .minus1 => acc
  | .toks d => d.foldl (fun acc p => acc.set p.1 ((acc.get? p.1).getD [] ++ p.2)) acc

/-- `_process_results`, typetoken.py 643-657. -/
def mergeRes (rs : List (TokRes (Toks φ μ κ))) : Toks φ μ κ := rs.foldl addRes []

/-- A token as `transform_nodes_to_matrix` sees it: `/repo/nephosem/specutils/mxutils.py:156-162`.  `name` is what
`str(tok)` gives for the file, the match and the line number (`Verif.Items.tokenOf`). -/
def asTok (f : Formatter ℓ μ κ) (name : φ → μ → Nat → κ) (t : Token (φ × μ)) : Tok κ :=
  { name := name t.m.1 t.m.2 t.lid
    left := t.left.map (fun y => f.getColloc y.1.2), right := t.right.map (fun y => f.getColloc y.1.2) }

/-- `retrieve_tokens(fnames)`, typetoken.py 512-533, given the state in which the workers are joined.  `none`: the
parent waits forever. -/
def retrieve (f : Formatter ℓ μ κ) (name : φ → μ → Nat → κ) (order : List κ → List κ) (n : Nat)
    (s : State (φ × List ℓ) (Bool × Toks φ μ κ) (TokRes (Toks φ μ κ))) : Option (Except Matrix.Err (Mtx κ Int)) :=
  (readN n s).map (fun rs => nodesToMatrix ((mergeRes rs).flatMap (fun p => p.2.map (asTok f name))) order)

end Verif.Flow
