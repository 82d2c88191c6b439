import Verif.Flow.Retrieve

/-!
# `TokenVectorizer`: `/repo/nephosem/models/typetoken.py:820-892`
-/

namespace Verif.Flow
open Verif.Py Verif.Vocab Verif.Corpus Verif.Window Verif.Engine Verif.Matrix

variable {ℓ μ κ φ : Type} [LinearOrder κ]

/-- The queries: `query_dict`, typetoken.py 844-847; the handler's queries are the keys of that dict. -/
def queryDict (concepts : Dict κ (List κ)) : Dict κ Int :=
  concepts.foldl (fun d c => c.2.foldl (fun d v => d.set v 0) d) []

/-- `typenodes[v]` for a string, where `typenodes` is the matrix that `retrieve_tokens` returns: the row with that
name as an array, `/repo/nephosem/core/matrix.py:766-802, 174-179`. -/
def rowOf (m : Mtx κ Int) (v : κ) : Except Matrix.Err (List Int) :=
  match (idOf m.rows).get? v with
  | none => .error .keyError
  | some i => .ok ((List.range m.body.nc).map (fun j => m.body.val i j))

/-- The inner loop, typetoken.py 855-856: what has been appended, and the exception that ended it. -/
def variantRows (m : Mtx κ Int) : List κ → List (List Int) × Option Matrix.Err
  | [] => ([], none)
  | v :: vs => match rowOf m v with
    | .error e => ([], some e)
    | .ok r => (r :: (variantRows m vs).1, (variantRows m vs).2)

/-- The outer loop, typetoken.py 853-856: the attribute `concepts` at the end, and the exception that ended it. -/
def fillConcepts (m : Mtx κ Int) : Dict κ (List κ) → Dict κ (List (List Int)) × Option Matrix.Err
  | [] => ([], none)
  | c :: cs => match (variantRows m c.2).2 with
    | some e => ([(c.1, (variantRows m c.2).1)], some e)
    | none => ((c.1, (variantRows m c.2).1) :: (fillConcepts m cs).1, (fillConcepts m cs).2)

/-- `retrieve_tokens`, typetoken.py 843-857, given what the handler's `retrieve_tokens` gives: the attribute `concepts`
afterwards (`none`: as before) and the exception, if any. -/
def vecRetrieve (concepts : Dict κ (List κ)) : Except Matrix.Err (Mtx κ Int) →
    Option (Dict κ (List (List Int))) × Option Matrix.Err
  | .error e => (none, some e)
  | .ok m => (some (fillConcepts m concepts).1, (fillConcepts m concepts).2)

/-- How `generate_vectors` ends as far as it is modelled. -/
inductive Generated where
  | empty
  | attributeError
  | matrixError (e : Matrix.Err)
  | goesOn
  deriving DecidableEq

/-- The beginning of `generate_vectors`, typetoken.py 860-864.  `attr`: the attribute `concepts` if it exists; `str`: the
string of an array.  `submatrix` gives `None` if no row is found, and `None` has no attribute `multiply`.  The rest of
the loop is not modelled (`goesOn`). -/
def generateVectors (str : List Int → κ) (freqMTX : Mtx κ Int) (attr : Option (Dict κ (List (List Int)))) : Generated :=
  match attr with
  | none => .attributeError
  | some [] => .empty
  | some (c :: _) => match submatrix freqMTX (some (c.2.map str)) none with
    | .error e => .matrixError e
    | .ok none => .attributeError
    | .ok (some _) => .goesOn

end Verif.Flow
