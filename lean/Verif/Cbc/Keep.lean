import Verif.Cbc.Rounds

/-!
# What `CBC.cluster` keeps in the home directory (`nephosem/models/cbc.py` 178-216, 1205-1214, `nephosem/utils.py` 85-88)

The file system is reduced to the directories that exist and the JSON files below the home directory.  A path is the list of
its parts below the home directory.  The JSON text of a value is not modelled: a file that was written to its end holds the value.
-/

namespace Verif.Cbc

open Verif.Py

/-- A file after `json.dump`: complete, or broken off by an exception. -/
inductive Doc (α : Type) where
  | whole (a : α)
  | cut
deriving DecidableEq

/-- What a result file holds: committees or residues of all rounds. -/
inductive Kept (E : Type) where
  | comms (cs : List (List (List E)))
  | residues (rs : List (List E))
deriving DecidableEq

/-- The directories and JSON files below the home directory. -/
structure Home (E : Type) where
  dirs : List (List String)
  files : List String → Option (Doc (Kept E))

/-- What the machine allows: directories that can be made, files that can be opened for writing, the characters of the locale's
encoding, and the characters of an element. -/
structure Machine (E : Type) where
  canMake : List String → Bool
  canOpen : List String → Bool
  locale : Char → Bool
  text : E → List Char

/-- The characters of `latin1`. -/
def latin1 (c : Char) : Bool := decide (c.toNat < 256)

variable {K E V : Type} [Field K] [LinearOrder K] [LinearOrder E]

/-- `make_dir`: `nephosem/utils.py` 85-88. -/
def makeDir (mc : Machine E) (p : List String) (h : Home E) : Except Err (Home E) :=
  if p ∈ h.dirs then .ok h
  else if mc.canMake p then .ok { h with dirs := p :: h.dirs }
  else .error .value

/-- Whether `json.dump(.., ensure_ascii=False)` of strings can be encoded.  Simplified: control characters, which are escaped, count
as themselves; every encoding in use has them. -/
def encodes (mc : Machine E) (enc : Char → Bool) (es : List E) : Bool := es.all (fun e => (mc.text e).all enc)

/-- `codecs.open(fname, 'w')` and `json.dump`: the flag tells whether no exception was raised.  Opening empties the file. -/
def writeDoc (mc : Machine E) (p : List String) (fits : Bool) (a : Kept E) (h : Home E) : Home E × Bool :=
  if mc.canOpen p then
    ({ h with files := fun q => if q = p then some (if fits then .whole a else .cut) else h.files q }, fits)
  else (h, false)

/-- `save_committees_json`: cbc.py 1205-1208, in the encoding of the locale. -/
def saveComms (mc : Machine E) (dir : List String) (cs : List (List (List E))) (h : Home E) : Home E × Bool :=
  writeDoc mc (dir ++ ["Cs"]) (encodes mc mc.locale cs.flatten.flatten) (.comms cs) h

/-- `save_residues_json`: cbc.py 1211-1214, in `latin1`. -/
def saveResidues (mc : Machine E) (dir : List String) (rs : List (List E)) (h : Home E) : Home E × Bool :=
  writeDoc mc (dir ++ ["Rs"]) (encodes mc latin1 rs.flatten) (.residues rs) h

/-- The loop of `CBC.cluster`, cbc.py 182-206, with a flag that tells whether it was left at its condition (and not by one of the two
`return` statements). -/
def clusterRun {C : Type} (steps : List E → Except Err (List C × List E)) : Nat → List E → List (List C × List E) × Bool
  | 0, _ => ([], true)
  | n + 1, residues =>
    if residues = [] then ([], true)
    else
      let r := roundOf steps residues
      if r.2.length ≤ 2 then ([r], false)
      else if r.2.length = residues.length then ([r], false)
      else
        let x := clusterRun steps n r.2
        (r :: x.1, x.2)

/-- After the loop: cbc.py 208-216.  Exceptions of the two writing functions are caught, the second one is not called after an exception
of the first; an exception of `make_dir` is not caught. -/
def keepResults (mc : Machine E) (stamp : String) (rounds : List (List (List E) × List E)) (h : Home E) :
    Except Err (List (List (List E) × List E)) × Home E :=
  match makeDir mc [".cbc", "res." ++ stamp] h with
  | .error e => (.error e, h)
  | .ok h1 =>
    let w := saveComms mc [".cbc", "res." ++ stamp] (rounds.map Prod.fst) h1
    let h2 := if w.2 then (saveResidues mc [".cbc", "res." ++ stamp] (rounds.map Prod.snd) w.1).1 else w.1
    (.ok rounds, h2)

/-- `CBC.cluster(num_eles)`, cbc.py 148-216, with the home directory; `stamp` is the time to the minute.  The files of step 1 with several
processes (cbc.py 298-345) are made and removed within a round and not part of this model (see `Shared.lean`). -/
def clusterKeeping (mc : Machine E) (stamp : String) (c : Clustering K E V) (numEles : Int) (h : Home E) :
    Except Err (List (List (List E) × List E)) × Home E :=
  match makeDir mc [".cbc"] h with
  | .error e => (.error e, h)
  | .ok h0 =>
    let x := clusterRun (majorSteps c) c.numIter (if 0 < numEles then c.elements.take numEles.toNat else c.elements)
    if x.2 then keepResults mc stamp x.1 h0 else (.ok x.1, h0)

end Verif.Cbc
