import Verif.Cooc.Model

/-!
# `TypeVectorizer`: `/repo/nephosem/models/typetoken.py:661-818`

The two engine runs of `fit` are given by the states in which their workers are joined; which states are possible is
said by `Verif.Engine.exec`.  Settings and the corpus name are left out (the name is looked at in `corpusName`).
-/

namespace Verif.Flow
open Verif.Py Verif.Vocab Verif.Corpus Verif.Window Verif.Engine Verif.Matrix Verif.Cooc

variable {ℓ μ κ : Type} [LinearOrder κ]

/-- The attributes of a vectorizer that matter: typetoken.py 739-757. -/
structure TypeVec (κ : Type) where
  row : Option (Vocab κ)
  col : Option (Vocab κ)
  rowMax : Rat
  rowMin : Rat
  colMax : Rat
  colMin : Rat

/-- The constructor: typetoken.py 739-757; the error is the `ValueError` of line 756. -/
def newTypeVec (row col : Option (Vocab κ)) (rowMax rowMin colMax colMin : Rat) : Except Unit (TypeVec κ) :=
  if rowMax < 0 ∨ rowMin < 0 ∨ colMax < 0 ∨ colMin < 0 then .error ()
  else .ok ⟨row, col, rowMax, rowMin, colMax, colMin⟩

/-- `corpus_name if not corpus_name else self.corpus_path.split(os.sep)[-1]`: typetoken.py 746 (also 835 and 914); the
path is given by its parts. -/
def corpusName (given : Option (List Char)) (pathParts : List (List Char)) : Option (List Char) :=
  match given with
  | none => none
  | some [] => some []
  | some (_ :: _) => pathParts.getLast?

/-- The row vocabulary of `fit`: typetoken.py 793-796, given the state `s` in which the workers of the frequency
handler are joined (only looked at if a vocabulary is built).  `none`: the parent waits forever for results. -/
def fitRow (tv : TypeVec κ) (n : Nat) (s : State (List ℓ) Unit (Dict κ Int)) : Option (Vocab κ) :=
  match tv.row with
  | some v => some v
  | none => (readN n s).map mergeFreqs

/-- The column vocabulary of `fit`: typetoken.py 797-798. -/
def fitCol (tv : TypeVec κ) (row : Vocab κ) : Vocab κ :=
  match tv.col with
  | some v => v
  | none => Vocab.deepcopy row

/-- The vectorizer after `fit`: the vocabularies are kept, typetoken.py 796 and 798. -/
def fitKeep (tv : TypeVec κ) (row : Vocab κ) : TypeVec κ := { tv with row := some row, col := some (fitCol tv row) }

/-- `fit(fnames)`: typetoken.py 779-803, given the row vocabulary and the state `s` in which the workers of the
co-occurrence handler are joined.  That handler is constructed without vocabularies (792), so an empty row vocabulary
stays empty. -/
def fit (tv : TypeVec κ) (row : Vocab κ) (s : State (List ℓ) (ColData κ) (ColRes κ)) :
    TypeVec κ × Except Matrix.Err (Option (Mtx κ Int)) :=
  (fitKeep tv row, buildColFreq row s)

/-- `vectorize(meas)`: typetoken.py 805-818.  The call passes two of the four arguments of `compute_association`
(`/repo/nephosem/specutils/mxcalc.py:87`) that have no default: `given` lists the names of the parameters that are
passed.  A missing argument is a `TypeError` before the body runs. -/
def callWith {α : Type} (required given : List String) (body : Except Unit α) : Except Unit α :=
  if required.all (· ∈ given) then body else .error ()

/-- `vectorize`, see `callWith`; typetoken.py 817, mxcalc.py 87; also `TypeToken.compute_association`, typetoken.py
988. -/
def vectorize {α : Type} (body : Except Unit α) : Except Unit α :=
  callWith ["freqMTX", "nfreq", "cfreq"] ["freqMTX", "meas"] body

end Verif.Flow
