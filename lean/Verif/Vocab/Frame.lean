import Verif.Vocab.Model

/-!
# Model of tables of a vocabulary and of its printed form
-/

namespace Verif.Vocab
open Verif.Py

variable {κ : Type} [LinearOrder κ]

/-- A `pandas.DataFrame` as far as the constructor looks at it: the columns `item` and `freq`, if there are such. -/
structure Frame (κ : Type) where
  item : Option (List κ)
  freq : Option (List Int)

/-- `self.dataframe` as a table: `/repo/nephosem/core/vocab.py:78-86`. -/
def frameOf (v : Vocab κ) : Frame κ := ⟨some ((dataframe v).map Prod.fst), some ((dataframe v).map Prod.snd)⟩

/-- `_gen_freq_dict_by_dataframe`: `/repo/nephosem/core/vocab.py:112-119`.  A missing column is a `KeyError`. -/
def freqOfFrame (f : Frame κ) : Except Err (Dict κ Int) :=
  match f.item with
  | none => .error .keyError
  | some items => match f.freq with
    | none => .error .keyError
    | some freqs => .ok (Dict.ofPairs (items.zip freqs))

/-- What may be passed to the constructor: nothing, a dict, a defaultdict, a table, or anything else. -/
inductive Data (κ : Type) where
  | nothing
  | dict (d : Dict κ Int)
  | defaultdict (d : Dict κ Int)
  | frame (f : Frame κ)
  | other

/-- `Vocab(data)`: `/repo/nephosem/core/vocab.py:56-75, 89-109`. -/
def construct (data : Data κ) : Except Err (Vocab κ) :=
  match data with
  | .nothing => .ok (mk' [])
  | .dict d => .ok (mk' d)
  | .defaultdict d => .ok (mk' d true)
  | .frame f => (freqOfFrame f).map (fun d => mk' d)
  | .other => .error .notImplemented

/-- `keys()`: `/repo/nephosem/core/vocab.py:231-232`. -/
def keys (v : Vocab κ) : List κ := v.freq.keys

/-- `values()`: `/repo/nephosem/core/vocab.py:234-235`. -/
def values (v : Vocab κ) : List Int := v.freq.values

/-- `items()`: `/repo/nephosem/core/vocab.py:237-239`. -/
def items (v : Vocab κ) : List (κ × Int) := v.freq

/-- `isEmpty()`: `/repo/nephosem/core/vocab.py:245-246`. -/
def isEmpty (v : Vocab κ) : Bool := decide (v.freq.keys.length = 0)

/-- What `repr` shows: a list of pairs, or two lists with dots between them: `/repo/nephosem/core/vocab.py:457-467`.
The commas and brackets are left out. -/
inductive Shown (κ : Type) where
  | all (l : List (κ × Int))
  | ends (top bottom : List (κ × Int))
  deriving DecidableEq

/-- `items[-3:]`. -/
def lastThree {α : Type} (l : List α) : List α := l.drop (l.length - 3)

/-- `__repr__` and `__str__`: `/repo/nephosem/core/vocab.py:457-467`. -/
def shown (v : Vocab κ) : Shown κ :=
  if v.freq.length ≤ 7 then .all v.freq
  else
    let sorted := sortedByDesc Prod.snd v.freq
    .ends (sorted.take 3) (lastThree sorted)

end Verif.Vocab
