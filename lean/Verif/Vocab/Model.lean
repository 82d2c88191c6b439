import Verif.Py.Dict
import Verif.Py.Sort

/-!
# Model of `nephosem/core/vocab.py` and the dict helpers of `nephosem/utils.py`

Items are Python strings; the model works for any linearly ordered type `κ` of items (Python compares
strings by code point, a linear order).  Frequencies are Python integers (`Int`); float frequencies, which
only arise from plain files containing a dot, are not modelled.
-/

namespace Verif.Vocab
open Verif.Py

variable {κ : Type} [LinearOrder κ]

/-- Python exceptions raised by the modelled methods. -/
inductive Err where
  | keyError | notImplemented | valueError
  deriving DecidableEq, Repr

set_option linter.dupNamespace false in
/-- `Vocab` object: `/repo/nephosem/core/vocab.py:56-75`.  `freq` is `freq_dict`, `filter` is
`FILTERPRESENT`, `dflt` records whether the underlying dict is a `defaultdict(int)` (the constructor
deep-copies its argument and so keeps that type, lines 97-107).  `encoding` and the unused `raw_vocab` are
left out. -/
structure Vocab (κ : Type) where
  freq : Dict κ Int
  filter : Bool
  dflt : Bool := false
  deriving DecidableEq, Repr

/-- Constructor from a dict: `/repo/nephosem/core/vocab.py:56-75, 89-109`. -/
def mk' (d : Dict κ Int) (dflt : Bool := false) : Vocab κ :=
  { freq := d, filter := decide (0 < d.keys.length), dflt := dflt }

/-- `Vocab()`; `_construct(None)` gives a plain `dict`: `/repo/nephosem/core/vocab.py:95-96`. -/
def empty : Vocab κ := mk' []

/-- `__contains__`: `/repo/nephosem/core/vocab.py:122-123`. -/
def contains (v : Vocab κ) (k : κ) : Bool := v.freq.contains k

/-- `vocab['item']`: `/repo/nephosem/core/vocab.py:147-148`.  A plain dict raises `KeyError` for an absent
item; a `defaultdict(int)` inserts it with value 0, so the read may change the object. -/
def getStr (v : Vocab κ) (k : κ) : Except Err Int × Vocab κ :=
  match v.freq.get? k with
  | some n => (.ok n, v)
  | none => if v.dflt then (.ok 0, { v with freq := v.freq.set k 0 }) else (.error .keyError, v)

/-- `vocab[k] = n`: `/repo/nephosem/core/vocab.py:176-177`. -/
def setItem (v : Vocab κ) (k : κ) (n : Int) : Vocab κ := { v with freq := v.freq.set k n }

/-- `increment`: `/repo/nephosem/core/vocab.py:251-256`. -/
def increment (v : Vocab κ) (k : κ) (inc : Int := 1) : Vocab κ :=
  match v.freq.get? k with
  | some n => { v with freq := v.freq.set k (n + inc) }
  | none => { v with freq := v.freq.set k inc }

/-- `__len__`: `/repo/nephosem/core/vocab.py:215-216`. -/
def len (v : Vocab κ) : Nat := v.freq.keys.length

/-- `sum_freq`: `/repo/nephosem/core/vocab.py:346-354`. -/
def sumFreq (v : Vocab κ) : Int := v.freq.values.sum

/-- `equal`: `/repo/nephosem/core/vocab.py:356-368`; Python dict equality ignores the insertion order. -/
def equal (v w : Vocab κ) : Bool :=
  decide (v.freq.keys.length = w.freq.keys.length) &&
    v.freq.all (fun p => decide (w.freq.get? p.1 = some p.2))

/-- `dataframe`: `/repo/nephosem/core/vocab.py:78-86`, the rows in order. -/
def dataframe (v : Vocab κ) : List (κ × Int) :=
  sortedByDesc Prod.snd (sortedBy Prod.fst v.freq)

/-- `vocab < n` and friends return the list of items: `/repo/nephosem/core/vocab.py:186-213`. -/
inductive Cmp where
  | lt | le | eq | gt | ge
  deriving DecidableEq, Repr

/-- The comparison of one frequency, `/repo/nephosem/core/vocab.py:188,195,201,205,211`. -/
def Cmp.holds : Cmp → Int → Int → Bool
  | .lt, a, b => decide (a < b)
  | .le, a, b => decide (a ≤ b)
  | .eq, a, b => decide (a = b)
  | .gt, a, b => decide (a > b)
  | .ge, a, b => decide (a ≥ b)

/-- `[k for k, v in self.freq_dict.items() if v op arg]`: `/repo/nephosem/core/vocab.py:186-213`. -/
def compare (v : Vocab κ) (op : Cmp) (n : Int) : List κ :=
  (v.freq.filter (fun p => op.holds p.2 n)).map Prod.fst

/-- `_select_by_items`: `/repo/nephosem/core/vocab.py:218-222`. -/
def selectByItems (v : Vocab κ) (items : List κ) : Vocab κ :=
  mk' (v.freq.filter (fun p => decide (p.1 ∈ items)))

/-- `_select_by_freqs`: `/repo/nephosem/core/vocab.py:224-228`. -/
def selectByFreqs (v : Vocab κ) (freqs : List Int) : Vocab κ :=
  mk' (v.freq.filter (fun p => decide (p.2 ∈ freqs)))

/-- Python's `xs[start:stop]` with optional, possibly negative bounds (step 1). -/
def pySlice {α : Type} (xs : List α) (start stop : Option Int) : List α :=
  let n : Int := xs.length
  let norm (i : Int) : Nat := (if i < 0 then max (i + n) 0 else min i n).toNat
  let a := (start.map norm).getD 0
  let b := (stop.map norm).getD xs.length
  (xs.take b).drop a

/-- Subscript arguments of `__getitem__` other than a plain string: `/repo/nephosem/core/vocab.py:149-174`.
List arguments are classified by their first element as in the source; mixed lists are not modelled. -/
inductive Sel (κ : Type) where
  | items (l : List κ)
  | freqs (l : List Int)
  | slice (start stop : Option Int)

/-- One non-tuple selection: `/repo/nephosem/core/vocab.py:149-161,169-172`. -/
def select1 (v : Vocab κ) : Sel κ → Vocab κ
  | .items [] => mk' []
  | .items (x :: l) => selectByItems v (x :: l)
  | .freqs [] => mk' []
  | .freqs (x :: l) => selectByFreqs v (x :: l)
  | .slice a b => mk' (Dict.ofPairs (pySlice (dataframe v) a b))

/-- Tuple subscripts select one after the other: `/repo/nephosem/core/vocab.py:162-168`. -/
def selectTuple (v : Vocab κ) (ss : List (Sel κ)) : Vocab κ := ss.foldl select1 v

/-- `subvocab`: `/repo/nephosem/core/vocab.py:312-319`. -/
def subvocab (v : Vocab κ) (items : List κ) : Vocab κ :=
  mk' (items.foldl (fun d it => d.set it ((v.freq.get? it).getD 0)) [])

/-- `deepcopy`/`copy`: `/repo/nephosem/core/vocab.py:370-376`.  The filter flag is recomputed. -/
def deepcopy (v : Vocab κ) : Vocab κ := mk' v.freq v.dflt

/-- Sorting orders accepted by `utils.sort_dict`: `/repo/nephosem/utils.py:186-217`; any other string is a
`ValueError`. -/
inductive Sorting where
  | freq | alpha | other
  deriving DecidableEq, Repr

/-- `utils.sort_dict`: `/repo/nephosem/utils.py:186-217`. -/
def sortDict (d : Dict κ Int) (s : Sorting) (desc : Bool) : Except Err (List κ) :=
  match s with
  | .freq =>
    let tuples := sortedBy Prod.fst d
    let tuples := if desc then sortedByDesc Prod.snd tuples else sortedBy Prod.snd tuples
    .ok (tuples.map Prod.fst)
  | .alpha => .ok (if desc then sortedByDesc id d.keys else sortedBy id d.keys)
  | .other => .error .valueError

/-- `get_item_list`: `/repo/nephosem/core/vocab.py:258-276`; defaults `sorting='alpha'`,
`descending=False`. -/
def getItemList (v : Vocab κ) (s : Sorting := .alpha) (desc : Bool := false) : Except Err (List κ) :=
  sortDict v.freq s desc

/-- The item list used by the handlers: `get_item_list()` with the default arguments. -/
def itemList (v : Vocab κ) : List κ := sortedBy id v.freq.keys

end Verif.Vocab
