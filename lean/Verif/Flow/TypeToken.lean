import Verif.Vocab.Model
import Verif.Matrix.Model

/-!
# `TypeToken` as a state machine: `/repo/nephosem/models/typetoken.py:895-1154`

A method call is a step that changes the attributes and gives a result or an exception.  The classes
`ItemFreqManager`, `ColFreqManager`, `TokenManager`, `TokenScanner` and the functions `get_word_str`,
`build_token_weights` and `build_token_vectors` are neither defined in nor imported by that module (lines 44-67), so
evaluating them is a `NameError`.  Matrices are of any type `X`; what `mxcalc` computes from them is given by `Lib`.
-/

namespace Verif.Flow
open Verif.Py Verif.Vocab

/-- Exceptions; `lib` are those of the functions of `mxcalc` and of `TypeNode.sample`. -/
inductive TErr where
  | name | type | attribute | value | key | notImplemented | lib
  deriving DecidableEq, Repr

/-- The functions of `mxcalc` that are called: `compute_cosine` (398-427), `compute_distance` (341-385, axis 0) and
`compute_simrank` (430-459), for a matrix; and `TypeNode.sample` (`/repo/nephosem/core/terms.py`). -/
structure Lib (X N : Type) where
  cosine : X → Int → Except TErr X
  distance : X → List Char → Except TErr X
  simrank : X → Bool → Except TErr X
  sample : N → Except TErr N

/-- The attributes: typetoken.py 911-925.  `rankmx`, `type_pairs` and `type_nodes` do not exist before they are set
(`none`); the others are `None`. -/
structure TT (X N κ : Type) where
  defaultKey : Bool
  vocab : Option (Vocab κ)
  freqmx : Option X
  measmx : Option X
  simmx : Option X
  distmx : Option X
  tcmx : Option X
  weights : Option X
  vectors : Option X
  rankmx : Option X
  typePairs : Option (List (κ × κ))
  typeNodes : Option (Dict κ N)

/-- The constructor, typetoken.py 911-925; `defaultKey`: the settings have the key `wqueries-default-key`. -/
def newTT {X N κ : Type} (defaultKey : Bool) : TT X N κ :=
  ⟨defaultKey, none, none, none, none, none, none, none, none, none, none, none⟩

/-- Method calls with the arguments that matter. `fnames`, `multicore` and `prog_bar` are passed on only. -/
inductive Call (X κ : Type) where
  | getVocab
  | buildFrequencyList
  | buildVocab
  | buildColFreq (row col : Option (Vocab κ))
  | computeAssociation (m : Option X)
  | computeSimilarity (m : Option X) (metric : List Char) (rank : Bool) (axis : Int)
  | computeDistance (m : Option X) (metric : List Char)
  | computeSimrank (m : Option X) (reverse : Bool)
  /-- `none`: the argument is not a list -/
  | selectTypes (types : Option (List κ))
  /-- `queries`: `none` is `None`, `some none` another true value that is not a list -/
  | retrieveTokens (queries : Option (Option (List κ))) (row : Option (Vocab κ))
  | buildTokenWeights (tc tw : Option X)
  | buildTokenVectors (w soc : Option X)
  /-- `isList`: the argument is a list, `n`: the number of its elements -/
  | readQueries (isList : Bool) (n : Nat)
  | fetchTokens (queries : List κ)
  | sampleTokens

/-- What a call returns. -/
inductive Res (X N κ : Type) where
  | none
  | vocab (v : Vocab κ)
  | mtx (m : X)
  | nodes (d : Dict κ N)

variable {X N κ : Type} [LinearOrder κ]

/-- The truth value of a vocabulary or `None`: `/repo/nephosem/core/vocab.py:215`. -/
def truthy : Option (Vocab κ) → Bool
  | none => false
  | some v => decide (Vocab.len v ≠ 0)

/-- `compute_cosine(None, axis)` and the like: `None` has no attribute `matrix`; mxcalc.py 406-413. -/
def cosineArg (lib : Lib X N) (axis : Int) : Option X → Except TErr X
  | some m => lib.cosine m axis
  | none => if axis = 0 ∨ axis = 1 then .error .attribute else .error .value

/-- `None` has no attribute `matrix`: mxcalc.py 358 and 441. -/
def matrixArg (g : X → Except TErr X) : Option X → Except TErr X
  | some m => g m
  | none => .error .attribute

/-- `select_types`, typetoken.py 1047-1063. -/
def selectTypes (s : TT X N κ) : Option (List κ) → Except TErr (Vocab κ)
  | none => .error .value
  | some l => match s.vocab with
    | none => .error .value
    | some v => if Vocab.len v = 0 then .error .value else .ok (subvocab v l)

/-- A list that is true in a condition. -/
def trueArg : Option (Option (List κ)) → Bool
  | none => false
  | some none => true
  | some (some l) => !l.isEmpty

/-- `retrieve_tokens`, typetoken.py 1065-1074: it ends with an exception in every case. -/
def retrieveErr (s : TT X N κ) (queries : Option (Option (List κ))) (row : Option (Vocab κ)) : TErr :=
  if trueArg queries then
    if truthy row then .value
    else match selectTypes s (queries.getD none) with
      | .error e => e
      | .ok _ => .name
  else if truthy row then .name else .value

/-- The loop of `sample_tokens`, typetoken.py 1150-1154. -/
def sampleAll (lib : Lib X N) (d : Dict κ N) : Except TErr (Dict κ N) :=
  d.mapM (fun p => do
    let n ← lib.sample p.2
    return (p.1, n))

/-- The end of `compute_similarity`, typetoken.py 1009-1011. -/
def rankAfter (lib : Lib X N) (s : TT X N κ) (m : X) (rank : Bool) : TT X N κ × Except TErr (Res X N κ) :=
  if rank then
    match lib.simrank m false with
    | .ok r => ({ s with rankmx := some r }, .ok (.mtx m))
    | .error e => (s, .error e)
  else (s, .ok (.mtx m))

/-- One call: the attributes afterwards and the result.  The methods in typetoken.py: `get_vocab` 930-931,
`build_frequency_list` 933-935, `build_vocab` 937-964, `build_col_freq` 966-972, `compute_association` 974-989,
`compute_similarity` 991-1011 (`metric == 'cos' or metric == 'cosine'`: 1005), `compute_distance` 1013-1028, `compute_simrank`
1030-1045, `select_types` 1047-1063, `retrieve_tokens` 1065-1074, `build_token_weights` 1076-1106, `build_token_vectors` 1108-1130,
`read_queries` 1132-1139, `fetch_tokens` 1141-1147, `sample_tokens` 1149-1154. -/
def call (lib : Lib X N) (s : TT X N κ) : Call X κ → TT X N κ × Except TErr (Res X N κ)
  -- 930-931
  | .getVocab => match s.vocab with
    | none => (s, .error .attribute)
    | some v => (s, .ok (.vocab (Vocab.deepcopy v)))
  -- 933-935, 962
  | .buildFrequencyList => (s, .error .name)
  | .buildVocab => (s, .error .name)
  -- 967
  | .buildColFreq _ _ => (s, .error .name)
  -- 988: `nfreq` and `cfreq` are missing (`Verif.Flow.vectorize`)
  | .computeAssociation _ => (s, .error .type)
  -- 1004-1011
  | .computeSimilarity m metric rank axis =>
    if metric = "cos".toList ∨ metric = "cosine".toList then
      match cosineArg lib axis (m.or s.measmx) with
      | .ok r => rankAfter lib { s with simmx := some r } r rank
      | .error e => (s, .error e)
    else (s, .error .notImplemented)
  -- 1026-1028: the distances are stored as similarities
  | .computeDistance m metric =>
    match matrixArg (fun x => lib.distance x metric) (m.or s.measmx) with
    | .ok r => ({ s with simmx := some r }, .ok (.mtx r))
    | .error e => (s, .error e)
  -- 1044-1045
  | .computeSimrank m reverse =>
    match matrixArg (fun x => lib.simrank x reverse) m with
    | .ok r => ({ s with rankmx := some r }, .ok (.mtx r))
    | .error e => (s, .error e)
  | .selectTypes types => (s, (selectTypes s types).map Res.vocab)
  | .retrieveTokens queries row => (s, .error (retrieveErr s queries row))
  -- 1101-1106
  | .buildTokenWeights _ tw => (s, .error (if tw.isNone then .value else .name))
  -- 1123-1130
  | .buildTokenVectors w soc => (s, .error (if (w.or s.weights).isNone ∨ soc.isNone then .value else .name))
  -- 1133-1139
  | .readQueries isList n =>
    if s.defaultKey = false then (s, .error .key)
    else if isList then (s, .ok .none)
    else if n = 0 then ({ s with typePairs := some [] }, .ok .none)
    else (s, .error .name)
  -- 1142-1143
  | .fetchTokens _ => match s.vocab with
    | none => (s, .error .attribute)
    | some _ => (s, .error .name)
  -- 1149-1154
  | .sampleTokens => match s.typeNodes with
    | none => (s, .error .attribute)
    | some d => (s, (sampleAll lib d).map Res.nodes)

/-- A history of calls: exceptions are caught by the caller. -/
def calls (lib : Lib X N) (s : TT X N κ) (cs : List (Call X κ)) : TT X N κ := cs.foldl (fun s c => (call lib s c).1) s

end Verif.Flow
