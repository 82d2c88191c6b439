import Verif.Items.Formatter

/-!
# Item, type and token nodes (`nephosem/core/terms.py` 43-411)

The attributes of a node that hold text (or `None`) are a dictionary, as `__dict__` is; the tokens of a type node
and the collocates of a token node are separate fields, so that a format with a component `tokens`, `lcollocs` or
`rcollocs` gives another exception than in Python.  Further keyword arguments (`**kwargs`) are left out.
Copies (`deepcopy`) are the same value here.
-/

namespace Verif.Items

open Verif.Py
open Verif.Vocab.Plain (Str)

/-- The text attributes of a node; the value `none` is Python's `None`. -/
abbrev Attrs := Dict Str (Option Str)

/-- `self.__dict__[c]`. -/
def component (a : Attrs) (c : Str) : Except Err (Option Str) :=
  match Dict.get? a c with
  | some v => .ok v
  | none => .error .key

/-- `connector.join([self.__dict__[c] for c in fmt.split(connector)])`, terms.py 102, 117, 199-200 and 380-381. -/
def render (a : Attrs) (fmt : Str) : Except Err Str := do
  let vs ← (split '/' fmt).mapM (component a)
  let ss ← vs.mapM asStr
  return join '/' ss

/-- Truth of a string or `None`. -/
def truthy : Option Str → Bool
  | some (_ :: _) => true
  | _ => false

/-- `ItemNode.__init__` without match and formatter, terms.py 81-89: the words are the entries of the dictionary. -/
def itemOfWords (words : Attrs) (typeFmt collocFmt : Option Str) : Attrs :=
  Dict.set (Dict.set words "type_fmt".toList typeFmt) "colloc_fmt".toList collocFmt

/-- The entries `word`, `lemma` and `pos`. -/
def wordsOf (w l p : Option Str) : Attrs := [("word".toList, w), ("lemma".toList, l), ("pos".toList, p)]

/-- `ItemNode(match=…, formatter=…)`, terms.py 72-89. -/
def itemOfMatch (m : Match) (f : Formatter) : Except Err Attrs := do
  let w ← get f m "word".toList [] []
  let l ← get f m "lemma".toList [] []
  let p ← get f m "pos".toList [] []
  let tf ← getKey f.settings "type"
  let cf ← getKey f.settings "colloc"
  return itemOfWords (wordsOf w l p) (some tf) (some cf)

/-- `to_type(type_fmt)`, terms.py 92-105. -/
def toType (a : Attrs) (fmt : Option Str) : Except Err Str := do
  let fmt := if truthy fmt then fmt else (Dict.get? a "type_fmt".toList).join
  match fmt with
  | some (c :: cs) => render a (c :: cs)
  | _ => .error .value

/-- `to_colloc(colloc_fmt)`, terms.py 107-120. -/
def toColloc (a : Attrs) (fmt : Option Str) : Except Err Str := do
  let fmt := if truthy fmt then fmt else (Dict.get? a "colloc_fmt".toList).join
  match fmt with
  | some (c :: cs) => render a (c :: cs)
  | _ => .error .value

/-- `str(item)`, terms.py 122-126. -/
def itemStr (a : Attrs) : Except Err Str := do
  let vs ← ["word".toList, "pos".toList, "lemma".toList].mapM (component a)
  let ss ← vs.mapM asStr
  return join '\t' ss

/-- The loop over the components of a string and its format, terms.py 177-185 and 343-355. -/
def assign (names : List Str) : List (Str × Str) → Attrs → Except Err Attrs
  | [], st => .ok st
  | (ele, fmt) :: rest, st => if fmt ∈ names then assign names rest (Dict.set st fmt (some ele)) else .error .value

/-- A string taken apart by its format, terms.py 173-185 and 339-355. -/
def takeApart (names : List Str) (str fmt : Str) (st : Attrs) : Except Err Attrs :=
  if (split '/' str).length ≠ (split '/' fmt).length then .error .value
  else assign names ((split '/' str).zip (split '/' fmt)) st

/-- The components of a type format. -/
def typeNames : List Str := ["word".toList, "lemma".toList, "pos".toList]

/-- The components of a token format. -/
def tokenNames : List Str := typeNames ++ ["fid".toList, "lid".toList]

/-- A token node. -/
structure TokenN where
  attrs : Attrs
  lcollocs : Option (List Attrs)
  rcollocs : Option (List Attrs)
deriving DecidableEq

/-- A type node. -/
structure TypeN where
  attrs : Attrs
  tokens : List TokenN
deriving DecidableEq

/-- `TypeNode.__init__`, terms.py 168-195. -/
def typeNew (mf : Option (Match × Formatter)) (typeFmt typeStr w l p : Option Str) (tokens : List TokenN) :
    Except Err TypeN :=
  match mf with
  | some (m, f) => do
    let a ← itemOfMatch m f
    return ⟨Dict.set a "format".toList (some f.typeFormat), tokens⟩
  | none =>
    match typeFmt with
    | some (c :: cs) =>
      match typeStr with
      | some (d :: ds) => do
        let st ← takeApart typeNames (d :: ds) (c :: cs) (wordsOf w l p)
        return ⟨Dict.set (itemOfWords st none none) "format".toList (some (c :: cs)), tokens⟩
      | _ =>
        if truthy w || truthy l || truthy p then
          .ok ⟨Dict.set (itemOfWords (wordsOf w l p) none none) "format".toList (some (c :: cs)), tokens⟩
        else .ok ⟨[("format".toList, some (c :: cs))], tokens⟩
    | _ => .error .value

/-- `self.format.split(…)` and the rest of the property `type`, terms.py 197-200. -/
def TypeN.type (t : TypeN) : Except Err Str :=
  match Dict.get? t.attrs "format".toList with
  | some (some fmt) => render t.attrs fmt
  | _ => .error .attribute

/-- The last attributes of a token node, terms.py 363-365. -/
def finish (a : Attrs) (fid lid : Option Str) (fmt : Str) : Attrs :=
  Dict.set (Dict.set (Dict.set a "fid".toList fid) "lid".toList lid) "format".toList (some fmt)

/-- `TokenNode.__init__`, terms.py 334-368. -/
def tokenNew (tokenStr tokenFmt : Option Str) (mf : Option (Match × Formatter)) (fid lid : Str) (w p l : Option Str)
    (lcollocs rcollocs : Option (List Attrs)) : Except Err TokenN :=
  match mf with
  | some (m, f) => do
    let a ← itemOfMatch m f
    return ⟨finish a (some fid) (some lid) f.tokenFormat, lcollocs, rcollocs⟩
  | none =>
    match tokenFmt with
    | some (c :: cs) =>
      match tokenStr with
      | some (d :: ds) => do
        let st ← takeApart tokenNames (d :: ds) (c :: cs)
          (wordsOf w l p ++ [("fid".toList, some fid), ("lid".toList, some lid)])
        return ⟨finish (itemOfWords (st.filter (fun e => e.1 ∈ typeNames)) none none)
          (Dict.get? st "fid".toList).join (Dict.get? st "lid".toList).join (c :: cs), lcollocs, rcollocs⟩
      | _ =>
        if truthy w || truthy l || truthy p then
          .ok ⟨finish (itemOfWords (wordsOf w l p) none none) (some fid) (some lid) (c :: cs), lcollocs, rcollocs⟩
        else .ok ⟨finish [] (some fid) (some lid) (c :: cs), lcollocs, rcollocs⟩
    | _ => .error .value

/-- The property `token`, terms.py 378-381. -/
def TokenN.token (t : TokenN) : Except Err Str :=
  match Dict.get? t.attrs "format".toList with
  | some (some fmt) => render t.attrs fmt
  | _ => .error .attribute

/-- `append_token`, terms.py 211-212. -/
def TypeN.append (t : TypeN) (tok : TokenN) : TypeN := { t with tokens := t.tokens ++ [tok] }

/-- The tokens that `sample` chooses, terms.py 255-259.  What `random.sample(range(freq), n)` returns is a
parameter; it raises if `n` exceeds the number of tokens.  Negative `n` is left out. -/
def TypeN.chosen (pick : List Nat) (n : Nat) (random : Bool) (t : TypeN) : Except Err (List TokenN) :=
  if random then
    if t.tokens.length < n then .error .value
    else .ok ((t.tokens.zipIdx.filter (fun p => p.2 ∈ pick)).map (·.1))
  else .ok (t.tokens.take n)

/-- `sample(n, method)`, terms.py 241-262. -/
def TypeN.sample (pick : List Nat) (n : Nat) (random : Bool) (t : TypeN) : Except Err TypeN := do
  let toks ← t.chosen pick n random
  let ty ← t.type
  let fmt ← attr (Dict.get? t.attrs "type_fmt".toList)
  typeNew none fmt (some ty) none none none toks

/-- The loop of `merge`, terms.py 277-281. -/
def mergeLoop (ty : Str) (fmt : Option (Option Str)) : List TypeN → Except Err (List TokenN)
  | [] => .ok []
  | t :: ts => do
    let s ← t.type
    if s ≠ ty ∨ fmt ≠ Dict.get? t.attrs "format".toList then .error .value
    else
      let r ← mergeLoop ty fmt ts
      return t.tokens ++ r

/-- `TypeNode.merge(tns)`, terms.py 264-284; `None` for the empty list. -/
def merge : List TypeN → Except Err (Option TypeN)
  | [] => .ok none
  | t :: ts => do
    let ty ← t.type
    let toks ← mergeLoop ty (Dict.get? t.attrs "format".toList) (t :: ts)
    let n ← typeNew none (Dict.get? t.attrs "format".toList).join (some ty) none none none toks
    return some n

/-! ## Saving and loading -/

/-- The JSON form of a token, terms.py 383-394. -/
structure TokenJson where
  word : Option Str
  pos : Option Str
  lem : Option Str
  fid : Option Str
  lid : Option Str
  left : List Str
  right : List Str
deriving DecidableEq

/-- The JSON form of a type node, terms.py 225-228. -/
structure TypeJson where
  lem : Option Str
  pos : Option Str
  tokens : List TokenJson
deriving DecidableEq

/-- `token.json_data`, terms.py 383-394. -/
def TokenN.json (t : TokenN) : Except Err TokenJson := do
  let w ← component t.attrs "word".toList
  let p ← component t.attrs "pos".toList
  let l ← component t.attrs "lemma".toList
  let f ← component t.attrs "fid".toList
  let i ← component t.attrs "lid".toList
  match t.lcollocs, t.rcollocs with
  | some lc, some rc => do
    let ls ← lc.mapM itemStr
    let rs ← rc.mapM itemStr
    return ⟨w, p, l, f, i, ls, rs⟩
  | _, _ => .error .type

/-- `save(filename)`, terms.py 222-232: what the file gets.  (A missing attribute is an `AttributeError` in
Python, a `KeyError` here.) -/
def TypeN.save (t : TypeN) : Except Err TypeJson := do
  let l ← component t.attrs "lemma".toList
  let p ← component t.attrs "pos".toList
  let toks ← t.tokens.mapM TokenN.json
  return ⟨l, p, toks⟩

/-- `gen_token_from_json_data`, terms.py 396-405.  The positional arguments are, in the order of the constructor:
the token string, the token format, the match, the formatter, and the file; if match and formatter are true, the
attribute `token_format` is looked up in a string. -/
def tokenLoad (j : TokenJson) : Except Err TokenN :=
  if truthy j.lem && truthy j.fid then .error .attribute
  else tokenNew j.word j.pos none (j.lid.getD []) "-1".toList none none none
    (some (j.left.map (fun _ => itemOfWords (wordsOf none none none) none none)))
    (some (j.right.map (fun _ => itemOfWords (wordsOf none none none) none none)))

/-- `TypeNode.load(filename)`, terms.py 234-239.  The positional arguments are the match and the formatter. -/
def typeLoad (j : TypeJson) : Except Err TypeN := do
  let toks ← j.tokens.mapM tokenLoad
  if truthy j.lem && truthy j.pos then .error .attribute
  else typeNew none none none none none none toks

/-! ## File identifiers -/

/-- The text before the last dot, if there is a dot. -/
def cutLast (s : Str) : Str :=
  if (split '.' s).length = 1 then s else join '.' (split '.' s).dropLast

/-- `os.path.splitext(path)[0]`: the last dot of the last part of the path starts the extension, unless only dots
precede it. -/
def splitext (path : Str) : Str :=
  let parts := split '/' path
  let base := parts.getLastD []
  join '/' (parts.dropLast ++ [base.takeWhile (· == '.') ++ cutLast (base.dropWhile (· == '.'))])

/-- The token of a line of a file, handler.py 321 and typetoken.py 614-615 with terms.py 680-683: `path` is
relative to the corpus directory. -/
def tokenOf (f : Formatter) (m : Match) (path : Str) (lid : Nat) : Except Err Str :=
  getToken f m (splitext path) (Vocab.Plain.natStr lid)

end Verif.Items
