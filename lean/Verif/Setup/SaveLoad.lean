import Verif.Py.Dict

/-!
# Saving and loading objects (`nephosem/utils.py` 472-777, class `SaveLoad`)

Objects are trees: an object is the dictionary of its attributes, in order; an attribute is an array, a sparse
matrix (its three arrays), another `SaveLoad` object, or anything else (`plain`).  Left out: one object being
reachable in two ways, attributes found on the class only, `mmap`, and the compressed format (which writes one
file where the plain format writes three).  Contents are numbers.  File names are kept as the list of their
parts: `fname` is `[]`, `fname.a.npy` is `["a"]`, `fname.a.b.npy` is `["a", "b"]`; attribute names have no dots, so
that these lists and the joined names correspond.

Writing may fail: `ok n` tells whether the `n`-th write succeeds.
-/

namespace Verif.Setup.Save

open Verif.Py

/-- Attribute values; `names` is a list of strings, as used by the bookkeeping attributes. -/
inductive Val where
  | array (size content : Nat)
  | sparse (nnz data indptr indices : Nat)
  | plain (content : Nat)
  | names (l : List String)
  | none
  | obj (attrs : List (String × Val))

abbrev Attrs := List (String × Val)

/-- File contents: a pickled value, an array, a sparse matrix without its arrays. -/
inductive Content where
  | pickled (v : Val)
  | npy (content : Nat)
  | npyArray (size content : Nat)
  | shell (nnz : Nat)

/-- The disk and the number of writes so far. -/
structure St where
  files : Dict (List String) Content
  count : Nat

/-- One write; `none`: it raises. -/
def write (ok : Nat → Bool) (key : List String) (c : Content) (st : St) : St × Bool :=
  if ok st.count then (⟨st.files.set key c, st.count + 1⟩, true) else (⟨st.files, st.count + 1⟩, false)

/-- The options of `save`. -/
structure Opts where
  limit : Nat
  ignore : List String

/-- The attributes stored separately when the caller names none, utils.py 673-679. -/
def autoSep (limit : Nat) (attrs : Attrs) : List String :=
  attrs.filterMap (fun p => match p.2 with
    | .array size _ => if limit ≤ size then some p.1 else Option.none
    | .sparse nnz _ _ _ => if limit ≤ nnz then some p.1 else Option.none
    | _ => Option.none)

/-- The attributes put aside, utils.py 682-685: `asides[attrib] = getattr(...)` for each name that is an
attribute.  The attributes left are those without such a name. -/
def setAside (nms : List String) (attrs : Attrs) : Dict String Val :=
  nms.foldl (fun asides k => match Dict.get? attrs k with
    | some v => Dict.set asides k v
    | Option.none => asides) []

/-- The lists built while writing: array names, sparse names, ignored names. -/
abbrev Lists := List String × List String × List String

/-- Writing one attribute that was put aside, utils.py 694-731; `none` if a write raises. -/
def writeAside (ok : Nat → Bool) (o : Opts) (path : List String) (acc : St × Option Lists) (p : String × Val) :
    St × Option Lists :=
  match acc.2 with
  | Option.none => acc
  | some (ns, ss, is) =>
    match p.2, decide (p.1 ∈ o.ignore) with
    | .array size c, false =>
      match write ok (path ++ [p.1]) (.npyArray size c) acc.1 with
      | (st, true) => (st, some (ns ++ [p.1], ss, is))
      | (st, false) => (st, Option.none)
    | .sparse nnz d i j, false =>
      match write ok (path ++ [p.1, "data"]) (.npy d) acc.1 with
      | (st, false) => (st, Option.none)
      | (st, true) => match write ok (path ++ [p.1, "indptr"]) (.npy i) st with
        | (st, false) => (st, Option.none)
        | (st, true) => match write ok (path ++ [p.1, "indices"]) (.npy j) st with
          | (st, false) => (st, Option.none)
          | (st, true) => match write ok (path ++ [p.1]) (.shell nnz) st with
            | (st, true) => (st, some (ns, ss ++ [p.1], is))
            | (st, false) => (st, Option.none)
    | _, _ => (acc.1, some (ns, ss, is ++ [p.1]))

/-- Which attributes have to be restored in which object: (path of the object, attributes). -/
abbrev Restores := List (List String × Dict String Val)

/-- The outcome of `_save_specials`: the disk, the object as it is now, and the restores (`none`: it raised). -/
structure Out (α : Type) where
  st : St
  now : α
  res : Option Restores

/-- The bookkeeping attributes, utils.py 733-736. -/
def addBook (attrs : Attrs) (l : Lists) (recs : List String) : Attrs :=
  Dict.set (Dict.set (Dict.set (Dict.set attrs "__numpys" (.names l.1)) "__scipys" (.names l.2.1))
    "__ignoreds" (.names l.2.2)) "__recursive_saveloads" (.names recs)

/-- The attributes that are objects, `recursive_saveloads`, utils.py 689-690. -/
def objNames (gone : List String) (attrs : Attrs) : List String :=
  attrs.filterMap (fun p => if p.1 ∈ gone then Option.none else
    match p.2 with | .obj _ => some p.1 | _ => Option.none)

mutual
/-- `_save_specials`, utils.py 641-742, for the object with file path `path`. The exception handler (737-741)
covers the writing of the object's own attributes, not the loop over the inner objects (688-692). -/
def saveVal (ok : Nat → Bool) (o : Opts) (path : List String) (sep : Option (List String)) : Val → St → Out Val
  | .obj attrs, st =>
    let nms := sep.getD (autoSep o.limit attrs) ++ o.ignore
    let asides := setAside nms attrs
    let r := saveAttrs ok o path nms attrs st
    match r.res with
    | Option.none => ⟨r.st, .obj r.now, Option.none⟩
    | some restores =>
      match asides.foldl (writeAside ok o path) (r.st, some ([], [], [])) with
      | (st, Option.none) => ⟨st, .obj (Dict.update r.now asides), Option.none⟩
      | (st, some lists) => ⟨st, .obj (addBook r.now lists (objNames nms attrs)), some (restores ++ [([], asides)])⟩
  | v, st => ⟨st, v, some []⟩
/-- The loop over the attributes that are left, utils.py 687-692; `gone` are the names put aside. -/
def saveAttrs (ok : Nat → Bool) (o : Opts) (path gone : List String) : Attrs → St → Out Attrs
  | [], st => ⟨st, [], some []⟩
  | (k, v) :: rest, st =>
    if k ∈ gone then saveAttrs ok o path gone rest st
    else
      let r := saveVal ok o (path ++ [k]) Option.none v st
      match r.res with
      | Option.none => ⟨r.st, (k, r.now) :: rest.filter (fun p => decide (p.1 ∉ gone)), Option.none⟩
      | some rs =>
        let r' := saveAttrs ok o path gone rest r.st
        ⟨r'.st, (k, r.now) :: r'.now,
          r'.res.map (fun rs' => rs.map (fun p => (k :: p.1, p.2)) ++ rs')⟩
end

/-- Changing the object at a path. -/
def updAt (f : Attrs → Attrs) : List String → Val → Val
  | [], .obj attrs => .obj (f attrs)
  | k :: path, .obj attrs => .obj (attrs.map (fun p => if p.1 = k then (p.1, updAt f path p.2) else p))
  | _, v => v

/-- Restoring, utils.py 634-638: `setattr` of every attribute put aside. -/
def restoreAll (rs : Restores) (v : Val) : Val :=
  rs.foldl (fun v p => updAt (fun attrs => Dict.update attrs p.2) p.1 v) v

/-- `_smart_save` (and `save` with a file name), utils.py 600-639: the disk, the object afterwards, and whether
no exception left the method. -/
def smartSave (ok : Nat → Bool) (o : Opts) (sep : Option (List String)) (v : Val) (st : St) : St × Val × Bool :=
  let r := saveVal ok o [] sep v st
  match r.res with
  | Option.none => (r.st, r.now, false)
  | some rs =>
    let w := write ok [] (.pickled r.now) r.st
    (w.1, restoreAll rs r.now, w.2)

/-! ## Loading -/

/-- A bookkeeping attribute, `getattr(self, name, [])`. -/
def book (attrs : Attrs) (name : String) : List String :=
  match Dict.get? attrs name with
  | some (.names l) => l
  | _ => []

/-- Loading one array, utils.py 548-558. -/
def loadNumpy (F : Dict (List String) Content) (path : List String) (attrs : Attrs) (k : String) :
    Option Attrs :=
  match F.get? (path ++ [k]) with
  | some (.npyArray size c) => some (Dict.set attrs k (.array size c))
  | _ => Option.none

/-- Loading one sparse matrix, utils.py 560-577. -/
def loadScipy (F : Dict (List String) Content) (path : List String) (attrs : Attrs) (k : String) :
    Option Attrs :=
  match F.get? (path ++ [k]), F.get? (path ++ [k, "data"]), F.get? (path ++ [k, "indptr"]),
    F.get? (path ++ [k, "indices"]) with
  | some (.shell nnz), some (.npy d), some (.npy i), some (.npy j) =>
    some (Dict.set attrs k (.sparse nnz d i j))
  | _, _, _, _ => Option.none

mutual
/-- `_load_specials`, utils.py 521-581; `none` if a file is missing. -/
def loadVal (F : Dict (List String) Content) (path : List String) : Val → Option Val
  | .obj attrs => do
    let a ← loadAttrs F path (book attrs "__recursive_saveloads") attrs
    let a ← (book a "__numpys").foldlM (loadNumpy F path) a
    let a ← (book a "__scipys").foldlM (loadScipy F path) a
    return .obj ((book a "__ignoreds").foldl (fun a k => Dict.set a k .none) a)
  | v => some v
/-- The recursive part, utils.py 543-546. -/
def loadAttrs (F : Dict (List String) Content) (path recs : List String) : Attrs → Option Attrs
  | [] => some []
  | (k, v) :: rest => do
    let v' ← (if k ∈ recs then loadVal F (path ++ [k]) v else some v)
    let rest' ← loadAttrs F path recs rest
    return (k, v') :: rest'
end

/-- `load(fname)`, utils.py 482-519. -/
def load (F : Dict (List String) Content) : Option Val :=
  match F.get? [] with
  | some (.pickled v) => loadVal F [] v
  | _ => Option.none

end Verif.Setup.Save
