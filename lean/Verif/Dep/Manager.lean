import Verif.Items.Text
import Verif.Dep.Match

/-!
# The older manager of dependency features: `/repo/nephosem/deprel/dephandler.py`, path templates: `/repo/nephosem/deprel/basic.py:159-184`

Left out: the temporary directory that is made and emptied by the constructor, progress bars, log messages other than the
exceptions.  The method `process` is in `Verif.Dep.Threads`.
-/

namespace Verif.Dep.Manager
open Verif.Py Verif.Vocab.Plain Verif.Items

/-- What Python raises here. -/
inductive PyErr where
  | nameError | attributeError | indexError | valueError
  deriving DecidableEq, Repr

/-! ### Path templates -/

/-- `PathTemplate`: `basic.py:159-165`. -/
structure Template where
  nodes : List Str
  edges : List Str
  deriving DecidableEq, Repr

/-- `eles[i] for i in range(0, len(eles), 2)`: `dephandler.py:64-65`. -/
def evens : List Str → List Str
  | [] => []
  | [a] => [a]
  | a :: _ :: l => a :: evens l

/-- `eles[i] for i in range(1, len(eles) - 1, 2)`: `dephandler.py:66-67`. -/
def inner : List Str → List Str
  | _ :: b :: c :: l => b :: inner (c :: l)
  | _ => []

/-- One line of a template file: `dephandler.py:61-68`. -/
def readLine (line : Str) : Template :=
  let eles := split ':' (strip line)
  ⟨evens eles, inner eles⟩

/-- The state of a manager: `dephandler.py:44-47`. -/
structure State (φ : Type) where
  templates : List Template
  features : List φ

/-- `read_template`: `dephandler.py:53-72`.  `features` is the argument of that name, `text` the lines of the file if a file name
is given.  Features win over the file and are kept as features; an empty list or no list is as good as none. -/
def readTemplate {φ : Type} (st : State φ) (text : Option (List Str)) (features : List φ) :
    Except PyErr (State φ × (List Template ⊕ List φ)) :=
  if features ≠ [] then .ok ({ st with features := features }, .inr features)
  else match text with
    | some ls => .ok ({ st with templates := ls.map readLine }, .inl (ls.map readLine))
    | none => .error .valueError

/-- The loop of `PathTemplate.__str__`: `basic.py:180-183`, from position `i` on. -/
def pieces (t : Template) : Nat → Nat → Except PyErr (List Str)
  | _, 0 => .ok []
  | i, n + 1 =>
    match t.edges[i]?, t.nodes[i + 1]? with
    | some e, some v => do
      let rest ← pieces t (i + 1) n
      .ok (e :: v :: rest)
    | _, _ => .error .indexError

/-- `PathTemplate.__str__`: `basic.py:179-184`. -/
def show_ (t : Template) : Except PyErr Str :=
  match t.nodes[0]? with
  | none => .error .indexError
  | some v => do
    let rest ← pieces t 0 t.edges.length
    .ok (join ':' (v :: rest))

/-! ### Searching the corpus -/

/-- The call `update_dep_rel(fname, features=..., settings=...)`, `dephandler.py:138, 200, 269`: the module neither defines nor
imports this name. -/
def updateDepRel {φ : Type} (_fname : Str) (_features : List φ) : Except PyErr (List φ) := .error .nameError

/-- `do_job_single`: `dephandler.py:186-202`; returns the features and what was logged. -/
def doJobSingle {φ : Type} : List Str → List φ → List φ × List (Str × PyErr)
  | [], fs => (fs, [])
  | f :: fnames, fs =>
    match updateDepRel f fs with
    | .ok fs' => doJobSingle fnames fs'
    | .error e =>
      let r := doJobSingle fnames fs
      (r.1, (f, e) :: r.2)

/-- `self.do_job_multicore(...)`, `dephandler.py:179`: no class of the handler has this method. -/
def doJobMulticore {φ : Type} (_fnames : List Str) (_features : List φ) : Except PyErr (List φ) := .error .attributeError

/-- What `build_dep_rel` leaves behind: the features with their matches, what it returns (None is `none`), and the exceptions
that were logged and not raised. -/
structure Outcome (φ : Type) where
  features : List φ
  result : Option (List φ)
  logged : List PyErr

/-- `build_dep_rel` from the list of file names on: `dephandler.py:165-184`. -/
def buildDepRel {φ : Type} (fnames : List Str) (features : List φ) (multicore : Bool := true) : Outcome φ :=
  if multicore then
    match doJobMulticore fnames features with
    | .ok r => ⟨features, some r, []⟩
    | .error e => ⟨features, none, [e]⟩
  else
    let r := doJobSingle fnames features
    ⟨r.1, none, r.2.map Prod.snd⟩

/-- `update_dep_rel_caller`, `dephandler.py:262-272`, from the loaded features on: what a sub-process would write. -/
def caller {φ : Type} (fnames : List Str) (features : List φ) : List φ := (doJobSingle fnames features).1

/-! ### Collecting the results of sub-processes -/

/-- The lists of matches of a feature: `basic.py:526-527`. -/
structure Feat (α β : Type) where
  nodes : List α
  edges : List β
  deriving DecidableEq, Repr

/-- `'super' in fname`. -/
def hasSuper (s : Str) : Bool := s.tails.any (fun t => ['s', 'u', 'p', 'e', 'r'].isPrefixOf t)

/-- The first loop of `merge_results`, `dephandler.py:208-218`: what is loaded and which files are left.  A directory is its
list of files with what `unpickle` gives for them. -/
def loadAll {α β : Type} (dir : List (Str × List (Feat α β))) : List (List (Feat α β)) × List (Str × List (Feat α β)) :=
  ((dir.filter (fun p => !hasSuper p.1)).map Prod.snd, dir.filter (fun p => hasSuper p.1))

/-- The loop over the features of one file, `dephandler.py:221-223`, from number `i` on. -/
def extendFrom {α β : Type} : Nat → List (Feat α β) → List (Feat α β) → List (Feat α β) × Option PyErr
  | _, [], fs => (fs, none)
  | i, x :: xs, fs =>
    match fs[i]? with
    | none => (fs, some .indexError)
    | some f => extendFrom (i + 1) xs (fs.set i ⟨f.nodes ++ x.nodes, f.edges ++ x.edges⟩)

/-- The second loop of `merge_results`: `dephandler.py:220-223`. -/
def extendAll {α β : Type} : List (List (Feat α β)) → List (Feat α β) → List (Feat α β) × Option PyErr
  | [], fs => (fs, none)
  | x :: xs, fs =>
    match extendFrom 0 x fs with
    | (fs', none) => extendAll xs fs'
    | (fs', some e) => (fs', some e)

/-- `merge_results`: `dephandler.py:204-223`; the features of the manager, the files left, and an exception. -/
def mergeResults {α β : Type} (dir : List (Str × List (Feat α β))) (fs : List (Feat α β)) :
    List (Feat α β) × List (Str × List (Feat α β)) × Option PyErr :=
  let l := loadAll dir
  let r := extendAll l.1 fs
  (r.1, l.2, r.2)

end Verif.Dep.Manager
