import Verif.Vocab.Model

/-!
# Model of vocabularies in memory: which vocabularies share a dictionary
-/

namespace Verif.Vocab.Mem
open Verif.Py Verif.Vocab

variable {κ : Type} [LinearOrder κ]

/-- A vocabulary in memory: where its dictionary is, and its mark `FILTERPRESENT`: `/repo/nephosem/core/vocab.py:67-75`. -/
structure Obj where
  dict : Nat
  mark : Bool
  deriving DecidableEq, Repr

/-- The memory of a program: dictionaries (with the note whether they are `defaultdict`s), vocabularies, the names that the program has
for vocabularies and the dictionaries that the program holds itself. -/
structure Memory (κ : Type) where
  dicts : List (Dict κ Int × Bool)
  objs : List Obj
  vars : List Nat
  own : List Nat

/-- The beginning of a program. -/
def Memory.start : Memory κ := ⟨[], [], [], []⟩

/-- What is in memory for a vocabulary. -/
def Memory.load (st : Memory κ) (o : Nat) : Option (Vocab κ) :=
  match st.objs[o]? with
  | none => none
  | some r => (st.dicts[r.dict]?).map (fun d => ⟨d.1, r.mark, d.2⟩)

/-- A further name of a vocabulary. -/
def Memory.same (st : Memory κ) (n : Nat) : Memory κ :=
  match st.vars[n]? with
  | none => st
  | some o => { st with vars := st.vars ++ [o] }

/-- The constructor, which copies the dictionary: `/repo/nephosem/core/vocab.py:67-75, 89-109`. -/
def Memory.construct (st : Memory κ) (d : Dict κ Int × Bool) : Memory κ :=
  { st with
    dicts := st.dicts ++ [d]
    objs := st.objs ++ [⟨st.dicts.length, decide (0 < d.1.keys.length)⟩]
    vars := st.vars ++ [st.objs.length] }

/-- A dictionary for the program. -/
def Memory.give (st : Memory κ) (d : Dict κ Int × Bool) : Memory κ :=
  { st with dicts := st.dicts ++ [d], own := st.own ++ [st.dicts.length] }

/-- What a program does.  Vocabularies and own dictionaries are numbered in the order of their creation. -/
inductive Step (κ : Type) where
  | dict (d : Dict κ Int) (dflt : Bool)
  | none
  | make (k : Nat)
  | getDict (n : Nat)
  | select (n : Nat) (conds : List (Sel κ))
  | freq (n : Nat)
  | subvocab (n : Nat) (items : List κ)
  | copy (n : Nat)
  | setItem (n : Nat) (x : κ) (i : Int)
  | increment (n : Nat) (x : κ) (i : Int)
  | read (n : Nat) (x : κ)
  | setFilter (n : Nat) (b : Bool)
  | changeOwn (k : Nat) (g : Dict κ Int → Dict κ Int)

/-- The vocabulary that a method makes with the constructor from a dictionary of its own. -/
def Memory.result (st : Memory κ) (n : Nat) (f : Vocab κ → Vocab κ) : Memory κ :=
  match (st.vars[n]?).bind st.load with
  | none => st
  | some v => st.construct ((f v).freq, (f v).dflt)

/-- A change of the dictionary of a vocabulary. -/
def Memory.change (st : Memory κ) (n : Nat) (g : Dict κ Int × Bool → Dict κ Int) : Memory κ :=
  match (st.vars[n]?).bind (fun o => st.objs[o]?) with
  | none => st
  | some r => { st with dicts := st.dicts.modify r.dict (fun d => (g d, d.2)) }

/-- One step; steps with vocabularies that do not exist do nothing.  `select` is `v[c1, ..., cn]` (`/repo/nephosem/core/vocab.py:162-168`),
which is `v` itself without any condition; `freq` is `v.freq` (lines 179-184); `getDict` is `v.get_dict()` (lines 241-243), `copy`
is `v.copy()` (lines 370-376), `read` is `v[x]` (lines 147-148), `setFilter` is `v.setFILTER(b)` (lines 248-249), `make` is `Vocab(d)`
with a dictionary of the program and `changeOwn` a change of such a dictionary. -/
def Memory.step (st : Memory κ) (s : Step κ) : Memory κ :=
  match s with
  | .dict d dflt => st.give (d, dflt)
  | .none => st.construct ([], false)
  | .make k => match (st.own[k]?).bind (fun a => st.dicts[a]?) with
    | none => st
    | some d => st.construct d
  | .getDict n => match (st.vars[n]?).bind st.load with
    | none => st
    | some v => st.give (v.freq, v.dflt)
  | .select n [] => st.same n
  | .select n (c :: conds) => st.result n (fun v => selectTuple v (c :: conds))
  | .freq n => st.same n
  | .subvocab n items => st.result n (fun v => Vocab.subvocab v items)
  | .copy n => st.result n deepcopy
  | .setItem n x i => st.change n (fun d => d.1.set x i)
  | .increment n x i => st.change n (fun d => match d.1.get? x with
    | some j => d.1.set x (j + i)
    | none => d.1.set x i)
  | .read n x => st.change n (fun d => match d.1.get? x with
    | some _ => d.1
    | none => if d.2 then d.1.set x 0 else d.1)
  | .setFilter n b => match st.vars[n]? with
    | none => st
    | some o => { st with objs := st.objs.modify o (fun r => { r with mark := b }) }
  | .changeOwn k g => match st.own[k]? with
    | none => st
    | some a => { st with dicts := st.dicts.modify a (fun d => (g d.1, d.2)) }

/-- A program. -/
def Memory.run (st : Memory κ) (p : List (Step κ)) : Memory κ := p.foldl Memory.step st

/-- What the program sees of its vocabularies. -/
def Memory.seen (st : Memory κ) : List (Option (Vocab κ)) := st.vars.map st.load

/-- What the program sees of its own dictionaries. -/
def Memory.seenOwn (st : Memory κ) : List (Option (Dict κ Int × Bool)) := st.own.map (fun a => st.dicts[a]?)

end Verif.Vocab.Mem
