import Verif.Py.Dict

/-!
# Settings (`nephosem/conf.py`)

`ConfigParser` is not modelled: a parsed file is the list of its sections, each with its options and, for every
option, the outcome of `config.get(sect, opt)` (which may raise, e.g. for a bad `%` interpolation).  `int()` on
strings is a parameter.
-/

namespace Verif.Setup

open Verif.Py

/-- Exceptions. -/
inductive Err where
  | value | key | type | io | attribute | interpolation
deriving DecidableEq, Repr

/-- A setting: text, an integer (section `Span`), or `None`. -/
inductive Val where
  | str (s : String)
  | int (z : Int)
  | none
deriving DecidableEq, Repr

/-- A parsed configuration file. -/
abbrev File := List (String × List (String × Except Err String))

/-- Settings. -/
abbrev Settings := Dict String Val

/-- `read_params`, conf.py 67-75: the value stored for an option. -/
def readParams : Except Err String → Except Err Val
  | .ok s => .ok (.str s)
  | .error .value => .ok .none
  | .error e => .error e

/-- `int(v)`. -/
def intOf (toInt : String → Option Int) : Val → Except Err Val
  | .str s => match toInt s with
    | some z => .ok (.int z)
    | Option.none => .error .value
  | .int z => .ok (.int z)
  | .none => .error .type

/-- One option of a section, conf.py 90-93. -/
def readOption (toInt : String → Option Int) (sect : String) (sett : Settings)
    (o : String × Except Err String) : Except Err Settings := do
  let v ← readParams o.2
  let sett := sett.set o.1 v
  if sect = "Span" then return sett.set o.1 (← intOf toInt v)
  else return sett

/-- One section, conf.py 88-93. -/
def readSection (toInt : String → Option Int) (sett : Settings)
    (s : String × List (String × Except Err String)) : Except Err Settings :=
  s.2.foldlM (readOption toInt s.1) sett

/-- `load_config`, conf.py 77-95; `none` is a file that cannot be opened, which `config.read` ignores. -/
def loadConfig (toInt : String → Option Int) (file : Option File) : Except Err Settings :=
  (file.getD []).foldlM (readSection toInt) []

/-- The dictionaries in memory: `heap` maps addresses to dictionaries, `loader` is the address of
`self._settings`, `given` the addresses handed out to the caller. -/
structure World where
  heap : List Settings
  loader : Nat
  given : List Nat
deriving DecidableEq

/-- `ConfigLoader(filename)`, conf.py 50-61. -/
def newLoader (toInt : String → Option Int) (file : Option File) : Except Err World := do
  return ⟨[← loadConfig toInt file], 0, []⟩

/-- What the calling program can do. -/
inductive Op where
  /-- `conf.settings` -/
  | settings
  /-- `conf.update_config(file)` -/
  | update (file : Option File)
  /-- `d[k] = v` on a dictionary it got -/
  | assign (addr : Nat) (k : String) (v : Val)
  /-- `d.clear()` on a dictionary it got -/
  | clear (addr : Nat)

/-- A new dictionary, handed to the caller. -/
def World.give (w : World) (d : Settings) : World := ⟨w.heap ++ [d], w.loader, w.given ++ [w.heap.length]⟩

/-- `self.settings`: a deep copy of the loader's dictionary, conf.py 63-65. -/
def World.copy (w : World) : Settings := (w.heap[w.loader]?).getD []

/-- One operation: the `settings` property (conf.py 63-65), `update_config` (conf.py 97-104), and changes by the caller, which
can only name dictionaries it was given. -/
def step (toInt : String → Option Int) (w : World) : Op → Except Err World
  | .settings => .ok (w.give w.copy)
  | .update file => do
    let sett ← loadConfig toInt file
    return w.give (Dict.update w.copy sett)
  | .assign addr k v =>
    if addr ∈ w.given then .ok { w with heap := w.heap.modify addr (fun d => d.set k v) } else .error .key
  | .clear addr =>
    if addr ∈ w.given then .ok { w with heap := w.heap.set addr [] } else .error .key

/-- A history; an operation that raises changes nothing. -/
def run (toInt : String → Option Int) (w : World) (ops : List Op) : World :=
  ops.foldl (fun w o => match step toInt w o with | .ok w' => w' | .error _ => w) w

end Verif.Setup
