import Verif.Items.Text
import Verif.Py.Dict

/-!
# The corpus formatter (`nephosem/core/terms.py` 571-687, class `CorpusFormatter`)

Strings are lists of characters.  Regular expressions are not modelled: a compiled expression is its pattern, and
a parameter says what a pattern makes of a line — `none`, or the groups of the match, group 0 (the whole match)
first; a group that took no part in the match is `none`.  Compiling never fails here.
-/

namespace Verif.Items

open Verif.Py
open Verif.Vocab.Plain (Str)

/-- Exceptions. -/
inductive Err where
  | key | value | type | index | attribute | name | notImplemented
deriving DecidableEq, Repr

/-- A settings dictionary (text settings only). -/
abbrev Settings := Dict String Str

/-- The groups of a match object. -/
abbrev Match := List (Option Str)

/-- A regular-expression engine: pattern, line ↦ match. -/
abbrev Regex := Str → Str → Option Match

/-- What the constructor of `CorpusFormatter` sets; `none` is an attribute that is not set. -/
structure Formatter where
  lineMachine : Option Str
  typeMachine : Option Str
  collocMachine : Option Str
  tokenMachine : Option Str
  single : Option Str
  left : Option Str
  right : Option Str
  colids : Dict Str Nat
  typeFormat : Str
  typeIds : List Nat
  tokenFormat : Str
  tokenIds : List Nat
  collocFormat : Str
  collocIds : List Nat
  settings : Settings

/-- `settings[key]`. -/
def getKey (s : Settings) (k : String) : Except Err Str :=
  match s.get? k with
  | some v => .ok v
  | none => .error .key

/-- The line machines, terms.py 576-585: only the first one found is set. -/
def lineMachines (s : Settings) : Except Err (Option Str × Option Str × Option Str × Option Str) :=
  match s.get? "line-machine", s.get? "type-line-machine", s.get? "colloc-line-machine", s.get? "token-line-machine" with
  | some m, _, _, _ => .ok (some m, none, none, none)
  | none, some m, _, _ => .ok (none, some m, none, none)
  | none, none, some m, _ => .ok (none, none, some m, none)
  | none, none, none, some m => .ok (none, none, none, some m)
  | none, none, none, none => .error .value

/-- The boundary machines (single, left, right), terms.py 587-606.  The two names in the first branch are
swapped in the source. -/
def boundaryMachines (s : Settings) : Except Err (Option Str × Option Str × Option Str) := do
  let mech ← getKey s "boundary-detection-mechanism"
  if mech = "single".toList then
    if s.contains "single-boundary-machine" then
      return (some (← getKey s "separator-line-machine"), none, none)
    else if s.contains "separator-line-machine" then
      return (some (← getKey s "single-boundary-machine"), none, none)
    else .error .key
  else if mech = "left-right".toList then
    let l ← getKey s "left-boundary-machine"
    let r ← getKey s "right-boundary-machine"
    return (none, some l, some r)
  else .error .value

/-- The column names, terms.py 608-614. -/
def columns (s : Settings) : Except Err (List Str) :=
  match s.get? "global-columns", s.get? "line-format" with
  | some c, _ => .ok (split ',' c)
  | none, some c => .ok (split ',' c)
  | none, none => .error .value

/-- `col2id`, terms.py 615: column ↦ 1-based position. -/
def colids (cols : List Str) : Dict Str Nat :=
  Dict.ofPairs (cols.zipIdx.map (fun p => (p.1, p.2 + 1)))

/-- `col2id[e]`, terms.py 624, 627 and 632. -/
def idOf (ids : Dict Str Nat) (e : Str) : Except Err Nat :=
  match ids.get? e with
  | some i => .ok i
  | none => .error .key

/-- `[col2id[e] for e in eles]`, terms.py 624, 627 and 632. -/
def idsOf (ids : Dict Str Nat) (eles : List Str) : Except Err (List Nat) := eles.mapM (idOf ids)

/-- `'x/y/…'.split('/')[:-2]`, terms.py 626. -/
def tokenEles (fmt : Str) : List Str := (split '/' fmt).dropLast.dropLast

/-- `CorpusFormatter(settings)`, terms.py 574-638: the settings of the caller afterwards (line 629 adds
`colloc`), and the formatter.  `node-attr` and `edge-attr` are left out. -/
def construct (s : Settings) : Except Err (Settings × Formatter) := do
  let (lm, tym, com, tom) ← lineMachines s
  let (sg, l, r) ← boundaryMachines s
  let cols ← columns s
  let ids := colids cols
  let tyf ← getKey s "type"
  let tyi ← idsOf ids (split '/' tyf)
  let tof ← getKey s "token"
  let toi ← idsOf ids (tokenEles tof)
  let s' := if s.contains "colloc" then s else s.set "colloc" tyf
  let cof ← getKey s' "colloc"
  let coi ← idsOf ids (split '/' cof)
  return (s', ⟨lm, tym, com, tom, sg, l, r, ids, tyf, tyi, tof, toi, cof, coi, s'⟩)

/-- An attribute that may not be set. -/
def attr {α : Type} : Option α → Except Err α
  | some a => .ok a
  | none => .error .attribute

/-- `match_line(line)` without a form, terms.py 640-642. -/
def matchLine (rx : Regex) (f : Formatter) (line : Str) : Except Err (Option Match) := do
  let m ← attr f.lineMachine
  return rx m line

/-- `separator_line_machine(line)`, terms.py 652-653. -/
def separatorLine (rx : Regex) (f : Formatter) (line : Str) : Except Err Bool := do
  let m ← attr f.single
  return (rx m line).isSome

/-- `match.group(i)`. -/
def group (m : Match) (i : Nat) : Except Err (Option Str) :=
  match m[i]? with
  | some g => .ok g
  | none => .error .index

/-- A group that took no part in the match is `None`, which `join` refuses. -/
def asStr : Option Str → Except Err Str
  | some s => .ok s
  | none => .error .type

/-- `'/'.join(…)` of the groups, terms.py 678, 683 and 687. -/
def joinGroups (m : Match) (ids : List Nat) (more : List Str) : Except Err Str := do
  let gs ← ids.mapM (group m)
  let ss ← gs.mapM asStr
  return join '/' (ss ++ more)

/-- `get_type`, terms.py 676-678. -/
def getType (f : Formatter) (m : Match) : Except Err Str := joinGroups m f.typeIds []

/-- `get_token`, terms.py 680-683. -/
def getToken (f : Formatter) (m : Match) (fid lid : Str) : Except Err Str := joinGroups m f.tokenIds [fid, lid]

/-- `get_colloc`, terms.py 685-687. -/
def getColloc (f : Formatter) (m : Match) : Except Err Str := joinGroups m f.collocIds []

/-- `get(match, column, fid, lid)`, terms.py 664-674.  A column that is none of the columns gives group 0.
Left out: columns named like another attribute (`_type_line_machine` …). -/
def get (f : Formatter) (m : Match) (column fid lid : Str) : Except Err (Option Str) :=
  if column = "type".toList then (getType f m).map some
  else if column = "colloc".toList then (getColloc f m).map some
  else if column = "token".toList then (getToken f m fid lid).map some
  else group m ((f.colids.get? column).getD 0)

/-! ## Reading a file -/

/-- What `update_one_file` makes of one line, handler.py 327-338: an item, a boundary, or nothing. -/
inductive Line where
  | item (m : Match)
  | boundary
  | nothing
deriving DecidableEq

/-- `update_one_file`, one line, handler.py 328-336. -/
def readLine (rx : Regex) (f : Formatter) (line : Str) : Except Err Line := do
  match ← matchLine rx f line with
  | some m => return .item m
  | none => if ← separatorLine rx f line then return .boundary else return .nothing

end Verif.Items
