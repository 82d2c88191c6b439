import Verif.Items.Formatter

/-!
# The older reader of corpus lines (`nephosem/core/terms.py` 476-568, class `Getter`) and `Sentence` (terms.py 690-706)

Regular expressions are patterns, as in `Verif.Items.Formatter`.
-/

namespace Verif.Items.Old

open Verif.Py Verif.Items
open Verif.Vocab.Plain (Str parseInt strip)

/-- What the constructor sets. -/
structure Getter where
  form : Str
  tokenMachine : Str
  wordMachine : Str
  separator : Str
  left : Str
  right : Str
  single : Str
  word : List Int
  pos : List Int
  lemma_ : List Int
  colloc : List Int
  node : List Int
  match_ : Option Match
deriving DecidableEq

/-- `int(s)`, with white space around the number; a leading `+` and underscores between digits are left out. -/
def toInt (s : Str) : Except Err Int :=
  match parseInt (strip s) with
  | some z => .ok z
  | none => .error .value

/-- The group numbers of `get_func`, terms.py 545. -/
def numbers (s : Str) : Except Err (List Int) := (split ',' s).mapM toInt

/-- `self.get_func(settings[key])`, terms.py 490-495. -/
def funcOf (s : Settings) (k : String) : Except Err (List Int) := do
  let v ← getKey s k
  numbers v

/-- `Getter(settings)`, terms.py 478-495. -/
def construct (s : Settings) : Except Err Getter := do
  let form ← getKey s "form"
  let tok ← getKey s "token-line-machine"
  let word ← getKey s "word-line-machine"
  let sep ← getKey s "separator-line-machine"
  let l ← getKey s "left-boundary-machine"
  let r ← getKey s "right-boundary-machine"
  let sg ← getKey s "single-boundary-machine"
  let w ← funcOf s "get-word"
  let p ← funcOf s "get-pos"
  let le ← funcOf s "get-lemma"
  let c ← funcOf s "get-colloc"
  let n ← funcOf s ("get-" ++ String.ofList form)
  return ⟨form, tok, word, sep, l, r, sg, w, p, le, c, n, none⟩

/-- `match.group(i)` with any integer. -/
def groupAt (m : Match) (z : Int) : Except Err (Option Str) := if z < 0 then .error .index else group m z.toNat

/-- `form_getter(match)`, terms.py 547-551; `None` has no groups. -/
def formGet (ns : List Int) : Option Match → Except Err Str
  | none => if ns = [] then .ok [] else .error .attribute
  | some m => do
    let gs ← ns.mapM (groupAt m)
    let ss ← gs.mapM asStr
    return join '/' ss

/-- `init_machine(line)`, terms.py 497-498. -/
def initMachine (rx : Regex) (g : Getter) (line : Str) : Getter := { g with match_ := rx g.wordMachine line }

/-- The properties `word`, `pos` and `lemma`, terms.py 520-530. -/
def wordOf (g : Getter) : Except Err Str := formGet g.word g.match_
def posOf (g : Getter) : Except Err Str := formGet g.pos g.match_
def lemmaOf (g : Getter) : Except Err Str := formGet g.lemma_ g.match_

/-- What `l.extend(xs)` returns: `None` (the list that it changes is lost here). -/
def extendResult (_l _xs : List Str) : Option (List Str) := none

/-- `'\t'.join(x)`: `TypeError` for `None`. -/
def joinTab : Option (List Str) → Except Err Str
  | none => .error .type
  | some l => .ok (join '\t' l)

/-- `token_line_machine(line, fid, lid)`, terms.py 503-506. -/
def tokenLine (rx : Regex) (g : Getter) (line fid lid : Str) : Except Err (Option Match) := do
  let newline ← joinTab (extendResult (split '\t' line) [fid, lid])
  return rx g.tokenMachine newline

/-- `get_type(match)`, terms.py 553-554. -/
def getType (g : Getter) (m : Option Match) : Except Err Str := do
  let l ← formGet g.lemma_ m
  let p ← formGet g.pos m
  return l ++ '/' :: p

/-- `get_token(match, fid, lid)`, terms.py 556-557. -/
def getToken (g : Getter) (m : Option Match) (fid lid : Str) : Except Err Str := do
  let w ← formGet g.word m
  let p ← formGet g.pos m
  return w ++ '/' :: (p ++ '/' :: (fid ++ '/' :: lid))

/-- `get_item(match, form)`, terms.py 559-568. -/
def getItem (g : Getter) (m : Option Match) (form : Str) : Except Err Str :=
  if form = "type".toList then getType g m
  else if form = "word".toList then formGet g.word m
  else if form = "lemma".toList then formGet g.lemma_ m
  else .error .value

/-! ### `Sentence` -/

/-- `line.startswith('<')`. -/
def isTag (line : Str) : Bool := line.head? = some '<'

/-- `Sentence`: `text` and `content`, terms.py 690-694. -/
structure Sent where
  text : Str
  content : List Str
deriving DecidableEq

/-- `parse(s)`, terms.py 696-703, also `deprel/basic.py` 41-48; the result is the content afterwards. -/
def Sent.parse (x : Sent) (s : Option Str) : Sent :=
  { x with content := x.content ++ (split '\n' (s.getD x.text)).filter (fun l => !isTag l) }

/-- `Sentence(s)` and `get_content()`, terms.py 691-694 and 705-706; the same text is in `deprel/basic.py` 36-39, 50-51. -/
def newSent (s : Str) : Sent := Sent.parse ⟨s, []⟩ none

end Verif.Items.Old
