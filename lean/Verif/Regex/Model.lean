import Verif.Items.Formatter

/-!
# Regular expressions: what `re.match(pattern, text)` does

The package hands the patterns of the settings, of the templates and of `Vocab.match` to Python's module `re`:
`/repo/nephosem/core/terms.py:577-604, 640-662`, `/repo/nephosem/core/vocab.py:325`,
`/repo/nephosem/core/graph.py:476, 497, 670-808`.  This file models a fragment of that module that holds all patterns of
`/repo/nephosem/config.ini`, of the files below `/repo/nephosem/tests/data` and of the documentation: characters, escapes,
classes, `.`, groups, `|`, `^`, `$`, and the greedy `*`, `+`, `?` after one character or class.  Everything else (quantified
groups, counted and lazy quantifiers, look-around, back references, inline flags) and every malformed pattern is refused by
`compile` here: nothing is said about such patterns.  There are no flags, as in the package.

`re` tries the alternatives of a pattern in a fixed order and takes the first that succeeds.  `Re.runs` lists all successes in
that order; the match is the first of them.
-/

namespace Verif.Regex

open Verif.Py
open Verif.Vocab.Plain (Str isSpace)
open Verif.Items (Match)

/-- The Unicode tables behind `\w` and `\d`: `str.isalnum` and `str.isdecimal` of one character.  (`\s` is `str.isspace`.) -/
structure Tables where
  alnum : Char → Bool
  digit : Char → Bool

/-- A member of a class `[…]`. -/
inductive Mem where
  | chr (c : Char)
  | range (a b : Char)
  | word (neg : Bool)
  | digit (neg : Bool)
  | space (neg : Bool)
deriving DecidableEq, Repr

/-- Does a character belong to the member of a class? -/
def Mem.has (u : Tables) : Mem → Char → Bool
  | .chr a, c => c == a
  | .range a b, c => a.toNat ≤ c.toNat && c.toNat ≤ b.toNat
  | .word neg, c => (u.alnum c || c == '_') != neg
  | .digit neg, c => u.digit c != neg
  | .space neg, c => isSpace c != neg

/-- What stands for one character: `.`, a character or escape, a class. -/
inductive Cls where
  | any
  | one (m : Mem)
  | set (neg : Bool) (ms : List Mem)
deriving DecidableEq, Repr

/-- Does a character belong to the class? -/
def Cls.has (u : Tables) : Cls → Char → Bool
  | .any, c => c != '\n'
  | .one m, c => m.has u c
  | .set neg ms, c => ms.any (fun m => m.has u c) != neg

/-- Compiled expressions. -/
inductive Re where
  | eps
  | one (c : Cls)
  /-- `c*` (`lo = 0`), `c+` (`lo = 1`). -/
  | many (c : Cls) (lo : Nat)
  /-- `c?`. -/
  | opt (c : Cls)
  | seq (a b : Re)
  | alt (a b : Re)
  | grp (i : Nat) (a : Re)
  | bol
  | eol
deriving DecidableEq, Repr

/-! ## Matching -/

/-- A point of the matching: how many characters are consumed, the text that is left, the groups so far. -/
structure St where
  pos : Nat
  rest : Str
  caps : Dict Nat Str
deriving DecidableEq

/-- Consuming `n` characters. -/
def St.skip (s : St) (n : Nat) : St := { s with pos := s.pos + n, rest := s.rest.drop n }

/-- How many characters at the start of the text belong to a class. -/
def span (u : Tables) (c : Cls) (t : Str) : Nat := (t.takeWhile (c.has u)).length

/-- `n, n - 1, …, lo`. -/
def down (lo n : Nat) : List Nat := ((List.range (n + 1)).filter (fun k => lo ≤ k)).reverse

/-- All ways to match an expression from a point, in the order in which `re` tries them. -/
def Re.runs (u : Tables) : Re → St → List St
  | .eps, s => [s]
  | .one c, s =>
    match s.rest with
    | [] => []
    | x :: _ => if c.has u x then [s.skip 1] else []
  | .many c lo, s => (down lo (span u c s.rest)).map s.skip
  | .opt c, s =>
    match s.rest with
    | [] => [s]
    | x :: _ => if c.has u x then [s.skip 1, s] else [s]
  | .seq a b, s => (a.runs u s).flatMap (b.runs u)
  | .alt a b, s => a.runs u s ++ b.runs u s
  | .grp i a, s => (a.runs u s).map (fun t => { t with caps := Dict.set t.caps i (s.rest.take (t.pos - s.pos)) })
  | .bol, s => if s.pos = 0 then [s] else []
  | .eol, s => if s.rest = [] ∨ s.rest = ['\n'] then [s] else []

/-- `re.compile(pattern).match(text)` for a compiled expression with `n` groups: the whole match and the groups. -/
def Re.exec (u : Tables) (r : Re) (n : Nat) (text : Str) : Option Match :=
  ((r.runs u ⟨0, text, []⟩).head?).map (fun t => some (text.take t.pos) :: (List.range n).map (fun i => Dict.get? t.caps (i + 1)))

/-! ## Reading a pattern -/

/-- The parts of a pattern. -/
inductive Tok where
  | cls (c : Cls)
  | open | close | bar | bol | eol
  | star | plus | quest
deriving DecidableEq, Repr

/-- The member an escape stands for, outside and inside of classes; the escapes with a letter or digit that are left out here
(`\b`, `\A`, `\1` …) are refused. -/
def escape (c : Char) : Option Mem :=
  if c = 't' then some (.chr '\t')
  else if c = 'n' then some (.chr '\n')
  else if c = 'r' then some (.chr '\r')
  else if c = 'w' then some (.word false)
  else if c = 'W' then some (.word true)
  else if c = 'd' then some (.digit false)
  else if c = 'D' then some (.digit true)
  else if c = 's' then some (.space false)
  else if c = 'S' then some (.space true)
  else if c.isAlphanum then none
  else some (.chr c)

/-- Where the reader of a pattern is. -/
inductive Mode where
  | out
  /-- After a backslash. -/
  | esc
  /-- After `[`. -/
  | cls0
  /-- Inside a class; the members so far, the last one first. -/
  | cls (neg : Bool) (ms : List Mem)
  /-- After a backslash inside a class. -/
  | clsEsc (neg : Bool) (ms : List Mem)
  /-- After a character and `-` inside a class. -/
  | clsDash (neg : Bool) (ms : List Mem) (a : Char)
deriving DecidableEq

/-- What a character outside of classes and escapes stands for; `{` and `}` are left out. -/
def plain (c : Char) : Option Tok :=
  if c = '(' then some .open
  else if c = ')' then some .close
  else if c = '|' then some .bar
  else if c = '^' then some .bol
  else if c = '$' then some .eol
  else if c = '*' then some .star
  else if c = '+' then some .plus
  else if c = '?' then some .quest
  else if c = '.' then some (.cls .any)
  else if c = '{' ∨ c = '}' then none
  else some (.cls (.one (.chr c)))

/-- One character inside a class: the next mode, or `none` for what is left out: an empty class, `[` inside a class, a `-`
that is neither between two characters nor the last of the class. -/
def clsStep (neg : Bool) (ms : List Mem) (c : Char) : Option Mode :=
  if c = '\\' then some (.clsEsc neg ms)
  else if c = '[' then none
  else if c = '-' then
    match ms with
    | .chr a :: ms' => some (.clsDash neg ms' a)
    | _ => none
  else some (.cls neg (.chr c :: ms))

/-- The parts of a pattern, in order. -/
def lex : Mode → Str → Option (List Tok)
  | .out, [] => some []
  | _, [] => none
  | .out, c :: cs =>
    if c = '\\' then lex .esc cs
    else if c = '[' then lex .cls0 cs
    else do
      let t ← plain c
      let ts ← lex .out cs
      return t :: ts
  | .esc, c :: cs => do
    let m ← escape c
    let ts ← lex .out cs
    return .cls (.one m) :: ts
  | .cls0, c :: cs =>
    if c = '^' then lex (.cls true []) cs
    else if c = ']' then none
    else do
      let md ← clsStep false [] c
      lex md cs
  | .cls neg ms, c :: cs =>
    if c = ']' then
      if ms = [] then none else do
        let ts ← lex .out cs
        return .cls (.set neg ms.reverse) :: ts
    else do
      let md ← clsStep neg ms c
      lex md cs
  | .clsEsc neg ms, c :: cs => do
    let m ← escape c
    lex (.cls neg (m :: ms)) cs
  | .clsDash neg ms a, c :: cs =>
    if c = ']' then do
      let ts ← lex .out cs
      return .cls (.set neg (ms.reverse ++ [.chr a, .chr '-'])) :: ts
    else if c = '\\' ∨ c = '[' then none
    else if a.toNat ≤ c.toNat then lex (.cls neg (.range a c :: ms)) cs
    else none

/-- An open parenthesis or the whole pattern: the alternatives that are complete and the current one, both with the
last part first. -/
structure Frame where
  alts : List Re
  cur : List Re
deriving DecidableEq

/-- The sequence of parts (last one first). -/
def seqOf (l : List Re) : Re := l.foldl (fun acc r => .seq r acc) .eps

/-- The expression of a complete frame. -/
def Frame.re (f : Frame) : Re := f.alts.foldl (fun acc r => .alt r acc) (seqOf f.cur)

/-- Adding a part to the current sequence. -/
def Frame.add (f : Frame) (r : Re) : Frame := { f with cur := r :: f.cur }

/-- The state of the parser: the current frame, the surrounding frames each with the number of the group inside it, and the
number of groups. -/
structure Ps where
  top : Frame
  stack : List (Nat × Frame)
  n : Nat
deriving DecidableEq

/-- A quantifier: it must follow one character or class. -/
def quant (p : Ps) (f : Cls → Re) : Option Ps :=
  match p.top.cur with
  | .one c :: l => some { p with top := { p.top with cur := f c :: l } }
  | _ => none

/-- One part of a pattern.  A `?` after `(` starts an extension, which is left out: the frame is empty then, so `quant` refuses
it. -/
def parseStep (p : Ps) : Tok → Option Ps
  | .cls c => some { p with top := p.top.add (.one c) }
  | .bol => some { p with top := p.top.add .bol }
  | .eol => some { p with top := p.top.add .eol }
  | .bar => some { p with top := ⟨seqOf p.top.cur :: p.top.alts, []⟩ }
  | .open => some ⟨⟨[], []⟩, (p.n + 1, p.top) :: p.stack, p.n + 1⟩
  | .close =>
    match p.stack with
    | [] => none
    | (i, f) :: st => some ⟨f.add (.grp i p.top.re), st, p.n⟩
  | .star => quant p (fun c => .many c 0)
  | .plus => quant p (fun c => .many c 1)
  | .quest => quant p (fun c => .opt c)

/-- `re.compile(pattern)`: the expression and the number of groups. -/
def compile (pattern : Str) : Option (Re × Nat) := do
  let ts ← lex .out pattern
  let p ← ts.foldlM parseStep ⟨⟨[], []⟩, [], 0⟩
  if p.stack = [] then some (p.top.re, p.n) else none

/-- `re.compile(pattern).match(text)`.  For patterns outside the fragment the answer here is "no match", which says nothing
about Python: the theorems are about patterns that compile here. -/
def reMatch (u : Tables) (pattern text : Str) : Option Match :=
  match compile pattern with
  | some (r, n) => r.exec u n text
  | none => none

/-- The tables, cut down to ASCII (for examples). -/
def ascii : Tables := ⟨Char.isAlphanum, Char.isDigit⟩

end Verif.Regex
