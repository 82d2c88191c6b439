import Verif.Vocab.Model
import Mathlib.Data.List.Lex
import Mathlib.Data.Nat.Digits.Defs
import Mathlib.Data.Char

/-!
# Model of the plain-text vocabulary format: `nephosem/utils.py` `save_dict_plain`, `load_dict_plain`

Text is a list of characters.  Byte encodings are not modelled (the file holds the decoded text).
-/

namespace Verif.Vocab.Plain
open Verif.Py Verif.Vocab

/-- A Python string. -/
abbrev Str := List Char

/-- Strings are compared through their order, as in the generic vocabulary model (technical: keeps one
equality test for strings everywhere). -/
instance (priority := 2000) instDecEqStr : DecidableEq (List Char) := LinearOrder.toDecidableEq

/-- `str.isspace` for one character (the Unicode white-space characters Python's `str.strip` removes). -/
def isSpace (c : Char) : Bool :=
  let n := c.toNat
  (9 ≤ n && n ≤ 13) || (28 ≤ n && n ≤ 32) || n == 0x85 || n == 0xa0 || n == 0x1680 ||
  (0x2000 ≤ n && n ≤ 0x200a) || n == 0x2028 || n == 0x2029 || n == 0x202f || n == 0x205f || n == 0x3000

/-- Line boundaries of `str.splitlines`, which `codecs.StreamReader` uses to iterate over lines. -/
def isBreak (c : Char) : Bool :=
  let n := c.toNat
  (10 ≤ n && n ≤ 13) || (28 ≤ n && n ≤ 30) || n == 0x85 || n == 0x2028 || n == 0x2029

/-- `for line in fin`: `/repo/nephosem/utils.py:266` (`codecs.open`, so `splitlines(keepends=True)`).
Simplified: reading in chunks is not modelled, and `\r\n` is split as two breaks, which only adds a line that
is blank after `strip` and is skipped. -/
def lines : Str → Str → List Str
  | acc, [] => if acc = [] then [] else [acc.reverse]
  | acc, c :: cs => if isBreak c then (c :: acc).reverse :: lines [] cs else lines (c :: acc) cs

/-- `str.strip()`: `/repo/nephosem/utils.py:267`. -/
def strip (s : Str) : Str := ((s.dropWhile isSpace).reverse.dropWhile isSpace).reverse

/-- `str.split('\t')`: `/repo/nephosem/utils.py:267`. -/
def splitTab : Str → List Str
  | [] => [[]]
  | c :: cs => if c = '\t' then [] :: splitTab cs else
    match splitTab cs with
    | [] => [[c]]
    | p :: ps => (c :: p) :: ps

/-- One decimal digit as text. -/
def digitChar (d : Nat) : Char := Char.ofNat (48 + d)

/-- `'{}'.format(n)` for a natural number: `/repo/nephosem/utils.py:250`. -/
def natStr (n : Nat) : Str := if n = 0 then ['0'] else ((Nat.digits 10 n).map digitChar).reverse

/-- `'{}'.format(n)` for an integer: `/repo/nephosem/utils.py:250`. -/
def intStr : Int → Str
  | .ofNat n => natStr n
  | .negSucc n => '-' :: natStr (n + 1)

/-- Digits of a text, `none` if some character is not a digit. -/
def parseDigits : Nat → Str → Option Nat
  | acc, [] => some acc
  | acc, c :: cs => if 48 ≤ c.toNat ∧ c.toNat ≤ 57 then parseDigits (acc * 10 + (c.toNat - 48)) cs else none

/-- `int(pair[1])`: `/repo/nephosem/utils.py:270`.  Simplified: the forms `+5`, `1_000`, inner white space and
non-ASCII digits, which the writer never produces, are errors here; so are the floats of line 270. -/
def parseInt : Str → Option Int
  | [] => none
  | '-' :: cs => if cs = [] then none else (parseDigits 0 cs).map (fun n => - (n : Int))
  | cs => (parseDigits 0 cs).map (fun n => (n : Int))

/-- One line of the file: `/repo/nephosem/utils.py:250`. -/
def row (p : Str × Int) : Str := p.1 ++ '\t' :: intStr p.2 ++ ['\n']

/-- `save_dict_plain(freq_dict, filename)` with the default order, i.e. what `Vocab.save(fmt='plain')` calls:
`/repo/nephosem/utils.py:227-250`, `/repo/nephosem/core/vocab.py:379-413`.  The result is the text written. -/
def save (v : Vocab Str) : Str := ((dataframe v).map row).flatten

/-- The effect of one line on `res_dict`: `/repo/nephosem/utils.py:267-270`. -/
def loadLine (d : Dict Str Int) (line : Str) : Except Err (Dict Str Int) :=
  match splitTab (strip line) with
  | k :: f :: _ =>
    match parseInt f with
    | some n => .ok (d.set k n)
    | none => .error .valueError
  | _ => .ok d

/-- `load_dict_plain` and `Vocab.load(fmt='plain')`: `/repo/nephosem/utils.py:260-271`,
`/repo/nephosem/core/vocab.py:417-447`. -/
def load (text : Str) : Except Err (Vocab Str) :=
  ((lines [] text).foldlM loadLine []).map (fun d => mk' d)

end Verif.Vocab.Plain
