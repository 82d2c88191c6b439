import Verif.Vocab.Plain

/-!
# Model of the JSON vocabulary format: `nephosem/utils.py` `save_dict_json`, `load_dict_json`

Text is a list of characters.  `json` of the standard library is modelled for dicts from strings to integers: the writer with
`ensure_ascii=False, indent=4` (separators `,` and `: `), the reader for objects whose values are integers.  Any other JSON value is an error
here, so are surrogates, which are no characters in Lean.  The encoding of the file is a parameter.
-/

namespace Verif.Vocab.Json
open Verif.Py Verif.Vocab Verif.Vocab.Plain

/-- `'{0:x}'` for one hexadecimal digit. -/
def hexDigit (n : Nat) : Char := if n < 10 then Char.ofNat (48 + n) else Char.ofNat (87 + n)

/-- One character in a JSON string: `ESCAPE_DCT` and `py_encode_basestring` of the standard library, called by
`/repo/nephosem/utils.py:222`. -/
def esc (c : Char) : Str :=
  if c = '"' then ['\\', '"']
  else if c = '\\' then ['\\', '\\']
  else if c = '\n' then ['\\', 'n']
  else if c = '\r' then ['\\', 'r']
  else if c = '\t' then ['\\', 't']
  else if c.toNat = 12 then ['\\', 'f']
  else if c.toNat = 8 then ['\\', 'b']
  else if c.toNat < 32 then ['\\', 'u', '0', '0', hexDigit (c.toNat / 16), hexDigit (c.toNat % 16)]
  else [c]

/-- A JSON string. -/
def quote (s : Str) : Str := '"' :: (s.flatMap esc ++ ['"'])

/-- One member, with the indentation before it. -/
def item (p : Str × Int) : Str := [' ', ' ', ' ', ' '] ++ quote p.1 ++ [':', ' '] ++ intStr p.2

/-- A member that is not the first. -/
def nextItem (p : Str × Int) : Str := [',', '\n'] ++ item p

/-- `json.dump(freq_dict, fout, ensure_ascii=False, indent=4)`: `/repo/nephosem/utils.py:220-223`; the text written. -/
def dump : Dict Str Int → Str
  | [] => ['{', '}']
  | p :: ps => ['{', '\n'] ++ item p ++ ps.flatMap nextItem ++ ['\n', '}']

/-- White space of JSON. -/
def isWs (c : Char) : Bool := c = ' ' || c = '\t' || c = '\n' || c = '\r'

/-- `WHITESPACE.match`. -/
def ws (s : Str) : Str := s.dropWhile isWs

/-- The value of a hexadecimal digit. -/
def hexVal (c : Char) : Option Nat :=
  let n := c.toNat
  if 48 ≤ n ∧ n ≤ 57 then some (n - 48)
  else if 97 ≤ n ∧ n ≤ 102 then some (n - 87)
  else if 65 ≤ n ∧ n ≤ 70 then some (n - 55)
  else none

/-- `_decode_uXXXX`; surrogates are left out. -/
def hex4 (a b c d : Char) : Option Char :=
  match hexVal a, hexVal b, hexVal c, hexVal d with
  | some a, some b, some c, some d =>
    let n := ((a * 16 + b) * 16 + c) * 16 + d
    if 0xd800 ≤ n ∧ n < 0xe000 then none else some (Char.ofNat n)
  | _, _, _, _ => none

/-- `BACKSLASH`. -/
def unescape (c : Char) : Option Char :=
  if c = '"' then some '"' else if c = '\\' then some '\\' else if c = '/' then some '/' else if c = 'b' then some (Char.ofNat 8)
  else if c = 'f' then some (Char.ofNat 12) else if c = 'n' then some '\n' else if c = 'r' then some '\r'
  else if c = 't' then some '\t' else none

/-- One more character in front. -/
def push (c : Char) (p : Str × Str) : Str × Str := (c :: p.1, p.2)

/-- `scanstring(s, end, strict=True)`: the string up to the closing quote, and what follows. -/
def scan : Str → Option (Str × Str)
  | [] => none
  | c :: r =>
    if c = '"' then some ([], r)
    else if c = '\\' then
      match r with
      | [] => none
      | e :: r' =>
        if e = 'u' then
          match r' with
          | h1 :: h2 :: h3 :: h4 :: r'' => (hex4 h1 h2 h3 h4).bind (fun x => (scan r'').map (push x))
          | _ => none
        else (unescape e).bind (fun x => (scan r').map (push x))
    else if c.toNat < 32 then none
    else (scan r).map (push c)

/-- A decimal digit. -/
def isDig (c : Char) : Bool := 48 ≤ c.toNat && c.toNat ≤ 57

/-- The text begins as the rest of a float does. -/
def floatTail : Str → Bool
  | [] => false
  | c :: _ => c = '.' || c = 'e' || c = 'E'

/-- The digits of a number: a leading 0 is a number by itself. -/
def scanNat (s : Str) : Option (Nat × Str) :=
  match s with
  | [] => none
  | c :: r => if c = '0' then some (0, r) else if isDig c then
      (parseDigits 0 (s.takeWhile isDig)).map (fun n => (n, s.dropWhile isDig)) else none

/-- A number with or without a minus. -/
def signed (s : Str) : Option (Int × Str) :=
  match s with
  | [] => none
  | c :: r => if c = '-' then (scanNat r).map (fun p => (-(p.1 : Int), p.2)) else (scanNat s).map (fun p => ((p.1 : Int), p.2))

/-- An integer: `_match_number` of the standard library.  Floats are left out. -/
def scanInt (s : Str) : Option (Int × Str) :=
  match signed s with
  | none => none
  | some p => if floatTail p.2 then none else some p

/-- A member of an object and what follows it, without white space: `JSONObject` of the standard library. -/
def member (s : Str) : Option ((Str × Int) × Str) :=
  match ws s with
  | [] => none
  | c :: r => if c = '"' then
      match scan r with
      | none => none
      | some (k, r1) =>
        match ws r1 with
        | [] => none
        | c :: r2 => if c = ':' then (scanInt (ws r2)).map (fun p => ((k, p.1), ws p.2)) else none
    else none

/-- The loop of `JSONObject`; of members with the same name the last counts.  The number bounds the loop. -/
def members : Nat → Dict Str Int → Str → Option (Dict Str Int × Str)
  | 0, _, _ => none
  | n + 1, d, s =>
    match member s with
    | none => none
    | some (_, []) => none
    | some (p, c :: r) => if c = ',' then members n (d.set p.1 p.2) r else if c = '}' then some (d.set p.1 p.2, r) else none

/-- An object and what follows it. -/
def object (s : Str) : Option (Dict Str Int × Str) :=
  match ws s with
  | [] => none
  | c :: r => if c = '{' then
      match ws r with
      | [] => none
      | c :: r' => if c = '}' then some ([], r') else members r.length [] r
    else none

/-- `json.load(fin)`: `/repo/nephosem/utils.py:253-257`.  A text that begins with a byte order mark is refused.  Simplified: only objects
of integers; any other JSON text is a `ValueError` here (in the code `null` gives an empty vocabulary, and the constructor raises
`NotImplementedError` for numbers, strings and lists). -/
def parse (text : Str) : Except Err (Dict Str Int) :=
  if text.head? = some (Char.ofNat 0xfeff) then .error .valueError
  else match object text with
    | none => .error .valueError
    | some (d, r) => if ws r = [] then .ok d else .error .valueError

/-- An encoding: the bytes of a text, and the text of bytes (`none`: `UnicodeError`). -/
structure Codec (β : Type) where
  encode : Str → Option β
  decode : β → Option Str

/-- `Vocab.save(filename, encoding)`, whose default format is JSON: `/repo/nephosem/core/vocab.py:379-414`; the bytes of the file.
Text that cannot be encoded is a `UnicodeEncodeError` (a `ValueError`). -/
def save {β : Type} (c : Codec β) (v : Vocab Str) : Except Err β :=
  match c.encode (dump v.freq) with
  | some b => .ok b
  | none => .error .valueError

/-- `Vocab.load(filename, encoding)`, whose default format is JSON: `/repo/nephosem/core/vocab.py:416-447`. -/
def load {β : Type} (c : Codec β) (b : β) : Except Err (Vocab Str) :=
  match c.decode b with
  | none => .error .valueError
  | some t => (parse t).map (fun d => mk' d)

end Verif.Vocab.Json
