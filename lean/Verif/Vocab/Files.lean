import Verif.Vocab.Json

/-!
# Model of `Vocab.save` and `Vocab.load` with files, formats and encodings

`nephosem/core/vocab.py` 379-447 and `nephosem/utils.py` 219-271 with `codecs.open` and `json.dump` of the standard library.  A disk
maps file names to bytes.  An encoding says what each character becomes and how bytes are read; encodings that keep a state or write
a mark at the beginning of the file (utf-16, utf-8-sig) are left out, so are errors of the operating system other than a missing file.
-/

namespace Verif.Vocab.Files
open Verif.Py Verif.Vocab Verif.Vocab.Plain

/-- An encoding without state. -/
structure Encoding where
  char : Char → Option (List Nat)
  decode : List Nat → Option Str

/-- The bytes of a text, `none` for a `UnicodeEncodeError`. -/
def Encoding.encode (e : Encoding) : Str → Option (List Nat)
  | [] => some []
  | c :: cs => match e.char c, e.encode cs with
    | some b, some bs => some (b ++ bs)
    | _, _ => none

/-- Exceptions: a missing file, an unknown encoding, or one of `Err` (`UnicodeError` is a `ValueError`). -/
inductive FErr where
  | noFile
  | lookup
  | py (e : Err)
  deriving DecidableEq, Repr

/-- The files and their bytes. -/
abbrev Disk := Dict Str (List Nat)

/-- The writes of `json.dump(freq_dict, fout, ensure_ascii=False, indent=4)`, one for each text that `iterencode` yields:
`/repo/nephosem/utils.py:220-223`. -/
def jsonChunks : Dict Str Int → List Str
  | [] => [['{', '}']]
  | p :: ps => ['{'] :: ['\n', ' ', ' ', ' ', ' '] :: Json.quote p.1 :: [':', ' '] :: intStr p.2 ::
      (ps.flatMap (fun q => [[',', '\n', ' ', ' ', ' ', ' '], Json.quote q.1, [':', ' '], intStr q.2]) ++ [['\n'], ['}']])

/-- The writes of `save_dict_plain`: `/repo/nephosem/utils.py:227-250`. -/
def plainChunks (v : Vocab Str) : List Str := (dataframe v).map row

/-- `fout.write` for one text after the other: the bytes written, and whether all were (a text with a character that cannot be encoded
is not written at all). -/
def writeChunks (e : Encoding) : List Str → List Nat × Bool
  | [] => ([], true)
  | c :: cs => match e.encode c with
    | none => ([], false)
    | some b => (b ++ (writeChunks e cs).1, (writeChunks e cs).2)

/-- `with codecs.open(filename, 'w', encoding) as fout: …`: `/repo/nephosem/utils.py:221, 240`.  `codecs.open` opens the file, which
empties it, before it looks up the encoding; what was written before an exception stays in the file. -/
def saveFile (encs : Str → Option Encoding) (disk : Disk) (name enc : Str) (chunks : List Str) : Disk × Option FErr :=
  match encs enc with
  | none => (disk.set name [], some .lookup)
  | some e => (disk.set name (writeChunks e chunks).1, if (writeChunks e chunks).2 then none else some (.py .valueError))

/-- A vocabulary with its attribute `encoding`: `/repo/nephosem/core/vocab.py:70`. -/
structure Coded where
  vocab : Vocab Str
  encoding : Str
  deriving DecidableEq

def utf8Name : Str := ['u', 't', 'f', '-', '8']
def jsonName : Str := ['j', 's', 'o', 'n']
def plainName : Str := ['p', 'l', 'a', 'i', 'n']
def txtName : Str := ['t', 'x', 't']

/-- `Vocab.save(filename, encoding=None, fmt='json')`: `/repo/nephosem/core/vocab.py:379-414`.  Not modelled: messages. -/
def save (encs : Str → Option Encoding) (v : Coded) (disk : Disk) (name : Str) (encoding : Str := []) (fmt : Str := jsonName) :
    Disk × Option FErr :=
  let enc := if encoding = [] then v.encoding else encoding
  if fmt = jsonName then saveFile encs disk name enc (jsonChunks v.vocab.freq)
  else if fmt = plainName ∨ fmt = txtName then saveFile encs disk name enc (plainChunks v.vocab)
  else (disk, some (.py .keyError))

/-- `with codecs.open(filename, 'r', encoding) as fin`: `/repo/nephosem/utils.py:255, 265`; the text of the file. -/
def readFile (encs : Str → Option Encoding) (disk : Disk) (name enc : Str) : Except FErr Str :=
  match disk.get? name with
  | none => .error .noFile
  | some b => match encs enc with
    | none => .error .lookup
    | some e => match e.decode b with
      | none => .error (.py .valueError)
      | some t => .ok t

/-- The dict of a text in one of the formats: `load_dict_json`, `load_dict_plain`, `/repo/nephosem/utils.py:253-271`. -/
def parseText (fmt text : Str) : Except FErr (Vocab Str) :=
  if fmt = jsonName then
    match Json.parse text with
    | .ok d => .ok (mk' d)
    | .error e => .error (.py e)
  else
    match Plain.load text with
    | .ok v => .ok v
    | .error e => .error (.py e)

/-- `Vocab.load(filename, encoding='utf-8', fmt='json')`: `/repo/nephosem/core/vocab.py:416-447`. -/
def load (encs : Str → Option Encoding) (disk : Disk) (name : Str) (encoding : Str := utf8Name) (fmt : Str := jsonName) :
    Except FErr Coded :=
  if fmt = jsonName ∨ fmt = plainName ∨ fmt = txtName then
    match readFile encs disk name encoding with
    | .error e => .error e
    | .ok t => match parseText fmt t with
      | .error e => .error e
      | .ok v => .ok ⟨v, encoding⟩
  else .error (.py .keyError)

/-! ## Two encodings -/

/-- ISO 8859-1. -/
def latin1 : Encoding where
  char := fun c => if c.toNat < 256 then some [c.toNat] else none
  decode := fun bs => some (bs.map Char.ofNat)

/-- The bytes of one character in UTF-8. -/
def utf8Char (c : Char) : List Nat :=
  let n := c.toNat
  if n < 0x80 then [n]
  else if n < 0x800 then [0xC0 + n / 64, 0x80 + n % 64]
  else if n < 0x10000 then [0xE0 + n / 4096, 0x80 + n / 64 % 64, 0x80 + n % 64]
  else [0xF0 + n / 262144, 0x80 + n / 4096 % 64, 0x80 + n / 64 % 64, 0x80 + n % 64]

/-- A byte that continues a character. -/
def isCont (b : Nat) : Bool := 0x80 ≤ b && b < 0xC0

/-- The character with this number, if there is one and it needs as many bytes. -/
def charOf (low n : Nat) : Option Char := if low ≤ n ∧ n.isValidChar then some (Char.ofNat n) else none

/-- Reading UTF-8. -/
def utf8Decode : List Nat → Option Str
  | [] => some []
  | a :: r =>
    if a < 0x80 then (utf8Decode r).map (Char.ofNat a :: ·)
    else if a < 0xC0 then none
    else if a < 0xE0 then
      match r with
      | b :: r =>
        if isCont b then (charOf 0x80 ((a - 0xC0) * 64 + (b - 0x80))).bind (fun c => (utf8Decode r).map (c :: ·)) else none
      | _ => none
    else if a < 0xF0 then
      match r with
      | b :: d :: r =>
        if isCont b && isCont d then
          (charOf 0x800 ((a - 0xE0) * 4096 + (b - 0x80) * 64 + (d - 0x80))).bind (fun c => (utf8Decode r).map (c :: ·))
        else none
      | _ => none
    else if a < 0xF8 then
      match r with
      | b :: d :: e :: r =>
        if isCont b && isCont d && isCont e then
          (charOf 0x10000 ((a - 0xF0) * 262144 + (b - 0x80) * 4096 + (d - 0x80) * 64 + (e - 0x80))).bind
            (fun c => (utf8Decode r).map (c :: ·))
        else none
      | _ => none
    else none

/-- UTF-8. -/
def utf8 : Encoding where
  char := fun c => some (utf8Char c)
  decode := utf8Decode

end Verif.Vocab.Files
