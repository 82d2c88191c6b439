import Verif.Py.Dict
import Verif.Vocab.Plain

/-!
# Log messages and log files: `/repo/nephosem/logging.py:40-185`, with `/repo/nephosem/core/handler.py:91-94` and
`/repo/nephosem/utils.py:93-105`

The logger `nephosem` with its handlers, the console, and the files.  A file is an entry (path ↦ number) and its content under that
number: a handler that has opened a file goes on writing to it when the entry is removed (POSIX).

Left out: the handlers of the root logger, levels set on the loggers of single modules, level 0, a `~/tmp` that cannot be created, files
that cannot be removed, conversions other than `%s` and `%%` in messages, and Python 2.
-/

namespace Verif.Setup.Log
open Verif.Py
open Verif.Vocab.Plain (Str natStr)

/-- Exceptions. -/
inductive Err where
  | index
  | os
  deriving DecidableEq, Repr

/-- A call of a logger: level, first argument, further arguments (as `str` shows them), the traceback of `logger.exception`, and where
and when it was made. -/
structure Record where
  level : Nat
  msg : Str
  args : List Str := []
  exc : Option Str := none
  place : Str := []
  line : Nat := 0
  time : Str := []
  deriving DecidableEq

/-- `msg % args`; `none` if it raises. -/
def interp : Str → List Str → Option Str
  | [], [] => some []
  | [], _ :: _ => none
  | '%' :: 's' :: rest, a :: as => (interp rest as).map (a ++ ·)
  | '%' :: '%' :: rest, as => (interp rest as).map ('%' :: ·)
  | c :: rest, as => if c = '%' then none else (interp rest as).map (c :: ·)

/-- `record.getMessage()` of the standard library: the arguments are filled in if there are any. -/
def message (r : Record) : Option Str := if r.args = [] then some r.msg else interp r.msg r.args

/-- The end of `logging.Formatter.format`: a traceback follows on a new line. -/
def withExc (r : Record) (s : Str) : Str :=
  match r.exc with
  | none => s
  | some e => (if s.getLast? = some '\n' then s else s ++ ['\n']) ++ e

/-- The formats that `DefaultFormatter.format` chooses, `logging.py:43-46, 49 and 77-87`: all of them show `record.msg`. -/
def consoleText (r : Record) : Str :=
  if r.level = 10 then "DEBUG: ".toList ++ r.place ++ ": ".toList ++ natStr r.line ++ ": ".toList ++ r.msg
  else if r.level = 30 then "WARNING: ".toList ++ r.msg
  else if r.level = 20 then r.msg
  else if r.level = 40 then "ERROR: ".toList ++ r.msg
  else natStr r.level ++ ": ".toList ++ r.msg

/-- `DefaultFormatter.format(record)`, `logging.py:55-91`.  The standard library computes the message first, also if the format does
not show it; if that raises, the handler writes nothing. -/
def consoleLine (r : Record) : Option Str := (message r).map (fun _ => withExc r (consoleText r))

/-- `logging.getLevelName`. -/
def levelName (n : Nat) : Str :=
  if n = 10 then "DEBUG".toList else if n = 20 then "INFO".toList else if n = 30 then "WARNING".toList
  else if n = 40 then "ERROR".toList else if n = 50 then "CRITICAL".toList else "Level ".toList ++ natStr n

/-- The format of log files, `logging.py:126-127 and 156-157`. -/
def fileLine (r : Record) : Option Str :=
  (message r).map (fun m => withExc r (r.time ++ " [".toList ++ levelName r.level ++ "]: ".toList ++ m))

/-- Where a handler writes: the console, an open file, or a handler added by the user (with its number). -/
inductive Sink where
  | console
  | file (inode : Nat)
  | user (n : Nat)
  deriving DecidableEq, Repr

/-- A handler. -/
structure Handler where
  level : Nat
  sink : Sink
  deriving DecidableEq, Repr

/-- The logger and the world: level and handlers of the logger, entries of the file system, contents of files, lines on the
console, records that handlers of the user got. -/
structure St where
  level : Nat
  handlers : List Handler
  entries : Dict Str Nat
  inodes : List (List Str)
  console : List Str
  users : List (Nat × Record)
  deriving DecidableEq

/-- `open(path, 'a')` by `logging.FileHandler(path)`, with the number of the file. -/
def openFile (path : Str) (st : St) : St × Nat :=
  match st.entries.get? path with
  | some i => (st, i)
  | none => ({ st with entries := st.entries.set path st.inodes.length, inodes := st.inodes ++ [[]] }, st.inodes.length)

/-- `create_file_handler(log_fname)`, `logging.py:142-160`. -/
def createFileHandler (path : Str) (st : St) : St × Handler :=
  ((openFile path st).1, ⟨30, .file (openFile path st).2⟩)

/-- The log file, `logging.py:118-125`: `~/tmp/nephosem.log`. -/
def logPath (home : Str) : Str := home ++ "/tmp/nephosem.log".toList

/-- `init_logging()`, `logging.py:94-139`. -/
def initLogging (home : Str) (st : St) : St :=
  { (createFileHandler (logPath home) st).1 with
    level := 20, handlers := [⟨10, .console⟩, (createFileHandler (logPath home) st).2] }

/-- A line is appended to an open file. -/
def append (inodes : List (List Str)) (i : Nat) : Option Str → List (List Str)
  | none => inodes
  | some l => inodes.modify i (· ++ [l])

/-- One handler gets a record. -/
def handle (r : Record) (st : St) (h : Handler) : St :=
  if h.level ≤ r.level then
    match h.sink with
    | .console => { st with console := st.console ++ (consoleLine r).toList }
    | .file i => { st with inodes := append st.inodes i (fileLine r) }
    | .user n => { st with users := st.users ++ [(n, r)] }
  else st

/-- A call of a logger of the package: the level of the logger, then the handlers in order. -/
def emit (st : St) (r : Record) : St := if st.level ≤ r.level then st.handlers.foldl (handle r) st else st

/-- The path lies in `~/tmp`. -/
def inTmp (home path : Str) : Bool := (home ++ "/tmp/".toList).isPrefixOf path

/-- `clean_dir('~/tmp')`, `utils.py:93-105`. -/
def cleanTmp (home : Str) (st : St) : St :=
  { st with entries := st.entries.filter (fun e => !inTmp home e.1) }

/-- A handler of the corpus is constructed: `~/tmp` is emptied (`handler.py:91-94`), then warnings about the settings are logged
(`handler.py:248-265`). -/
def constructHandler (home : Str) (warnings : List Record) (st : St) : St := warnings.foldl emit (cleanTmp home st)

/-- `change_log_file(logger, fname)`, `logging.py:163-182`; `opens` tells whether the file can be opened.  The last handler is removed
before the file is opened. -/
def changeLogFile (path : Str) (opens : Bool) (st : St) : St × Option Err :=
  match st.handlers with
  | [] => (st, some .index)
  | h :: hs =>
    if opens then
      ({ (createFileHandler path st).1 with handlers := (h :: hs).dropLast ++ [(createFileHandler path st).2] }, none)
    else ({ st with handlers := (h :: hs).dropLast }, some .os)

/-- What can happen after the package is imported. -/
inductive Event where
  | log (r : Record)
  | construct (warnings : List Record)
  | change (path : Str) (opens : Bool := true)
  | setLevel (n : Nat)
  | addHandler (h : Nat)
  deriving DecidableEq

/-- One event.  Exceptions of `change_log_file` are caught by the user. -/
def step (home : Str) (st : St) : Event → St
  | .log r => emit st r
  | .construct ws => constructHandler home ws st
  | .change p opens => (changeLogFile p opens st).1
  | .setLevel n => { st with level := n }
  | .addHandler h => { st with handlers := st.handlers ++ [⟨10, .user h⟩] }

/-- A history. -/
def run (home : Str) (es : List Event) (st : St) : St := es.foldl (step home) st

/-- The lines of a file, if there is one under this path. -/
def read (st : St) (path : Str) : Option (List Str) :=
  match st.entries.get? path with
  | none => none
  | some i => st.inodes[i]?

end Verif.Setup.Log
