/-!
# The threads of the older manager: `DepRelManager.process`, `/repo/nephosem/deprel/dephandler.py:83-141`

One thread puts the file names and then one `None` per worker into a bounded queue, the workers take from it.  The threads are
interleaved in any way.  `queue.Queue` is trusted to be a first-in first-out queue whose `put` waits while it holds `maxsize`
entries, if `maxsize` is positive, and whose `get` waits while it is empty.  An exception that leaves the target of a thread ends
that thread only.  What `_do_process_job` does to a file is the parameter `job`: it returns (`true`) or raises (`false`).

Left out: the count of jobs for the log message, the working memory (the number `1.0`), interruption by the end of the program.
-/

namespace Verif.Dep.Threads

/-- A worker thread: `dephandler.py:113-126`.  It waits at line 117, is inside the call of line 122, has left the loop at
line 119, or was ended by an exception of the call with that file. -/
inductive Thread (J : Type) where
  | idle
  | busy (j : J)
  | exited
  | died (j : J)
  deriving DecidableEq, Repr

/-- The threads and the queue.  `todo`, `stops`: the entries that the producer still has to put, `dephandler.py:130-134`.
`started`: the files that were taken from the queue, in this order; `done`: those whose processing ended without exception. -/
structure St (J : Type) where
  todo : List J
  stops : Nat
  queue : List (Option J)
  threads : List (Thread J)
  started : List J
  done : List J
  deriving DecidableEq, Repr

/-- All threads have been started: `dephandler.py:92-109`. -/
def start {J : Type} (W : Nat) (files : List J) : St J := ⟨files, W, [], List.replicate W .idle, [], []⟩

/-- `Queue(maxsize=queue_factor * self.workers)`: `dephandler.py:92`. -/
def capacity (factor : Int) (W : Nat) : Int := factor * W

/-- `put` does not wait. -/
def room {J : Type} (cap : Int) (q : List (Option J)) : Bool := decide (cap ≤ 0 ∨ (q.length : Int) < cap)

/-- What happens next: the producer puts an entry, worker `i` takes one, the call made by worker `i` ends. -/
inductive Act where
  | put
  | get (i : Nat)
  | finish (i : Nat)
  deriving DecidableEq, Repr

variable {J : Type}

/-- The producer: `dephandler.py:128-134`. -/
def stepPut (cap : Int) (s : St J) : Option (St J) :=
  if room cap s.queue then
    match s.todo, s.stops with
    | j :: t, _ => some { s with todo := t, queue := s.queue ++ [some j] }
    | [], n + 1 => some { s with stops := n, queue := s.queue ++ [none] }
    | [], 0 => none
  else none

/-- A worker at `job_queue.get()`: `dephandler.py:117-120`. -/
def stepGet (i : Nat) (s : St J) : Option (St J) :=
  match s.threads[i]?, s.queue with
  | some .idle, some j :: q =>
    some { s with queue := q, threads := s.threads.set i (.busy j), started := s.started ++ [j] }
  | some .idle, none :: q => some { s with queue := q, threads := s.threads.set i .exited }
  | _, _ => none

/-- The end of `self._do_process_job(...)`: `dephandler.py:122-124`. -/
def stepFinish (job : J → Bool) (i : Nat) (s : St J) : Option (St J) :=
  match s.threads[i]? with
  | some (.busy j) =>
    if job j then some { s with threads := s.threads.set i .idle, done := s.done ++ [j] }
    else some { s with threads := s.threads.set i (.died j) }
  | _ => none

/-- One step. -/
def step (job : J → Bool) (cap : Int) (s : St J) : Act → Option (St J)
  | .put => stepPut cap s
  | .get i => stepGet i s
  | .finish i => stepFinish job i s

/-- A schedule. -/
def exec (job : J → Bool) (cap : Int) : List Act → St J → Option (St J)
  | [], s => some s
  | a :: as, s => match step job cap s a with
    | some s' => exec job cap as s'
    | none => none

/-- Nothing can happen any more. -/
def Stuck (job : J → Bool) (cap : Int) (s : St J) : Prop := ∀ a, step job cap s a = none

/-- `process`: `dephandler.py:83-111`.  It starts the threads and returns without waiting for them, so that it may return in any
state the threads can reach. -/
def Returns (job : J → Bool) (factor : Int) (W : Nat) (files : List J) (s : St J) : Prop :=
  ∃ as, exec job (capacity factor W) as (start W files) = some s

/-- `_do_process_job` as it is: the module neither defines nor imports `update_dep_rel`, `dephandler.py:138`. -/
def realJob (_ : J) : Bool := false

end Verif.Dep.Threads
