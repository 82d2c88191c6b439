import Mathlib.Algebra.BigOperators.Group.List.Basic

/-!
# Model of the multi-process job engine: `nephosem/core/handler.py` (`Paralleler`) with the worker loops of
`nephosem/models/typetoken.py` and `nephosem/models/deprel.py`

One parent puts all file names and then one stop marker (`None`) per worker into a FIFO job queue; workers get
jobs, process them, and put results into a FIFO result queue; the parent joins the workers and then reads
results.  A run is any sequence of the atomic actions below, so a theorem about all runs is a theorem about all
interleavings.  Workers may crash at any moment (an exception in a worker, such as an unreadable file, is a
crash too).
-/

namespace Verif.Engine

/-- What distinguishes the worker loops of the handlers: the worker's local state when it starts, the effect of
one job on it with the results put, and the results put after the loop is left. -/
structure Prog (J A R : Type) where
  init : A
  onJob : A → J → A × List R
  onStop : A → List R

/-- Where a worker process is in its loop (`while True: job = job_queue.get(); ...`). -/
inductive WState (J A : Type) where
  | idle (a : A)           -- about to call `job_queue.get()`
  | busy (a : A) (j : J)   -- holds job `j`, its result not yet put
  | stopping (a : A)       -- got `None`, left the loop, final put not yet done
  | done (a : A)           -- exited normally with local state `a`
  | crashed                -- died
  deriving DecidableEq, Repr

/-- State of a call of `Paralleler.process`: `/repo/nephosem/core/handler.py:109-154`. -/
structure State (J A R : Type) where
  pending : List (Option J)       -- what the parent has still to put into the job queue
  queue : List (Option J)         -- job queue, next first
  workers : List (WState J A)
  results : List R                -- result queue, oldest first
  deriving DecidableEq, Repr

inductive Action where
  | produce            -- the parent puts the next job or marker
  | take (i : Nat)     -- worker i gets from the job queue
  | work (i : Nat)     -- worker i finishes its job (or its final part) and puts the results
  | crash (i : Nat)    -- worker i dies
  deriving DecidableEq, Repr

variable {J A R : Type}

/-- Start of `process`: `self.workers` workers started (`handler.py:129-143`), producer about to put all files
and then one `None` per worker (`handler.py:146`, `156-177`).  Workers are forked, so each starts from the same
copy of the handler. -/
def start (p : Prog J A R) (W : Nat) (files : List J) : State J A R :=
  { pending := files.map some ++ List.replicate W none
    queue := []
    workers := List.replicate W (.idle p.init)
    results := [] }

/-- One atomic action; `none` if it is not enabled.  `produce`: `handler.py:168-176`.  `take`, `work`: the loop
body of a worker, `/repo/nephosem/models/typetoken.py:116-122`, `242-285`, `295-331`, `548-561`,
`/repo/nephosem/models/deprel.py:181-190`.  Simplified: a job's processing and its one put are one action (a
crash between them is the same as a crash while busy). -/
def step (p : Prog J A R) : Action → State J A R → Option (State J A R)
  | .produce, s =>
    match s.pending with
    | x :: rest => some { s with pending := rest, queue := s.queue ++ [x] }
    | [] => none
  | .take i, s =>
    match s.workers[i]?, s.queue with
    | some (.idle a), some j :: q => some { s with queue := q, workers := s.workers.set i (.busy a j) }
    | some (.idle a), none :: q => some { s with queue := q, workers := s.workers.set i (.stopping a) }
    | _, _ => none
  | .work i, s =>
    match s.workers[i]? with
    | some (.busy a j) =>
      some { s with workers := s.workers.set i (.idle (p.onJob a j).1)
                    results := s.results ++ (p.onJob a j).2 }
    | some (.stopping a) =>
      some { s with workers := s.workers.set i (.done a), results := s.results ++ p.onStop a }
    | _ => none
  | .crash i, s =>
    match s.workers[i]? with
    | some (.idle _) => some { s with workers := s.workers.set i .crashed }
    | some (.busy _ _) => some { s with workers := s.workers.set i .crashed }
    | some (.stopping _) => some { s with workers := s.workers.set i .crashed }
    | _ => none

/-- A run: a sequence of enabled actions. -/
def exec (p : Prog J A R) : List Action → State J A R → Option (State J A R)
  | [], s => some s
  | a :: as, s => (step p a s).bind (exec p as)

/-- All jobs produced and every `worker.join()` returned: `handler.py:146-149`. -/
def Joined (s : State J A R) : Prop :=
  s.pending = [] ∧ ∀ w ∈ s.workers, (∃ a, w = .done a) ∨ w = .crashed

/-- The parent reads `n` results with blocking `get()`s (`for _ in trange(n): res = res_queue.get()`):
`/repo/nephosem/models/typetoken.py:173-174`, `647-648`, `/repo/nephosem/models/deprel.py:271-272`.  `none`: it
blocks forever, since nobody puts any more once the workers are joined. -/
def readN (n : Nat) (s : State J A R) : Option (List R) :=
  if n ≤ s.results.length then some (s.results.take n) else none

/-- The parent reads `res_queue.qsize()` results: `/repo/nephosem/models/typetoken.py:452-453`. -/
def readAll (s : State J A R) : List R := s.results

/-! ### Observations of a run -/

/-- The job whose processing an action completes, if any. -/
def completes (a : Action) (s : State J A R) : List J :=
  match a with
  | .work i => (match s.workers[i]? with | some (.busy _ j) => [j] | _ => [])
  | _ => []

/-- Jobs whose processing was completed (result put) during a run, in order. -/
def finished (p : Prog J A R) : List Action → State J A R → List J
  | [], _ => []
  | a :: as, s => completes a s ++ (match step p a s with | some s' => finished p as s' | none => [])

/-- The job worker `i` gets by an action, if any. -/
def gets (i : Nat) (a : Action) (s : State J A R) : List J :=
  if a = .take i then (match s.queue with | some j :: _ => [j] | _ => []) else []

/-- Jobs worker `i` got from the queue during a run, in order. -/
def received (p : Prog J A R) (i : Nat) : List Action → State J A R → List J
  | [], _ => []
  | a :: as, s => gets i a s ++ (match step p a s with | some s' => received p i as s' | none => [])

/-- Does worker `i` get a stop marker by an action? -/
def getsStop (i : Nat) (a : Action) (s : State J A R) : Nat :=
  if a = .take i then (match s.queue with | none :: _ => 1 | _ => 0) else 0

/-- Number of stop markers worker `i` got during a run. -/
def stops (p : Prog J A R) (i : Nat) : List Action → State J A R → Nat
  | [], _ => 0
  | a :: as, s =>
    getsStop i a s + (match step p a s with | some s' => stops p i as s' | none => 0)

/-- Jobs in the hands of workers. -/
def held (s : State J A R) : List J :=
  s.workers.filterMap (fun w => match w with | .busy _ j => some j | _ => none)

/-- Jobs (not markers) in a queue. -/
def jobs (q : List (Option J)) : List J := q.filterMap id

/-- A run without worker deaths. -/
def CrashFree (as : List Action) : Prop := ∀ i, Action.crash i ∉ as

/-- A run that nobody but a crash could continue. -/
def Maximal (p : Prog J A R) (s : State J A R) : Prop :=
  ∀ a, (∀ i, a ≠ .crash i) → step p a s = none

/-! ### The handlers -/

/-- `ItemFreqHandler._worker_loop` (`typetoken.py:107-124`) and `DepRelHandler._worker_loop`
(`deprel.py:172-192`): every job's tally is put as one result; nothing is put at the end. -/
def perJob {J R : Type} (f : J → R) : Prog J Unit R :=
  { init := (), onJob := fun _ j => ((), [f j]), onStop := fun _ => [] }

/-- `ColFreqHandler._worker_loop_*` (`typetoken.py:228-334`): accumulate, put once at the end. `emit` is the
final part (lines 271-287 with, 319-334 without a column vocabulary). -/
def accumulate {J A R : Type} (a0 : A) (upd : A → J → A) (emit : A → List R) : Prog J A R :=
  { init := a0, onJob := fun a j => (upd a j, []), onStop := emit }

/-- What `TokenHandler` workers put: `-1` or the `type2toks` dict. -/
inductive TokRes (T : Type) where
  | minus1
  | toks (t : T)
  deriving DecidableEq, Repr

/-- `TokenHandler._worker_loop` (`typetoken.py:538-562`): `-1` after each job but the first, the dict at the
end.  The local state is the flag `first` with the accumulated dict. -/
def tokenProg {J T : Type} (t0 : T) (upd : T → J → T) : Prog J (Bool × T) (TokRes T) :=
  { init := (true, t0)
    onJob := fun a j => ((false, upd a.2 j), if a.1 then [] else [.minus1])
    onStop := fun a => [.toks a.2] }

/-- `TypeNode.merge` of what the workers collected for one query type, `typetoken.py:647-656` and
`/repo/nephosem/core/terms.py:265-284`: token lists are concatenated.  A `type2toks` dict (its keys are the
queries, the same in every worker) is a function from query types to token lists. -/
def mergeToks {κ Tok : Type} (rs : List (TokRes (κ → List Tok))) (k : κ) : List Tok :=
  (rs.filterMap (fun r => match r with | .toks t => some (t k) | .minus1 => none)).flatten

/-- What a `DepRelHandler` worker puts for one file: a deep copy of the handler's macros, which carry the matches
`acc` accumulated by earlier calls, extended by the matches of the file: `/repo/nephosem/models/deprel.py:194-216`.
A macro list is indexed by `ι`; the matches of a sentence are a parameter here (`found`). -/
def depFile {J ι Mt : Type} (found : J → ι → List Mt) (acc : ι → List Mt) (j : J) : ι → List Mt :=
  fun m => acc m ++ found j m

/-- `DepRelHandler._process_results`: the handler's own macros are extended by the matches of every result:
`/repo/nephosem/models/deprel.py:269-276`. -/
def depMerge {ι Mt : Type} (acc : ι → List Mt) (rs : List (ι → List Mt)) : ι → List Mt :=
  rs.foldl (fun acc r => fun m => acc m ++ r m) acc

/-- One `build_dependency` call on a handler whose macros hold the matches `acc`: some run of the engine without
worker deaths, after which the parent reads `len(fnames)` results; the macros then hold `acc'`:
`/repo/nephosem/models/deprel.py:105-145`. -/
def DepCall {J ι Mt : Type} (found : J → ι → List Mt) (W : Nat) (files : List J) (acc acc' : ι → List Mt) : Prop :=
  ∃ as s rs, CrashFree as ∧ exec (perJob (depFile found acc)) as (start (perJob (depFile found acc)) W files) = some s ∧
    Joined s ∧ readN files.length s = some rs ∧ acc' = depMerge acc rs

/-- `k` calls in a row on a fresh handler (macros without matches, `read_templates`, `deprel.py:95-101`), with the
same files. -/
inductive DepCalls {J ι Mt : Type} (found : J → ι → List Mt) (W : Nat) (files : List J) : Nat → (ι → List Mt) → Prop
  | zero : DepCalls found W files 0 (fun _ => [])
  | succ {k acc acc'} : DepCalls found W files k acc → DepCall found W files acc acc' →
      DepCalls found W files (k + 1) acc'

/-- The entry (target, feature) of the matrix built from the matches: `build_matrix_by_matches`,
`/repo/nephosem/models/deprel.py:147-163`: one is added for every match of every macro.  The pair of strings read
off a match (`macro.target`, `macro.feature`) is a parameter. -/
def depEntry {ι Mt κ : Type} [DecidableEq κ] (macros : List ι) (strings : ι → Mt → κ × κ) (acc : ι → List Mt)
    (t f : κ) : Nat :=
  (macros.map (fun m => ((acc m).map (fun x => if strings m x = (t, f) then 1 else 0)).sum)).sum

/-- Number of worker processes: `/repo/nephosem/core/handler.py:88`. -/
def workerCount (workers cpus : Int) : Int := if 0 < workers ∧ workers < cpus then workers else cpus - 1

end Verif.Engine
