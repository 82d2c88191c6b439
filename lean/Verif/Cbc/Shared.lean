import Verif.Cbc.Step1

/-!
# Several clusterings on one machine (`nephosem/models/cbc.py` 290-387, `nephosem/utils.py` 86-105)

The multicore version of step 1 hands its matrix to the pool processes through a directory below the home directory that is named
after the time *to the minute*, and the processes hand their clusters back through files there.  This file models any number of such
runs (of one or of several programs of the same user) as a transition system: the events of the runs happen one after the other, in any order.

Simplified: the matrix is one file (and not two), and an event is not interrupted by another one; the outcome is the list in the order of the
files' creation (the order of `os.listdir` is not specified; the claims are about the list up to order).
-/

namespace Verif.Cbc

open Verif.Py

variable {M E C : Type} [DecidableEq E]

/-- One call of `cbc_step1_multicore`: the minute it starts in, its elements, its distance matrix, and `cpu_count() - 1`. -/
structure Run (M E : Type) where
  stamp : String
  elements : List E
  mtx : M
  nc : Nat

/-- The directory `~/.cbc/<minute>`: the matrix, and the files in its folder `L` by process. -/
structure TmpDir (M C : Type) where
  mtx : Option M
  lists : Dict Nat (List C)

/-- The directories by minute, and what the runs that are over have returned (or raised). -/
structure Sys (M C : Type) where
  dirs : String → Option (TmpDir M C)
  out : Nat → Option (Except Err (List C))

/-- What a run does: make the directory and empty it; store the matrix; a pool process works on one group; collect the results;
remove the directory. -/
inductive Ev where
  | start (r : Nat)
  | store (r : Nat)
  | task (r pid idx : Nat)
  | merge (r : Nat)
  | remove (r : Nat)
deriving DecidableEq

/-- The run of an event. -/
def Ev.run : Ev → Nat
  | .start r => r
  | .store r => r
  | .task r _ _ => r
  | .merge r => r
  | .remove r => r

/-- The directory of a minute becomes `d`. -/
def Sys.setDir (s : Sys M C) (stamp : String) (d : Option (TmpDir M C)) : Sys M C :=
  { s with dirs := fun q => if q = stamp then d else s.dirs q }

/-- Run `r` is over. -/
def Sys.setOut (s : Sys M C) (r : Nat) (o : Except Err (List C)) : Sys M C :=
  { s with out := fun q => if q = r then some o else s.out q }

/-- One event.  A run that is over does nothing any more (its directory may still be removed).
`start`: cbc.py 300-305, `make_dir` and `clean_dir` (utils.py 86-105): whatever is in the directory goes.
`store`: cbc.py 306-307; without the directory an exception.
`task`: cbc.py 350-387, in process `pid` with the group `idx`; without the matrix nothing is written (358-360), without the directory the
matrix cannot be loaded either.
`merge`: cbc.py 332-340; without the directory `os.listdir` raises an exception.
`remove`: cbc.py 341-346; exceptions are caught: without the matrix nothing happens, and a folder with files in it stays. -/
def Sys.step (cluster : M → E → Except Err (List C)) (runs : Nat → Run M E) (s : Sys M C) (e : Ev) : Sys M C :=
  let stamp := (runs e.run).stamp
  match e, s.out e.run, s.dirs stamp with
  | .start _, none, _ => s.setDir stamp (some ⟨none, []⟩)
  | .store r, none, some d => s.setDir stamp (some ⟨some (runs r).mtx, d.lists⟩)
  | .store r, none, none => s.setOut r (.error .value)
  | .task r pid idx, none, some ⟨some m, lists⟩ =>
    s.setDir stamp (some ⟨some m, lists.set pid ((dataGroup (runs r).nc (runs r).elements idx).flatMap (clustersOf (cluster m)))⟩)
  | .merge r, none, some d => (s.setDir stamp (some ⟨d.mtx, []⟩)).setOut r (.ok (d.lists.flatMap Prod.snd))
  | .merge r, none, none => s.setOut r (.error .value)
  | .remove _, some _, some ⟨some _, lists⟩ => s.setDir stamp (if lists = [] then none else some ⟨none, lists⟩)
  | _, _, _ => s

/-- The events one after the other. -/
def Sys.steps (cluster : M → E → Except Err (List C)) (runs : Nat → Run M E) (s : Sys M C) (evs : List Ev) : Sys M C :=
  evs.foldl (Sys.step cluster runs) s

end Verif.Cbc
