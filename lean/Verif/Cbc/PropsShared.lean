import Verif.Cbc.Shared
import Verif.Cbc.PropsStep1

/-!
# C247: clusterings that run at the same time
-/

set_option linter.unusedSectionVars false

namespace Verif.Cbc

open Verif.Py

variable {M E C : Type} [DecidableEq E]

/-! ## Specification -/

/-- What a run on its own does until it has its result. -/
def ownEvents (r : Nat) (tasks : List (Nat × Nat)) : List Ev :=
  .start r :: .store r :: (tasks.map (fun t => .task r t.1 t.2) ++ [.merge r])

/-- The tasks are those that the run hands to its pool, each of which is run once and in a process of its own. -/
def Proper (nc : Nat) (tasks : List (Nat × Nat)) : Prop :=
  nc ≠ 0 ∧ (tasks.map Prod.snd).Perm (List.range nc) ∧ (tasks.map Prod.fst).Nodup

/-! ## Auxiliary -/

theorem step_other (cluster : M → E → Except Err (List C)) (runs : Nat → Run M E) (s : Sys M C) (e : Ev) (r : Nat)
    (hr : e.run ≠ r) : (s.step cluster runs e).out r = s.out r ∧
      ((runs e.run).stamp ≠ (runs r).stamp → (s.step cluster runs e).dirs (runs r).stamp = s.dirs (runs r).stamp) := by
  unfold Sys.step
  simp only
  split <;> simp_all [Sys.setDir, Sys.setOut, Ev.run, eq_comm]

theorem step_congr (cluster : M → E → Except Err (List C)) (runs : Nat → Run M E) (s s' : Sys M C) (e : Ev)
    (h1 : s.out e.run = s'.out e.run) (h2 : s.dirs (runs e.run).stamp = s'.dirs (runs e.run).stamp) :
    (s.step cluster runs e).out e.run = (s'.step cluster runs e).out e.run ∧
    (s.step cluster runs e).dirs (runs e.run).stamp = (s'.step cluster runs e).dirs (runs e.run).stamp := by
  unfold Sys.step
  simp only [h1, h2]
  split <;> simp_all [Sys.setDir, Sys.setOut, Ev.run]

/-- Runs of other minutes make no difference. -/
theorem steps_project (cluster : M → E → Except Err (List C)) (runs : Nat → Run M E) (r : Nat) : ∀ (evs : List Ev) (s s' : Sys M C),
    s.out r = s'.out r → s.dirs (runs r).stamp = s'.dirs (runs r).stamp →
    (∀ e ∈ evs, e.run ≠ r → (runs e.run).stamp ≠ (runs r).stamp) →
    (s.steps cluster runs evs).out r = (s'.steps cluster runs (evs.filter (fun e => decide (e.run = r)))).out r ∧
    (s.steps cluster runs evs).dirs (runs r).stamp = (s'.steps cluster runs (evs.filter (fun e => decide (e.run = r)))).dirs (runs r).stamp
  | [], s, s', h1, h2, _ => ⟨h1, h2⟩
  | e :: evs, s, s', h1, h2, h => by
    have ih := steps_project cluster runs r evs
    by_cases he : e.run = r
    · rw [List.filter_cons_of_pos (by simpa using he)]
      have hc := step_congr cluster runs s s' e (by rw [he]; exact h1) (by rw [he]; exact h2)
      rw [he] at hc
      exact ih _ _ hc.1 hc.2 (fun e' hm => h e' (List.mem_cons_of_mem _ hm))
    · rw [List.filter_cons_of_neg (by simpa using he)]
      have hs := step_other cluster runs s e r he
      exact ih _ _ (hs.1.trans h1) ((hs.2 (h e (by simp) he)).trans h2) (fun e' hm => h e' (List.mem_cons_of_mem _ hm))

/-- What a run has returned stays. -/
theorem out_stays (cluster : M → E → Except Err (List C)) (runs : Nat → Run M E) (r : Nat) (o : Except Err (List C)) :
    ∀ (evs : List Ev) (s : Sys M C), s.out r = some o → (s.steps cluster runs evs).out r = some o
  | [], s, h => h
  | e :: evs, s, h => by
    refine out_stays cluster runs r o evs _ ?_
    by_cases he : e.run = r
    · rw [← he] at h ⊢
      unfold Sys.step
      simp only [h]
      split <;> simp_all [Sys.setDir, Ev.run]
    · rw [(step_other cluster runs s e r he).1, h]

/-- The tasks of a run that has stored its matrix. -/
theorem tasks_run (cluster : M → E → Except Err (List C)) (runs : Nat → Run M E) (r : Nat) (m : M) : ∀ (tasks : List (Nat × Nat)) (s : Sys M C)
    (lists : Dict Nat (List C)), s.out r = none → s.dirs (runs r).stamp = some ⟨some m, lists⟩ →
    (s.steps cluster runs (tasks.map (fun t => .task r t.1 t.2))).out r = none ∧
    (s.steps cluster runs (tasks.map (fun t => .task r t.1 t.2))).dirs (runs r).stamp =
      some ⟨some m, tasks.foldl (runTask (cluster m) (fun _ => true) (runs r).nc (runs r).elements) lists⟩
  | [], s, lists, h1, h2 => ⟨h1, h2⟩
  | t :: tasks, s, lists, h1, h2 => by
    refine tasks_run cluster runs r m tasks _ _ ?_ ?_
    · simp [Sys.step, Ev.run, h1, h2, Sys.setDir]
    · simp [Sys.step, Ev.run, h1, h2, Sys.setDir, runTask]

theorem flatMap_snd_keys (d : Dict Nat (List C)) (hwf : Dict.WF d) :
    (Dict.keys d).flatMap (fun pid => (Dict.get? d pid).getD []) = d.flatMap Prod.snd := by
  unfold Dict.keys
  rw [List.flatMap_map]
  refine List.flatMap_congr (fun p hp => ?_)
  rw [Dict.get?_of_mem (v := p.2) hwf hp]
  rfl

theorem own_result (cluster : M → E → Except Err (List C)) (runs : Nat → Run M E) (r : Nat) (tasks : List (Nat × Nat))
    (hp : Proper (runs r).nc tasks) (s : Sys M C) (h : s.out r = none) :
    ∃ L, (s.steps cluster runs (ownEvents r tasks)).out r = some (.ok L) ∧
      L.Perm (step1Single (cluster (runs r).mtx) (runs r).elements) := by
  obtain ⟨hnc, hruns, hpids⟩ := hp
  obtain ⟨L, h1, h2⟩ := C46_partial (cluster (runs r).mtx) (runs r).nc hnc (runs r).elements tasks id (fun _ => .refl _) hruns hpids
  unfold step1Multicore at h1
  rw [if_neg hnc] at h1
  have h1 := Except.ok.inj h1
  simp only [id_eq] at h1
  rw [flatMap_snd_keys _ (files_WF _ _ _ _ _)] at h1
  refine ⟨L, ?_, h2⟩
  unfold ownEvents
  have e : ∀ (s : Sys M C) (a b : List Ev), s.steps cluster runs (a ++ b) = (s.steps cluster runs a).steps cluster runs b :=
    fun s a b => List.foldl_append
  have c : ∀ (s : Sys M C) (a : Ev) (b : List Ev), s.steps cluster runs (a :: b) = (s.step cluster runs a).steps cluster runs b :=
    fun s a b => rfl
  rw [c, c, e]
  have hs1 : (s.step cluster runs (.start r)).out r = none ∧
      (s.step cluster runs (.start r)).dirs (runs r).stamp = some ⟨none, []⟩ := by
    simp [Sys.step, Ev.run, h, Sys.setDir]
  generalize s.step cluster runs (.start r) = s1 at hs1
  have hs2 : (s1.step cluster runs (.store r)).out r = none ∧
      (s1.step cluster runs (.store r)).dirs (runs r).stamp = some ⟨some (runs r).mtx, []⟩ := by
    simp [Sys.step, Ev.run, hs1.1, hs1.2, Sys.setDir]
  generalize s1.step cluster runs (.store r) = s2 at hs2
  have hs3 := tasks_run cluster runs r (runs r).mtx tasks s2 [] hs2.1 hs2.2
  generalize s2.steps cluster runs (tasks.map (fun t => .task r t.1 t.2)) = s3 at hs3
  rw [c]
  simp [Sys.steps, Sys.step, Ev.run, hs3.1, hs3.2, Sys.setOut, Sys.setDir, h1]

/-! ## C247 -/

/-- C247, in part: a run returns the clusters of its elements as the single-core version finds them, up to order, whatever is left in the
directories and whatever other runs do, as long as no other run of the same minute does anything between its start and its end.
Missing: runs that start within the same minute (`C247_emptied`, `C247_false`), and the cases where the run fails also on its own (see C46). -/
theorem C247_partial (cluster : M → E → Except Err (List C)) (runs : Nat → Run M E) (r : Nat) (tasks : List (Nat × Nat))
    (hp : Proper (runs r).nc tasks) (s : Sys M C) (h : s.out r = none) (before during after : List Ev)
    (hbefore : ∀ e ∈ before, e.run ≠ r) (hown : during.filter (fun e => decide (e.run = r)) = ownEvents r tasks)
    (hduring : ∀ e ∈ during, e.run ≠ r → (runs e.run).stamp ≠ (runs r).stamp) :
    ∃ L, (s.steps cluster runs (before ++ during ++ after)).out r = some (.ok L) ∧
      L.Perm (step1Single (cluster (runs r).mtx) (runs r).elements) := by
  have e : ∀ (s : Sys M C) (a b : List Ev), s.steps cluster runs (a ++ b) = (s.steps cluster runs a).steps cluster runs b :=
    fun s a b => List.foldl_append
  rw [e, e]
  have hb : ∀ (before : List Ev) (s : Sys M C), (∀ e ∈ before, e.run ≠ r) → s.out r = none →
      (s.steps cluster runs before).out r = none := by
    intro before
    induction before with
    | nil => exact fun _ _ h => h
    | cons x before ih =>
      intro s hx hs
      exact ih _ (fun y hy => hx y (List.mem_cons_of_mem _ hy)) ((step_other cluster runs s x r (hx x (by simp))).1.trans hs)
  have hs0 := hb before s hbefore h
  generalize s.steps cluster runs before = s0 at hs0
  have hproj := steps_project cluster runs r during s0 s0 rfl rfl hduring
  rw [hown] at hproj
  obtain ⟨L, h1, h2⟩ := own_result cluster runs r tasks hp s0 hs0
  exact ⟨L, out_stays cluster runs r _ after _ (hproj.1.trans h1), h2⟩

/-- C247 is false, in every case of this kind: if another run of the same minute starts after the matrix was stored and before the pool
processes read it, then the run returns no clusters at all, without an exception. -/
theorem C247_emptied (cluster : M → E → Except Err (List C)) (runs : Nat → Run M E) (r r' : Nat) (tasks : List (Nat × Nat))
    (hst : (runs r').stamp = (runs r).stamp) (s : Sys M C) (h : s.out r = none) (h' : s.out r' = none) :
    (s.steps cluster runs (.start r :: .store r :: .start r' :: (tasks.map (fun t => .task r t.1 t.2) ++ [.merge r]))).out r
      = some (.ok []) := by
  have e : ∀ (s : Sys M C) (a b : List Ev), s.steps cluster runs (a ++ b) = (s.steps cluster runs a).steps cluster runs b :=
    fun s a b => List.foldl_append
  have c : ∀ (s : Sys M C) (a : Ev) (b : List Ev), s.steps cluster runs (a :: b) = (s.step cluster runs a).steps cluster runs b :=
    fun s a b => rfl
  rw [c, c, c, e]
  have hs1 : (s.step cluster runs (.start r)).out r = none ∧ (s.step cluster runs (.start r)).out r' = none ∧
      (s.step cluster runs (.start r)).dirs (runs r).stamp = some ⟨none, []⟩ := by
    simp [Sys.step, Ev.run, h, h', Sys.setDir]
  generalize s.step cluster runs (.start r) = s1 at hs1
  have hs2 : (s1.step cluster runs (.store r)).out r = none ∧ (s1.step cluster runs (.store r)).out r' = none := by
    simp [Sys.step, Ev.run, hs1.1, hs1.2.1, hs1.2.2, Sys.setDir]
  generalize s1.step cluster runs (.store r) = s2 at hs2
  have hs3 : (s2.step cluster runs (.start r')).out r = none ∧
      (s2.step cluster runs (.start r')).dirs (runs r).stamp = some ⟨none, []⟩ := by
    simp [Sys.step, Ev.run, hs2.1, hs2.2, Sys.setDir, hst]
  generalize s2.step cluster runs (.start r') = s3 at hs3
  have hs4 : ∀ (tasks : List (Nat × Nat)) (s3 : Sys M C), s3.out r = none → s3.dirs (runs r).stamp = some ⟨none, []⟩ →
      (s3.steps cluster runs (tasks.map (fun t => .task r t.1 t.2))).out r = none ∧
      (s3.steps cluster runs (tasks.map (fun t => .task r t.1 t.2))).dirs (runs r).stamp = some ⟨none, []⟩ := by
    intro tasks
    induction tasks with
    | nil => exact fun s3 a b => ⟨a, b⟩
    | cons t tasks ih =>
      intro s3 a b
      have : s3.step cluster runs (.task r t.1 t.2) = s3 := by simp [Sys.step, Ev.run, a, b]
      rw [List.map_cons, c, this]
      exact ih s3 a b
  have hs5 := hs4 tasks s3 hs3.1 hs3.2
  generalize s3.steps cluster runs (tasks.map (fun t => .task r t.1 t.2)) = s5 at hs5
  rw [c]
  simp [Sys.steps, Sys.step, Ev.run, hs5.1, hs5.2, Sys.setOut, Sys.setDir]

/-- Two runs: the first has the elements 1, 2, 3 and the matrix 100, the second 7, 8 and the matrix 200; two pool processes each. -/
def twoRuns (stamp' : String) : Nat → Run Nat Nat
  | 0 => ⟨"10.41", [1, 2, 3], 100, 2⟩
  | _ => ⟨stamp', [7, 8], 200, 2⟩

/-- A cluster for every element: the element and the matrix it was found with. -/
def findOne (m e : Nat) : Except Err (List (Nat × Nat)) := .ok [(e, m)]

/-- No directory, and no run is over. -/
def idle : Sys Nat (Nat × Nat) := ⟨fun _ => none, fun _ => none⟩

/-- The hypotheses of `C247_partial`, for two runs of different minutes whose events alternate. -/
example : let during : List Ev := [.start 0, .start 1, .store 0, .store 1, .task 0 11 1, .task 1 12 0, .task 0 13 0, .remove 1, .merge 0]
    Proper 2 [(11, 1), (13, 0)] ∧ during.filter (fun e => decide (e.run = 0)) = ownEvents 0 [(11, 1), (13, 0)] ∧
    (∀ e ∈ during, e.run ≠ 0 → (twoRuns "10.42" e.run).stamp ≠ (twoRuns "10.42" 0).stamp) := by
  refine ⟨⟨by decide, by decide, by decide⟩, by decide, by decide⟩

/-- C247 is false: two runs of the same minute.  The second one stores its matrix before the pool processes of the first read theirs: the
clusters of the first are found with the matrix of the second, those of the second are returned by the first, and the second returns none. -/
theorem C247_false :
    let evs : List Ev := [.start 0, .store 0, .start 1, .store 1, .task 0 11 0, .task 0 12 1, .task 1 13 0, .task 1 14 1, .merge 0, .merge 1]
    let s := idle.steps findOne (twoRuns "10.41") evs
    s.out 0 = some (.ok [(1, 200), (3, 200), (2, 200), (7, 200), (8, 200)]) ∧ s.out 1 = some (.ok []) ∧
    step1Single (findOne 100) [1, 2, 3] = [(1, 100), (2, 100), (3, 100)] := ⟨rfl, rfl, rfl⟩

end Verif.Cbc
