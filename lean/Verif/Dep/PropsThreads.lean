import Verif.Dep.Threads
import Verif.Engine.Lemmas

/-! # Property theorem C164 (files processed by the threads of the older manager) -/

set_option linter.unusedSectionVars false

namespace Verif.Dep.Threads
open Verif.Engine (sum_map_set)

variable {J : Type}

/-! ### Invariants -/

/-- The file that a worker holds. -/
def Thread.holds : Thread J → Multiset J
  | .busy j => {j}
  | .died j => {j}
  | _ => 0

/-- The files of calls that were made but did not return: they are running or ended with an exception. -/
def held (s : St J) : Multiset J := (s.threads.map Thread.holds).sum

/-- Whether a worker has left its loop. -/
def Thread.left : Thread J → Nat
  | .exited => 1
  | _ => 0

/-- The steps that are left for a worker, not counting those of the queue. -/
def Thread.steps : Thread J → Nat
  | .busy _ => 1
  | _ => 0

theorem step_cases {job : J → Bool} {cap : Int} {s s' : St J} {a : Act} (h : step job cap s a = some s') :
    (∃ j t, a = .put ∧ room cap s.queue = true ∧ s.todo = j :: t ∧
      s' = { s with todo := t, queue := s.queue ++ [some j] }) ∨
    (∃ n, a = .put ∧ room cap s.queue = true ∧ s.todo = [] ∧ s.stops = n + 1 ∧
      s' = { s with stops := n, queue := s.queue ++ [none] }) ∨
    (∃ i j q, a = .get i ∧ s.threads[i]? = some .idle ∧ s.queue = some j :: q ∧
      s' = { s with queue := q, threads := s.threads.set i (.busy j), started := s.started ++ [j] }) ∨
    (∃ i q, a = .get i ∧ s.threads[i]? = some .idle ∧ s.queue = none :: q ∧
      s' = { s with queue := q, threads := s.threads.set i .exited }) ∨
    (∃ i j, a = .finish i ∧ s.threads[i]? = some (.busy j) ∧ job j = true ∧
      s' = { s with threads := s.threads.set i .idle, done := s.done ++ [j] }) ∨
    (∃ i j, a = .finish i ∧ s.threads[i]? = some (.busy j) ∧ job j = false ∧
      s' = { s with threads := s.threads.set i (.died j) }) := by
  cases a with
  | put =>
    simp only [step, stepPut] at h
    split at h
    · next hr =>
      split at h
      · next j t ht => exact Or.inl ⟨j, t, rfl, hr, ht, (Option.some.inj h).symm⟩
      · next n ht hn => exact Or.inr (Or.inl ⟨n, rfl, hr, ht, hn, (Option.some.inj h).symm⟩)
      · cases h
    · cases h
  | get i =>
    simp only [step, stepGet] at h
    split at h
    · next j q h1 h2 => exact Or.inr (Or.inr (Or.inl ⟨i, j, q, rfl, h1, h2, (Option.some.inj h).symm⟩))
    · next q h1 h2 => exact Or.inr (Or.inr (Or.inr (Or.inl ⟨i, q, rfl, h1, h2, (Option.some.inj h).symm⟩)))
    · cases h
  | finish i =>
    simp only [step, stepFinish] at h
    split at h
    · next j h1 =>
      split at h
      · next hj => exact Or.inr (Or.inr (Or.inr (Or.inr (Or.inl ⟨i, j, rfl, h1, hj, (Option.some.inj h).symm⟩))))
      · next hj =>
        exact Or.inr (Or.inr (Or.inr (Or.inr (Or.inr ⟨i, j, rfl, h1, by simpa using hj, (Option.some.inj h).symm⟩))))
    · cases h

theorem exec_inv {job : J → Bool} {cap : Int} (P : St J → Prop)
    (hstep : ∀ a s s', P s → step job cap s a = some s' → P s') :
    ∀ as s s', P s → exec job cap as s = some s' → P s'
  | [], s, s', hs, h => by cases Option.some.inj h; exact hs
  | a :: as, s, s', hs, h => by
    simp only [exec] at h
    split at h
    · next t ht => exact exec_inv P hstep as t s' (hstep a s t hs ht) h
    · cases h

/-- What is true of every state the threads can reach. -/
structure Inv (W : Nat) (files : List J) (s : St J) : Prop where
  /-- the queue: file names, then `None`s -/
  queue : ∃ js k, s.queue = js.map some ++ List.replicate k none ∧ s.started ++ js ++ s.todo = files ∧
    s.stops + k + (s.threads.map Thread.left).sum = W ∧ ((s.threads.map Thread.left).sum ≠ 0 → js = [])
  stops : s.stops < W → s.todo = []
  threads : s.threads.length = W
  calls : (s.started : Multiset J) = (s.done : Multiset J) + held s

theorem sum_left_le (l : List (Thread J)) : (l.map Thread.left).sum ≤ l.length := by
  induction l with
  | nil => simp
  | cons a l ih =>
    simp only [List.map_cons, List.sum_cons, List.length_cons]
    have : a.left ≤ 1 := by cases a <;> simp [Thread.left]
    omega

theorem inv_start (W : Nat) (files : List J) : Inv W files (start W files) := by
  refine ⟨⟨[], 0, by simp [start], by simp [start], ?_, fun _ => rfl⟩, fun h => absurd h (by simp [start]),
    by simp [start], ?_⟩
  · simp [start, Thread.left]
  · simp [start, held, Thread.holds]

theorem inv_step {job : J → Bool} {cap : Int} {W : Nat} {files : List J} {a : Act} {s s' : St J} (hI : Inv W files s)
    (h : step job cap s a = some s') : Inv W files s' := by
  obtain ⟨⟨js, k, hq, hf, hk, he⟩, hst, hl, hc⟩ := hI
  rcases step_cases h with ⟨j, t, _, _, ht, rfl⟩ | ⟨n, _, _, ht, hn, rfl⟩ | ⟨i, j, q, _, h1, h2, rfl⟩ | ⟨i, q, _, h1, h2, rfl⟩ |
    ⟨i, j, _, h1, hj, rfl⟩ | ⟨i, j, _, h1, hj, rfl⟩
  · have hs : ¬ s.stops < W := fun hs => by rw [hst hs] at ht; cases ht
    have hk0 : k = 0 := by omega
    have hx : (s.threads.map Thread.left).sum = 0 := by omega
    refine ⟨⟨js ++ [j], 0, ?_, ?_, ?_, fun hx' => absurd hx hx'⟩, fun hs' => absurd hs' hs, hl, hc⟩
    · simp [hq, hk0]
    · rw [← hf, ht]; simp
    · simp only; omega
  · refine ⟨⟨js, k + 1, ?_, hf, ?_, he⟩, fun _ => ht, hl, hc⟩
    · rw [hq, List.append_assoc, List.replicate_succ']
    · simp only; omega
  · have e1 := sum_map_set Thread.left s.threads i _ (.busy j) h1
    have e2 := sum_map_set Thread.holds s.threads i _ (.busy j) h1
    simp only [Thread.left, Nat.add_zero] at e1
    cases js with
    | nil =>
      rw [List.map_nil, List.nil_append] at hq
      rw [hq] at h2
      cases k with
      | zero => cases h2
      | succ k => rw [List.replicate_succ] at h2; injection h2 with h3 _; cases h3
    | cons j' js =>
      rw [hq] at h2
      simp only [List.map_cons, List.cons_append, List.cons.injEq, Option.some.injEq] at h2
      obtain ⟨rfl, rfl⟩ := h2
      refine ⟨⟨js, k, rfl, ?_, ?_, ?_⟩, hst, by simpa using hl, ?_⟩
      · rw [← hf]; simp
      · rw [e1]; exact hk
      · rw [e1]; intro hx; cases he hx
      · simp only [Thread.holds] at e2
        rw [add_zero] at e2
        show ((s.started ++ [j'] : List J) : Multiset J) = _ + (List.map Thread.holds (s.threads.set i (.busy j'))).sum
        rw [e2, ← Multiset.coe_add, hc, add_assoc]
        rfl
  · have e1 := sum_map_set Thread.left s.threads i _ .exited h1
    have e2 := sum_map_set Thread.holds s.threads i _ .exited h1
    simp only [Thread.left, Nat.add_zero] at e1
    simp only [Thread.holds, add_zero] at e2
    cases js with
    | cons j' js => rw [hq] at h2; simp at h2
    | nil =>
      rw [List.map_nil, List.nil_append] at hq
      rw [hq] at h2
      cases k with
      | zero => cases h2
      | succ k =>
        rw [List.replicate_succ] at h2
        injection h2 with _ h3
        refine ⟨⟨[], k, by rw [← h3]; rfl, hf, ?_, fun _ => rfl⟩, hst, by simpa using hl, ?_⟩
        · simp only; omega
        · rw [held] at hc ⊢; rw [e2]; exact hc
  · have e1 := sum_map_set Thread.left s.threads i _ .idle h1
    have e2 := sum_map_set Thread.holds s.threads i _ .idle h1
    simp only [Thread.left, Nat.add_zero] at e1
    simp only [Thread.holds, add_zero] at e2
    refine ⟨⟨js, k, hq, hf, by rw [e1]; exact hk, by rw [e1]; exact he⟩, hst, by simpa using hl, ?_⟩
    rw [held] at hc ⊢
    rw [hc, ← e2, ← Multiset.coe_add, add_assoc, add_comm (Multiset.ofList [j])]
    rfl
  · have e1 := sum_map_set Thread.left s.threads i _ (.died j) h1
    have e2 := sum_map_set Thread.holds s.threads i _ (.died j) h1
    simp only [Thread.left, Nat.add_zero] at e1
    simp only [Thread.holds] at e2
    refine ⟨⟨js, k, hq, hf, by rw [e1]; exact hk, by rw [e1]; exact he⟩, hst, by simpa using hl, ?_⟩
    rw [held] at hc ⊢
    rw [hc, add_right_cancel e2]

theorem inv_exec {job : J → Bool} {cap : Int} {W : Nat} {files : List J} {as : List Act} {s : St J}
    (h : exec job cap as (start W files) = some s) : Inv W files s :=
  exec_inv (Inv W files) (fun _ _ _ hI hs => inv_step hI hs) as _ _ (inv_start W files) h

/-- The steps that are left in a state. -/
def remaining (s : St J) : Nat :=
  3 * s.todo.length + 2 * s.stops + (s.queue.map (fun o => if o.isSome then 2 else 1)).sum + (s.threads.map Thread.steps).sum

theorem remaining_step {job : J → Bool} {cap : Int} {a : Act} {s s' : St J} (h : step job cap s a = some s') :
    remaining s' + 1 = remaining s := by
  rcases step_cases h with ⟨j, t, _, _, ht, rfl⟩ | ⟨n, _, _, ht, hn, rfl⟩ | ⟨i, j, q, _, h1, h2, rfl⟩ | ⟨i, q, _, h1, h2, rfl⟩ |
    ⟨i, j, _, h1, hj, rfl⟩ | ⟨i, j, _, h1, hj, rfl⟩
  · simp only [remaining, ht, List.length_cons, List.map_append, List.sum_append, List.map_cons, List.map_nil,
      List.sum_cons, List.sum_nil, Option.isSome_some, if_true]
    omega
  · simp only [remaining, hn, List.map_append, List.sum_append, List.map_cons, List.map_nil,
      List.sum_cons, List.sum_nil, Option.isSome_none, Bool.false_eq_true, if_false]
    omega
  · have e := sum_map_set Thread.steps s.threads i _ (.busy j) h1
    simp only [Thread.steps, Nat.add_zero] at e
    simp only [remaining, h2, e, List.map_cons, List.sum_cons, Option.isSome_some, if_true]
    omega
  · have e := sum_map_set Thread.steps s.threads i _ .exited h1
    simp only [Thread.steps, Nat.add_zero] at e
    simp only [remaining, h2, e, List.map_cons, List.sum_cons, Option.isSome_none, Bool.false_eq_true, if_false]
    omega
  · have e := sum_map_set Thread.steps s.threads i _ .idle h1
    simp only [Thread.steps, Nat.add_zero] at e
    simp only [remaining]
    omega
  · have e := sum_map_set Thread.steps s.threads i _ (.died j) h1
    simp only [Thread.steps, Nat.add_zero] at e
    simp only [remaining]
    omega

theorem remaining_exec {job : J → Bool} {cap : Int} : ∀ {as : List Act} {s s' : St J}, exec job cap as s = some s' →
    remaining s' + as.length = remaining s
  | [], s, s', h => by cases Option.some.inj h; rfl
  | a :: as, s, s', h => by
    simp only [exec] at h
    split at h
    · next t ht =>
      have h1 := remaining_exec h
      have h2 := remaining_step ht
      simp only [List.length_cons]
      omega
    · cases h

/-- A stuck state: no call is running, and workers wait only if every worker has left its loop. -/
theorem stuck_threads {job : J → Bool} {cap : Int} {W : Nat} {files : List J} {s : St J} (hI : Inv W files s)
    (hs : Stuck job cap s) (t : Thread J) (ht : t ∈ s.threads) : t = .exited ∨ ∃ j, t = .died j := by
  obtain ⟨i, hi⟩ := List.getElem?_of_mem ht
  obtain ⟨⟨js, k, hq, hf, hk, he⟩, hst, hl, hc⟩ := hI
  cases t with
  | exited => exact Or.inl rfl
  | died j => exact Or.inr ⟨j, rfl⟩
  | busy j =>
    have := hs (.finish i)
    simp only [step, stepFinish, hi] at this
    split at this <;> cases this
  | idle =>
    exfalso
    have hg := hs (.get i)
    have hp := hs .put
    cases hq' : s.queue with
    | cons o q => cases o <;> simp [step, stepGet, hi, hq'] at hg
    | nil =>
      have hroom : room cap s.queue = true := by
        rw [hq']; simp only [room, List.length_nil, Nat.cast_zero, decide_eq_true_eq]; omega
      have hk0 : k = 0 := by
        rw [hq'] at hq
        cases k with
        | zero => rfl
        | succ k => simp [List.replicate_succ] at hq
      cases ht' : s.todo with
      | cons j t => simp [step, stepPut, hroom, ht'] at hp
      | nil =>
        cases hs' : s.stops with
        | succ n => simp [step, stepPut, hroom, ht', hs'] at hp
        | zero =>
          have hsum : (s.threads.map Thread.left).sum = s.threads.length := by omega
          have e := sum_map_set Thread.left s.threads i _ .exited hi
          have hle := sum_left_le (s.threads.set i .exited)
          simp only [Thread.left, Nat.add_zero, List.length_set] at e hle
          omega

theorem held_no_died {l : List (Thread J)} (h : ∀ t ∈ l, t = .exited) : (l.map Thread.holds).sum = 0 := by
  induction l with
  | nil => rfl
  | cons a l ih =>
    rw [List.map_cons, List.sum_cons, ih (fun t ht => h t (List.mem_cons_of_mem _ ht)), h a List.mem_cons_self]
    rfl

theorem left_all {l : List (Thread J)} (h : ∀ t ∈ l, t = .exited) : (l.map Thread.left).sum = l.length := by
  induction l with
  | nil => rfl
  | cons a l ih =>
    rw [List.map_cons, List.sum_cons, ih (fun t ht => h t (List.mem_cons_of_mem _ ht)), h a List.mem_cons_self]
    simp [Thread.left]; omega

theorem card_held (l : List (Thread J)) : (l.map Thread.holds).sum.card + (l.map Thread.left).sum ≤ l.length := by
  induction l with
  | nil => simp
  | cons a l ih =>
    simp only [List.map_cons, List.sum_cons, Multiset.card_add, List.length_cons]
    have : a.holds.card + a.left ≤ 1 := by cases a <;> simp [Thread.left, Thread.holds]
    omega

theorem card_died {l : List (Thread J)} (h : ∀ t ∈ l, t = .exited ∨ ∃ j, t = .died j) :
    (l.map Thread.holds).sum.card + (l.map Thread.left).sum = l.length := by
  induction l with
  | nil => simp
  | cons a l ih =>
    simp only [List.map_cons, List.sum_cons, Multiset.card_add, List.length_cons]
    have h1 := ih (fun t ht => h t (List.mem_cons_of_mem _ ht))
    have : a.holds.card + a.left = 1 := by
      rcases h a List.mem_cons_self with rfl | ⟨j, rfl⟩ <;> simp [Thread.left, Thread.holds]
    omega

theorem died_exec {job : J → Bool} {cap : Int} {W : Nat} {files : List J} {as : List Act} {s : St J}
    (h : exec job cap as (start W files) = some s) :
    (∀ j, Thread.died j ∈ s.threads → job j = false) ∧ ∀ j ∈ s.done, job j = true := by
  refine exec_inv (fun s => (∀ j, Thread.died j ∈ s.threads → job j = false) ∧ ∀ j ∈ s.done, job j = true) ?_ as _ _ ?_ h
  · intro a s s' hI hs
    have key : ∀ {i : Nat} {t : Thread J} (j : J), Thread.died j ∈ s.threads.set i t → t = .died j ∨ job j = false := by
      intro i t j hj
      rcases List.mem_or_eq_of_mem_set hj with h | h
      · exact Or.inr (hI.1 j h)
      · exact Or.inl h.symm
    rcases step_cases hs with ⟨j, t, _, _, ht, rfl⟩ | ⟨n, _, _, ht, hn, rfl⟩ | ⟨i, j, q, _, h1, h2, rfl⟩ |
      ⟨i, q, _, h1, h2, rfl⟩ | ⟨i, j, _, h1, hj, rfl⟩ | ⟨i, j, _, h1, hj, rfl⟩
    · exact hI
    · exact hI
    · exact ⟨fun j' hj' => (key j' hj').resolve_left (fun e => nomatch e), hI.2⟩
    · exact ⟨fun j' hj' => (key j' hj').resolve_left (fun e => nomatch e), hI.2⟩
    · refine ⟨fun j' hj' => (key j' hj').resolve_left (fun e => nomatch e), fun j' hj' => ?_⟩
      rcases List.mem_append.1 hj' with h | h
      · exact hI.2 j' h
      · rw [List.mem_singleton.1 h]; exact hj
    · refine ⟨fun j' hj' => ?_, hI.2⟩
      rcases key j' hj' with h | h
      · cases h; exact hj
      · exact h
  · refine ⟨fun j hj => ?_, fun j hj => nomatch hj⟩
    simp [start] at hj

theorem queue_exec {job : J → Bool} {cap : Int} (hcap : 0 < cap) {W : Nat} {files : List J} {as : List Act} {s : St J}
    (h : exec job cap as (start W files) = some s) : (s.queue.length : Int) ≤ cap := by
  refine exec_inv (fun s => (s.queue.length : Int) ≤ cap) ?_ as _ _ (by simp [start]; omega) h
  intro a s s' hI hs
  rcases step_cases hs with ⟨j, t, _, hr, ht, rfl⟩ | ⟨n, _, hr, ht, hn, rfl⟩ | ⟨i, j, q, _, h1, h2, rfl⟩ |
    ⟨i, q, _, h1, h2, rfl⟩ | ⟨i, j, _, h1, hj, rfl⟩ | ⟨i, j, _, h1, hj, rfl⟩
  · simp only [room, decide_eq_true_eq] at hr; simp; omega
  · simp only [room, decide_eq_true_eq] at hr; simp; omega
  · rw [h2] at hI; simp at hI ⊢; omega
  · rw [h2] at hI; simp at hI ⊢; omega
  · exact hI
  · exact hI

theorem mem_holds {l : List (Thread J)} {j : J} (h : Thread.died j ∈ l) : j ∈ (l.map Thread.holds).sum := by
  induction l with
  | nil => cases h
  | cons a l ih =>
    rw [List.map_cons, List.sum_cons, Multiset.mem_add]
    rcases List.mem_cons.1 h with rfl | h
    · exact Or.inl (Multiset.mem_singleton_self j)
    · exact Or.inr (ih h)

/-! ### C164 -/

/-- C164, claim: when `process(fnames)` returns, every file of the list has been processed, each as often as it is listed. -/
def C164_claim (job : J → Bool) (factor : Int) (W : Nat) (files : List J) : Prop :=
  ∀ s, Returns job factor W files s → s.done.Perm files

/-- C164 is false even if processing a file never fails: `process` does not wait for its threads. -/
theorem C164_false (job : J → Bool) (factor : Int) (W : Nat) (files : List J) (hf : files ≠ []) :
    ¬ C164_claim job factor W files := by
  intro h
  have := h (start W files) ⟨[], rfl⟩
  exact hf (List.Perm.nil_eq this).symm

/-- C164, what holds in every interleaving, whatever processing a file does: files are handed out in the order of the list, each
entry once, and a file that has been handed out was processed, or is being processed, or its processing ended with an exception;
no run of the threads has more than three steps per file and two per worker. -/
theorem C164_each_once_partial (job : J → Bool) (factor : Int) (W : Nat) (files : List J) (as : List Act) (s : St J)
    (h : exec job (capacity factor W) as (start W files) = some s) :
    s.started <+: files ∧ (s.started : Multiset J) = (s.done : Multiset J) + held s ∧
      (∀ j ∈ s.done, job j = true) ∧ (∀ j, Thread.died j ∈ s.threads → job j = false) ∧
      as.length ≤ 3 * files.length + 2 * W := by
  have hI := inv_exec h
  obtain ⟨js, k, _, hf, _, _⟩ := hI.queue
  refine ⟨⟨js ++ s.todo, by rw [← hf, List.append_assoc]⟩, hI.calls, (died_exec h).2, (died_exec h).1, ?_⟩
  have h1 := remaining_exec h
  have h2 : remaining (start W files) = 3 * files.length + 2 * W := by
    simp [remaining, start, Thread.steps]
  omega

/-- C164, what holds if processing the files never fails and there is a worker: the threads cannot stop before every file has been
processed, as often as it is listed, and every worker has left its loop. -/
theorem C164_complete_partial (job : J → Bool) (factor : Int) (W : Nat) (hW : 1 ≤ W) (files : List J)
    (hj : ∀ j ∈ files, job j = true) (as : List Act) (s : St J)
    (h : exec job (capacity factor W) as (start W files) = some s) (hs : Stuck job (capacity factor W) s) :
    s.started = files ∧ s.done.Perm files ∧ s.todo = [] ∧ s.stops = 0 ∧ s.queue = [] ∧ s.threads = List.replicate W .exited ∧
      as.length = 3 * files.length + 2 * W := by
  have hI := inv_exec h
  have hst := stuck_threads hI hs
  obtain ⟨⟨js, k, hq, hf, hk, he⟩, hstop, hl, hc⟩ := id hI
  have hall : ∀ t ∈ s.threads, t = .exited := by
    intro t ht
    rcases hst t ht with h1 | ⟨j, rfl⟩
    · exact h1
    · exfalso
      have h1 : job j = false := (died_exec h).1 j ht
      have h2 : j ∈ (s.started : Multiset J) := by
        rw [hc, Multiset.mem_add]; exact Or.inr (mem_holds ht)
      have h3 : j ∈ files := by
        rw [← hf, List.append_assoc]; exact List.mem_append_left _ (Multiset.mem_coe.1 h2)
      rw [hj j h3] at h1
      cases h1
  have hsum := left_all hall
  have hjs : js = [] := he (by omega)
  have htodo : s.todo = [] := hstop (by omega)
  have hk0 : k = 0 := by omega
  have hs0 : s.stops = 0 := by omega
  have hstart : s.started = files := by rw [← hf, hjs, htodo]; simp
  have hheld : held s = 0 := held_no_died hall
  have hqueue : s.queue = [] := by rw [hq, hjs, hk0]; rfl
  have hth : s.threads = List.replicate W .exited := List.eq_replicate_iff.2 ⟨hl, hall⟩
  refine ⟨hstart, ?_, htodo, hs0, hqueue, hth, ?_⟩
  · rw [hheld, add_zero, hstart] at hc
    exact (Multiset.coe_eq_coe.1 hc).symm
  · have h1 := remaining_exec h
    have h2 : remaining (start W files) = 3 * files.length + 2 * W := by
      simp [remaining, start, Thread.steps]
    have h3 : remaining s = 0 := by
      simp [remaining, htodo, hs0, hqueue, hth, Thread.steps]
    omega

/-- C164, the module as it is (`update_dep_rel` is not defined): no file is ever processed; no more files are tried than there are
workers, and every try ends its worker; if there are more files than the workers and the queue can take, the producer waits
for ever. -/
theorem C164_real (factor : Int) (W : Nat) (hW : 1 ≤ W) (files : List J) (s : St J) (h : Returns realJob factor W files s) :
    s.done = [] ∧ s.started.length ≤ W ∧
      (0 < factor → (1 + factor) * W < files.length → s.todo ≠ []) := by
  obtain ⟨as, h⟩ := h
  have hI := inv_exec h
  obtain ⟨⟨js, k, hq, hf, hk, he⟩, hstop, hl, hc⟩ := id hI
  have hdone : s.done = [] := by
    cases hd : s.done with
    | nil => rfl
    | cons j l =>
      have := (died_exec h).2 j (by rw [hd]; exact List.mem_cons_self)
      cases this
  have hlen : s.started.length ≤ W := by
    have h1 := congrArg Multiset.card hc
    rw [hdone] at h1
    simp only [Multiset.coe_card, Multiset.card_add, List.length_nil, Nat.zero_add] at h1
    have h2 := card_held s.threads
    rw [held] at h1
    omega
  refine ⟨hdone, hlen, fun hfac hn htodo => ?_⟩
  have hcap : 0 < capacity factor W := by unfold capacity; exact Int.mul_pos hfac (by omega)
  have h1 := queue_exec hcap h
  have h2 : s.queue.length = js.length + k := by rw [hq]; simp
  have h3 : files.length = s.started.length + js.length := by rw [← hf, htodo]; simp
  unfold capacity at h1
  rw [Int.add_mul, Int.one_mul] at hn
  omega

/-- C164, the module as it is, when nothing can happen any more: exactly the first files have been tried, one per worker. -/
theorem C164_real_end (factor : Int) (W : Nat) (files : List J) (s : St J) (h : Returns realJob factor W files s)
    (hs : Stuck realJob (capacity factor W) s) : s.done = [] ∧ s.started = files.take W := by
  obtain ⟨as, h⟩ := h
  have hI := inv_exec h
  obtain ⟨⟨js, k, hq, hf, hk, he⟩, hstop, hl, hc⟩ := id hI
  have hdone : s.done = [] := by
    cases hd : s.done with
    | nil => rfl
    | cons j l =>
      have := (died_exec h).2 j (by rw [hd]; exact List.mem_cons_self)
      cases this
  refine ⟨hdone, ?_⟩
  have hcard : s.started.length + (s.threads.map Thread.left).sum = W := by
    have h1 := congrArg Multiset.card hc
    rw [hdone] at h1
    simp only [Multiset.coe_card, Multiset.card_add, List.length_nil, Nat.zero_add] at h1
    have h2 := card_died (stuck_threads hI hs)
    rw [held] at h1
    omega
  by_cases hx : (s.threads.map Thread.left).sum = 0
  · rw [← hf, List.append_assoc, List.take_left' (by omega)]
  · have h1 := he hx
    have h2 : s.todo = [] := hstop (by omega)
    rw [h1, h2, List.append_nil, List.append_nil] at hf
    rw [← hf, List.take_of_length_le (by omega)]

/-! A run: two workers, a queue of two entries, three files, the second of which takes longer. -/

/-- The schedule of the example. -/
def sampleRun : List Act := [.put, .put, .get 1, .put, .get 0, .finish 1, .get 1, .put, .put, .finish 1, .get 1, .finish 0, .get 0]

/-- The hypotheses of `C164_complete_partial` can be met; the files are done in another order than they were started. -/
example : ∃ s, exec (fun _ : Nat => true) (capacity 1 2) sampleRun (start 2 [5, 6, 7]) = some s ∧ s.done = [5, 7, 6] ∧
    Stuck (fun _ : Nat => true) (capacity 1 2) s := by
  refine ⟨⟨[], 0, [], [.exited, .exited], [5, 6, 7], [5, 7, 6]⟩, by decide +kernel, rfl, ?_⟩
  intro a
  cases a with
  | put => rfl
  | get i => match i with
    | 0 => rfl
    | 1 => rfl
    | _ + 2 => rfl
  | finish i => match i with
    | 0 => rfl
    | 1 => rfl
    | _ + 2 => rfl

/-- The hypotheses of `C164_real` and `C164_real_end` can be met: one worker, a queue of one entry, four files. -/
example : ∃ s, exec (realJob : Nat → Bool) (capacity 1 1) [.put, .get 0, .finish 0, .put] (start 1 [5, 6, 7, 8]) = some s ∧
    s.started = [5] ∧ s.todo = [7, 8] ∧ s.threads = [.died 5] ∧ Stuck realJob (capacity 1 1) s ∧
    (1 + 1) * ((1 : Nat) : Int) < ([5, 6, 7, 8] : List Nat).length := by
  refine ⟨⟨[7, 8], 1, [some 6], [.died 5], [5], []⟩, by decide +kernel, rfl, rfl, rfl, ?_, by decide⟩
  intro a
  cases a with
  | put => rfl
  | get i => match i with
    | 0 => rfl
    | _ + 1 => rfl
  | finish i => match i with
    | 0 => rfl
    | _ + 1 => rfl

end Verif.Dep.Threads
