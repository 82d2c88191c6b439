import Verif.Engine.Props

/-!
# C02, progress: every run without deaths can be completed
-/

namespace Verif.Engine

open Verif.Py Verif.Vocab Verif.Corpus

variable {J A R : Type}

theorem completable (p : Prog J A R) : ∀ (n : Nat) (s : State J A R), measure s ≤ n →
    ∃ bs s', CrashFree bs ∧ exec p bs s = some s' ∧ Maximal p s' := by
  intro n
  induction n with
  | zero =>
    intro s hs
    refine ⟨[], s, by intro i; simp, rfl, fun a _ => ?_⟩
    cases h : step p a s with
    | none => rfl
    | some s' => have := step_measure h; omega
  | succ n ih =>
    intro s hs
    by_cases hm : Maximal p s
    · exact ⟨[], s, by intro i; simp, rfl, hm⟩
    · unfold Maximal at hm
      push Not at hm
      obtain ⟨a, ha, hst⟩ := hm
      obtain ⟨s1, h1⟩ := Option.ne_none_iff_exists'.1 hst
      obtain ⟨bs, s', hc, he, hmx⟩ := ih s1 (by have := step_measure h1; omega)
      refine ⟨a :: bs, s', fun i => ?_, ?_, hmx⟩
      · simp only [List.mem_cons, not_or]
        exact ⟨fun e => ha i e.symm, hc i⟩
      · simp only [exec, h1, Option.bind_some, he]

/-- **C02**, progress: whatever has happened so far in a run without deaths, it can go on to the moment where every worker has
exited and the parent returns. -/
theorem C02_completes (p : Prog J A R) (W : Nat) (hW : 1 ≤ W) (files : List J) (as : List Action) (s : State J A R)
    (hc : CrashFree as) (h : exec p as (start p W files) = some s) :
    ∃ bs s', CrashFree (as ++ bs) ∧ exec p (as ++ bs) (start p W files) = some s' ∧ Joined s' ∧
      (finished p (as ++ bs) (start p W files)).Perm files := by
  obtain ⟨bs, s', hb, he, hm⟩ := completable p _ s le_rfl
  have hcf : CrashFree (as ++ bs) := fun i => by
    simp only [List.mem_append, not_or]
    exact ⟨hc i, hb i⟩
  have hex : exec p (as ++ bs) (start p W files) = some s' := by rw [exec_append, h]; exact he
  obtain ⟨_, h2, h3, _, _, h6⟩ := C02_maximal_run p W hW files _ s' hcf hex hm
  exact ⟨bs, s', hcf, hex, ⟨h2, fun w hw => Or.inl (h3 w hw)⟩, h6⟩

/-- A single worker that gets no file finishes none. -/
theorem finished_single {p : Prog J A R} : ∀ {as : List Action} {s s' : State J A R}, s.workers.length = 1 → held s = [] →
    exec p as s = some s' → received p 0 as s = [] → finished p as s = []
  | [], _, _, _, _, _, _ => rfl
  | a :: as, s, s', hw, hh, he, hr => by
    simp only [exec] at he
    cases hq : step p a s with
    | none => rw [hq] at he; cases he
    | some s1 =>
      rw [hq, Option.bind_some] at he
      rw [received_cons hq, List.append_eq_nil_iff] at hr
      have hws : ∃ w, s.workers = [w] := List.length_eq_one_iff.1 hw
      obtain ⟨w, hws⟩ := hws
      have key : completes a s = [] ∧ s1.workers.length = 1 ∧ held s1 = [] := by
        rcases step_cases hq with ⟨x, rest, rfl, hp, rfl⟩ | ⟨i, b, j, q, rfl, h1, h2, rfl⟩ | ⟨i, b, q, rfl, h1, h2, rfl⟩ |
          ⟨i, b, j, rfl, h1, rfl⟩ | ⟨i, b, rfl, h1, rfl⟩ | ⟨i, w', rfl, h1, h3, h4, rfl⟩
        · exact ⟨rfl, hw, hh⟩
        · exfalso
          rw [hws] at h1
          have hi : i = 0 := by
            cases i with
            | zero => rfl
            | succ i => simp at h1
          subst hi
          have := hr.1
          simp [gets, h2] at this
        · refine ⟨rfl, by simpa using hw, ?_⟩
          rw [hws] at h1
          cases i with
          | zero => simp [held, hws]
          | succ i => simp at h1
        · exfalso
          rw [hws] at h1
          cases i with
          | zero =>
            simp only [List.getElem?_cons_zero, Option.some.injEq] at h1
            rw [held, hws, h1] at hh
            simp at hh
          | succ i => simp at h1
        · refine ⟨by simp [completes, h1], by simpa using hw, ?_⟩
          rw [hws] at h1
          cases i with
          | zero => simp [held, hws]
          | succ i => simp at h1
        · refine ⟨rfl, by simpa using hw, ?_⟩
          rw [hws] at h1
          cases i with
          | zero => simp [held, hws]
          | succ i => simp at h1
      simp only [finished, hq, key.1, List.nil_append]
      exact finished_single key.2.1 key.2.2 he hr.2

/-- With one worker there is a complete run in which that worker gets a file, if there are files. -/
theorem single_run (p : Prog J A R) {files : List J} (hf : files ≠ []) : ∃ as s, CrashFree as ∧ exec p as (start p 1 files) = some s ∧
    Joined s ∧ s.queue = [] ∧ ∀ i < 1, received p i as (start p 1 files) ≠ [] := by
  obtain ⟨as, s, h1, h2, h3⟩ := completable p _ (start p 1 files) le_rfl
  obtain ⟨g1, g2, g3, _, _, g6⟩ := C02_maximal_run p 1 le_rfl files as s h1 h2 h3
  refine ⟨as, s, h1, h2, ⟨g2, fun w hw => Or.inl (g3 w hw)⟩, g1, fun i hi => ?_⟩
  obtain rfl : i = 0 := by omega
  intro hr
  have := finished_single (by simp [start]) (by simp [start, held]) h2 hr
  rw [this] at g6
  exact hf g6.symm.eq_nil

/-- A run interrupted half-way: a worker holds a file, the other has not begun. -/
example : CrashFree (sampleRun.take 4) ∧ ∃ s, exec (perJob (fun n : Nat => n + 1)) (sampleRun.take 4)
    (start (perJob (fun n : Nat => n + 1)) 2 [10, 20]) = some s ∧ ¬ Joined s ∧ held s ≠ [] := by
  refine ⟨by intro i; simp [sampleRun], _, rfl, ?_, by decide⟩
  rintro ⟨h, _⟩
  exact absurd h (by decide)

end Verif.Engine
