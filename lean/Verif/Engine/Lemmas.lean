import Verif.Engine.Model
import Mathlib.Data.Multiset.AddSub
import Mathlib.Algebra.BigOperators.Group.Multiset.Basic
import Mathlib.Tactic.Abel

namespace Verif.Engine

variable {J A R : Type}

theorem sum_map_set {α M : Type} [AddCommMonoid M] (f : α → M) (l : List α) (i : Nat) (x y : α)
    (h : l[i]? = some x) : ((l.set i y).map f).sum + f x = (l.map f).sum + f y := by
  induction l generalizing i with
  | nil => simp at h
  | cons z l ih =>
    cases i with
    | zero =>
      simp only [List.getElem?_cons_zero, Option.some.injEq] at h
      subst h
      simp only [List.set_cons_zero, List.map_cons, List.sum_cons]; abel
    | succ i =>
      simp only [List.getElem?_cons_succ] at h
      have := ih i h
      simp only [List.set_cons_succ, List.map_cons, List.sum_cons]
      calc f z + ((l.set i y).map f).sum + f x = f z + (((l.set i y).map f).sum + f x) := by abel
        _ = f z + ((l.map f).sum + f y) := by rw [this]
        _ = _ := by abel

/-- Runs compose. -/
theorem exec_append (p : Prog J A R) (as bs : List Action) (s : State J A R) :
    exec p (as ++ bs) s = (exec p as s).bind (exec p bs) := by
  induction as generalizing s with
  | nil => rfl
  | cons a as ih =>
    simp only [List.cons_append, exec]
    cases step p a s with
    | none => rfl
    | some s' => exact ih s'

/-- Induction principle: an invariant kept by every step holds after every run. -/
theorem exec_invariant (p : Prog J A R) (I : State J A R → Prop) (ok : Action → Prop)
    (h : ∀ a s s', ok a → I s → step p a s = some s' → I s') :
    ∀ as s s', (∀ a ∈ as, ok a) → I s → exec p as s = some s' → I s' := by
  intro as
  induction as with
  | nil => intro s s' _ hs he; simp only [exec, Option.some.injEq] at he; exact he ▸ hs
  | cons a as ih =>
    intro s s' hok hs he
    simp only [exec] at he
    cases hq : step p a s with
    | none => rw [hq] at he; cases he
    | some s1 =>
      rw [hq] at he
      exact ih s1 s' (fun b hb => hok b (by simp [hb])) (h a s s1 (hok a (by simp)) hs hq) he

/-! ### Case analysis of a step -/

/-- All ways a step can happen. -/
theorem step_cases {p : Prog J A R} {a : Action} {s s' : State J A R} (h : step p a s = some s') :
    (∃ x rest, a = .produce ∧ s.pending = x :: rest ∧
      s' = { s with pending := rest, queue := s.queue ++ [x] }) ∨
    (∃ i b j q, a = .take i ∧ s.workers[i]? = some (.idle b) ∧ s.queue = some j :: q ∧
      s' = { s with queue := q, workers := s.workers.set i (.busy b j) }) ∨
    (∃ i b q, a = .take i ∧ s.workers[i]? = some (.idle b) ∧ s.queue = none :: q ∧
      s' = { s with queue := q, workers := s.workers.set i (.stopping b) }) ∨
    (∃ i b j, a = .work i ∧ s.workers[i]? = some (.busy b j) ∧
      s' = { s with workers := s.workers.set i (.idle (p.onJob b j).1)
                    results := s.results ++ (p.onJob b j).2 }) ∨
    (∃ i b, a = .work i ∧ s.workers[i]? = some (.stopping b) ∧
      s' = { s with workers := s.workers.set i (.done b), results := s.results ++ p.onStop b }) ∨
    (∃ i w, a = .crash i ∧ s.workers[i]? = some w ∧ (∀ b, w ≠ .done b) ∧ w ≠ .crashed ∧
      s' = { s with workers := s.workers.set i .crashed }) := by
  cases a with
  | produce =>
    left
    simp only [step] at h
    split at h
    · next x rest hp => exact ⟨x, rest, rfl, hp, (Option.some.inj h).symm⟩
    · cases h
  | take i =>
    right
    simp only [step] at h
    split at h
    · next b j q h1 h2 => exact Or.inl ⟨i, b, j, q, rfl, h1, h2, (Option.some.inj h).symm⟩
    · next b q h1 h2 => exact Or.inr (Or.inl ⟨i, b, q, rfl, h1, h2, (Option.some.inj h).symm⟩)
    · cases h
  | work i =>
    right; right; right
    simp only [step] at h
    split at h
    · next b j h1 => exact Or.inl ⟨i, b, j, rfl, h1, (Option.some.inj h).symm⟩
    · next b h1 => exact Or.inr (Or.inl ⟨i, b, rfl, h1, (Option.some.inj h).symm⟩)
    · cases h
  | crash i =>
    right; right; right; right; right
    simp only [step] at h
    split at h
    · next b h1 => exact ⟨i, _, rfl, h1, by simp, by simp, (Option.some.inj h).symm⟩
    · next b j h1 => exact ⟨i, _, rfl, h1, by simp, by simp, (Option.some.inj h).symm⟩
    · next b h1 => exact ⟨i, _, rfl, h1, by simp, by simp, (Option.some.inj h).symm⟩
    · cases h

/-! ### Conservation -/

/-- Weights of the parts of a state in a commutative monoid. -/
structure Weights (J A R M : Type) where
  job : J → M
  mark : M            -- a stop marker
  idle : A → M
  stopping : A → M
  done : A → M
  res : R → M

section
variable {M : Type} [AddCommMonoid M]

def Weights.entry (w : Weights J A R M) : Option J → M
  | some j => w.job j
  | none => w.mark

def Weights.worker (w : Weights J A R M) : WState J A → M
  | .idle a => w.idle a
  | .busy a j => w.idle a + w.job j
  | .stopping a => w.stopping a
  | .done a => w.done a
  | .crashed => 0

def Weights.total (w : Weights J A R M) (s : State J A R) : M :=
  (s.pending.map w.entry).sum + (s.queue.map w.entry).sum + (s.workers.map w.worker).sum +
    (s.results.map w.res).sum

/-- The weights are balanced for a program. -/
structure Weights.Balanced (w : Weights J A R M) (p : Prog J A R) : Prop where
  stop : ∀ a, w.idle a + w.mark = w.stopping a
  job : ∀ a j, w.idle a + w.job j = w.idle (p.onJob a j).1 + ((p.onJob a j).2.map w.res).sum
  final : ∀ a, w.stopping a = w.done a + ((p.onStop a).map w.res).sum

/-- Conservation along crash-free runs, for cancellative targets. -/
theorem Weights.conserved [IsRightCancelAdd M] {w : Weights J A R M} {p : Prog J A R} (hb : w.Balanced p)
    {as : List Action} {s s' : State J A R} (hc : CrashFree as) (h : exec p as s = some s') :
    w.total s' = w.total s := by
  refine exec_invariant p (fun t => w.total t = w.total s) (fun a => ∀ i, a ≠ .crash i) ?_ as s s'
    (fun a ha i hi => hc i (hi ▸ ha)) rfl h
  intro a t t' hok hI hs
  rw [← hI]
  rcases step_cases hs with ⟨x, rest, _, hp, rfl⟩ | ⟨i, b, j, q, _, h1, h2, rfl⟩ | ⟨i, b, q, _, h1, h2, rfl⟩ |
    ⟨i, b, j, _, h1, rfl⟩ | ⟨i, b, _, h1, rfl⟩ | ⟨i, _, h, _⟩
  · simp only [Weights.total, hp, List.map_cons, List.sum_cons, List.map_append, List.map_nil, List.sum_append,
      List.sum_nil]
    abel
  · have e := sum_map_set w.worker t.workers i _ (.busy b j) h1
    simp only [Weights.worker] at e
    apply add_right_cancel (b := w.idle b)
    simp only [Weights.total, h2, List.map_cons, List.sum_cons, Weights.entry]
    calc _ = (t.pending.map w.entry).sum + (q.map w.entry).sum + (t.results.map w.res).sum +
          (((t.workers.set i (.busy b j)).map w.worker).sum + w.idle b) := by abel
      _ = _ := by rw [e]; abel
  · have e := sum_map_set w.worker t.workers i _ (.stopping b) h1
    simp only [Weights.worker] at e
    apply add_right_cancel (b := w.idle b)
    simp only [Weights.total, h2, List.map_cons, List.sum_cons, Weights.entry]
    calc _ = (t.pending.map w.entry).sum + (q.map w.entry).sum + (t.results.map w.res).sum +
          (((t.workers.set i (.stopping b)).map w.worker).sum + w.idle b) := by abel
      _ = _ := by rw [e, ← hb.stop]; abel
  · have e := sum_map_set w.worker t.workers i _ (.idle (p.onJob b j).1) h1
    simp only [Weights.worker] at e
    apply add_right_cancel (b := w.idle b + w.job j)
    simp only [Weights.total, List.map_append, List.sum_append]
    calc _ = (t.pending.map w.entry).sum + (t.queue.map w.entry).sum + (t.results.map w.res).sum +
          ((p.onJob b j).2.map w.res).sum +
          (((t.workers.set i (.idle (p.onJob b j).1)).map w.worker).sum + (w.idle b + w.job j)) := by abel
      _ = _ := by rw [e, hb.job]; abel
  · have e := sum_map_set w.worker t.workers i _ (.done b) h1
    simp only [Weights.worker] at e
    apply add_right_cancel (b := w.stopping b)
    simp only [Weights.total, List.map_append, List.sum_append]
    calc _ = (t.pending.map w.entry).sum + (t.queue.map w.entry).sum + (t.results.map w.res).sum +
          ((p.onStop b).map w.res).sum +
          (((t.workers.set i (.done b)).map w.worker).sum + w.stopping b) := by abel
      _ = _ := by rw [e, hb.final]; abel
  · exact absurd h (hok i)

theorem Weights.total_start (w : Weights J A R M) (p : Prog J A R) (W : Nat) (files : List J) :
    w.total (start p W files) = (files.map w.job).sum + W • w.mark + W • w.idle p.init := by
  simp [Weights.total, start, Weights.entry, Weights.worker, Function.comp_def]

end

/-! ### Worker count, markers -/

theorem workers_length {p : Prog J A R} {as : List Action} {s s' : State J A R}
    (h : exec p as s = some s') : s'.workers.length = s.workers.length := by
  refine exec_invariant p (fun t => t.workers.length = s.workers.length) (fun _ => True) ?_ as s s'
    (fun _ _ => trivial) rfl h
  intro a t t' _ hI hs
  rw [← hI]
  rcases step_cases hs with ⟨x, rest, _, hp, rfl⟩ | ⟨i, b, j, q, _, h1, h2, rfl⟩ | ⟨i, b, q, _, h1, h2, rfl⟩ |
    ⟨i, b, j, _, h1, rfl⟩ | ⟨i, b, _, h1, rfl⟩ | ⟨i, w, _, _, _, _, rfl⟩ <;> simp

/-! ### Measure -/

def workerMeasure : WState J A → Nat
  | .idle _ => 1
  | .busy _ _ => 2
  | .stopping _ => 2
  | .done _ => 0
  | .crashed => 0

def measure (s : State J A R) : Nat :=
  3 * s.pending.length + 2 * s.queue.length + (s.workers.map workerMeasure).sum

theorem step_measure {p : Prog J A R} {a : Action} {s s' : State J A R} (h : step p a s = some s') :
    measure s' + 1 ≤ measure s := by
  rcases step_cases h with ⟨x, rest, _, hp, rfl⟩ | ⟨i, b, j, q, _, h1, h2, rfl⟩ | ⟨i, b, q, _, h1, h2, rfl⟩ |
    ⟨i, b, j, _, h1, rfl⟩ | ⟨i, b, _, h1, rfl⟩ | ⟨i, w, _, h1, h3, h4, rfl⟩
  · simp only [measure, hp, List.length_cons, List.length_append, List.length_nil]; omega
  · have e := sum_map_set workerMeasure s.workers i _ (.busy b j) h1
    simp only [workerMeasure] at e
    simp only [measure, h2, List.length_cons]; omega
  · have e := sum_map_set workerMeasure s.workers i _ (.stopping b) h1
    simp only [workerMeasure] at e
    simp only [measure, h2, List.length_cons]; omega
  · have e := sum_map_set workerMeasure s.workers i _ (.idle (p.onJob b j).1) h1
    simp only [workerMeasure] at e
    simp only [measure]; omega
  · have e := sum_map_set workerMeasure s.workers i _ (.done b) h1
    simp only [workerMeasure] at e
    simp only [measure]; omega
  · have e := sum_map_set workerMeasure s.workers i _ .crashed h1
    have : 1 ≤ workerMeasure w := by
      cases w <;> simp_all [workerMeasure]
    simp only [workerMeasure] at e this
    simp only [measure]; omega

theorem exec_measure {p : Prog J A R} {as : List Action} {s s' : State J A R} (h : exec p as s = some s') :
    measure s' + as.length ≤ measure s := by
  induction as generalizing s with
  | nil => simp only [exec, Option.some.injEq] at h; subst h; simp
  | cons a as ih =>
    simp only [exec] at h
    cases hq : step p a s with
    | none => rw [hq] at h; cases h
    | some s1 =>
      rw [hq] at h
      have := ih h
      have := step_measure hq
      simp only [List.length_cons]; omega

theorem measure_start (p : Prog J A R) (W : Nat) (files : List J) :
    measure (start p W files) = 3 * files.length + 4 * W := by
  simp [measure, start, workerMeasure]; omega

/-! ### Jobs as multisets -/

def jobsM (q : List (Option J)) : Multiset J := (jobs q : Multiset J)

def workerJobs : WState J A → Multiset J
  | .busy _ j => {j}
  | _ => 0

theorem held_eq (s : State J A R) : (held s : Multiset J) = (s.workers.map workerJobs).sum := by
  unfold held
  induction s.workers with
  | nil => rfl
  | cons w ws ih =>
    cases w <;> simp [workerJobs, ← ih]

theorem jobs_append (q r : List (Option J)) : jobs (q ++ r) = jobs q ++ jobs r := by simp [jobs]
@[simp] theorem jobs_some (j : J) (q : List (Option J)) : jobs (some j :: q) = j :: jobs q := rfl
@[simp] theorem jobs_none (q : List (Option J)) : jobs (none :: q : List (Option J)) = jobs q := rfl
@[simp] theorem jobs_nil : jobs ([] : List (Option J)) = [] := rfl
@[simp] theorem jobs_files (files : List J) : jobs (files.map some) = files := by
  simp [jobs, List.filterMap_map]
@[simp] theorem jobs_replicate (n : Nat) : jobs (List.replicate n (none : Option J)) = [] := by
  induction n with
  | zero => rfl
  | succ n ih => rw [List.replicate_succ]; exact ih

/-- Jobs completed during a run, unfolding one step. -/
theorem finished_cons {p : Prog J A R} {a : Action} {as : List Action} {s s1 : State J A R}
    (h : step p a s = some s1) :
    finished p (a :: as) s = completes a s ++ finished p as s1 := by
  simp [finished, h]

theorem received_cons {p : Prog J A R} {k : Nat} {a : Action} {as : List Action} {s s1 : State J A R}
    (h : step p a s = some s1) :
    received p k (a :: as) s = gets k a s ++ received p k as s1 := by
  simp [received, h]

/-- Jobs are neither lost nor duplicated along a crash-free run. -/
theorem finished_conserved {p : Prog J A R} {as : List Action} {s s' : State J A R} (hc : CrashFree as)
    (h : exec p as s = some s') :
    (finished p as s : Multiset J) + held s' + jobs s'.queue + jobs s'.pending =
      (held s : Multiset J) + jobs s.queue + jobs s.pending := by
  induction as generalizing s with
  | nil => simp only [exec, Option.some.injEq] at h; subst h; simp [finished]
  | cons a as ih =>
    simp only [exec] at h
    cases hq : step p a s with
    | none => rw [hq] at h; cases h
    | some s1 =>
      rw [hq] at h
      have := ih (fun i hi => hc i (by simp [hi])) h
      rw [finished_cons hq, ← Multiset.coe_add]
      have e2 : ∀ x y z w v : Multiset J, x + y + z + w + v = x + (y + z + w + v) := by
        intros; abel
      rw [e2, this]
      rcases step_cases hq with ⟨x, rest, rfl, hp, rfl⟩ | ⟨i, b, j, q, rfl, h1, h2, rfl⟩ |
        ⟨i, b, q, rfl, h1, h2, rfl⟩ | ⟨i, b, j, rfl, h1, rfl⟩ | ⟨i, b, rfl, h1, rfl⟩ | ⟨i, w, rfl, _⟩
      · rw [hp]
        simp only [completes, Multiset.coe_nil, zero_add, jobs_append]
        cases x with
        | none => simp [held]
        | some j =>
          simp only [held, jobs_some, jobs_nil, ← Multiset.coe_add, ← Multiset.cons_coe, Multiset.coe_nil]
          simp only [← Multiset.singleton_add]; abel
      · have e := sum_map_set workerJobs s.workers i _ (.busy b j) h1
        simp only [workerJobs, add_zero] at e
        simp only [completes, held_eq, h2, jobs_some, ← Multiset.cons_coe, Multiset.coe_nil, zero_add, e,
          ← Multiset.singleton_add]
        abel
      · have e := sum_map_set workerJobs s.workers i _ (.stopping b) h1
        simp only [workerJobs, add_zero] at e
        simp only [completes, held_eq, h2, jobs_none, Multiset.coe_nil, zero_add, e]
      · have e := sum_map_set workerJobs s.workers i _ (.idle (p.onJob b j).1) h1
        simp only [workerJobs, add_zero] at e
        simp only [held_eq, completes, h1, ← e]
        rw [show (([j] : List J) : Multiset J) = {j} from rfl]
        abel
      · have e := sum_map_set workerJobs s.workers i _ (.done b) h1
        simp only [workerJobs, add_zero] at e
        simp only [held_eq, completes, h1, ← e, Multiset.coe_nil, zero_add]
      · exact absurd (List.mem_cons_self) (hc i)

/-- With crashes allowed, jobs can only get lost, never be duplicated or invented. -/
theorem finished_le {p : Prog J A R} {as : List Action} {s s' : State J A R}
    (h : exec p as s = some s') :
    ∃ lost : Multiset J, lost + ((finished p as s : Multiset J) + held s' + jobs s'.queue + jobs s'.pending) =
      (held s : Multiset J) + jobs s.queue + jobs s.pending := by
  induction as generalizing s with
  | nil => simp only [exec, Option.some.injEq] at h; subst h; exact ⟨0, by simp [finished]⟩
  | cons a as ih =>
    simp only [exec] at h
    cases hq : step p a s with
    | none => rw [hq] at h; cases h
    | some s1 =>
      rw [hq] at h
      obtain ⟨lost, this⟩ := ih h
      by_cases hcr : ∃ i, a = .crash i
      · obtain ⟨i, rfl⟩ := hcr
        rw [finished_cons hq]
        rcases step_cases hq with ⟨_, _, h0, _⟩ | ⟨_, _, _, _, h0, _⟩ | ⟨_, _, _, h0, _⟩ | ⟨_, _, _, h0, _⟩ |
          ⟨_, _, h0, _⟩ | ⟨i', w, h0, h1, _, _, rfl⟩
        · cases h0
        · cases h0
        · cases h0
        · cases h0
        · cases h0
        · refine ⟨lost + workerJobs w, ?_⟩
          have e := sum_map_set workerJobs s.workers i' _ .crashed h1
          rw [show workerJobs (.crashed : WState J A) = 0 from rfl, add_zero] at e
          rw [held_eq s, ← e]
          rw [held_eq { s with workers := s.workers.set i' .crashed }] at this
          simp only [completes, List.nil_append]
          calc _ = workerJobs w + (lost + ((finished p as _ : Multiset J) + held s' + jobs s'.queue
                + jobs s'.pending)) := by abel
            _ = _ := by rw [this]; abel_nf
      · refine ⟨lost, ?_⟩
        have hcf : CrashFree [a] := by
          intro i hi; simp only [List.mem_singleton] at hi; exact hcr ⟨i, hi.symm⟩
        have h1 := finished_conserved (p := p) (as := [a]) (s := s) (s' := s1) hcf (by simp [exec, hq])
        rw [finished_cons hq] at h1 ⊢
        simp only [finished, List.append_nil] at h1
        rw [← h1, ← Multiset.coe_add]
        calc _ = ((completes a s : List J) : Multiset J) + (lost + ((finished p as s1 : Multiset J) + held s' +
                jobs s'.queue + jobs s'.pending)) := by abel
          _ = _ := by rw [this]; abel

/-- A program that puts one result per job: the results are the tallies of the finished jobs, in order. -/
theorem perJob_results {f : J → R} {as : List Action} {s s' : State J Unit R}
    (h : exec (perJob f) as s = some s') :
    s'.results = s.results ++ (finished (perJob f) as s).map f := by
  induction as generalizing s with
  | nil => simp only [exec, Option.some.injEq] at h; subst h; simp [finished]
  | cons a as ih =>
    simp only [exec] at h
    cases hq : step (perJob f) a s with
    | none => rw [hq] at h; cases h
    | some s1 =>
      rw [hq] at h
      rw [ih h, finished_cons hq]
      rcases step_cases hq with ⟨x, rest, rfl, hp, rfl⟩ | ⟨i, b, j, q, rfl, h1, h2, rfl⟩ |
        ⟨i, b, q, rfl, h1, h2, rfl⟩ | ⟨i, b, j, rfl, h1, rfl⟩ | ⟨i, b, rfl, h1, rfl⟩ | ⟨i, w, rfl, h1, _, _, rfl⟩
      · simp [completes]
      · simp [completes]
      · simp [completes]
      · simp [h1, perJob, completes]
      · simp [h1, perJob, completes]
      · simp [completes]

theorem held_of_joined {s : State J A R} (h : Joined s) : held s = [] := by
  unfold held
  rw [List.filterMap_eq_nil_iff]
  intro w hw
  rcases h.2 w hw with ⟨a, rfl⟩ | rfl <;> rfl

end Verif.Engine

namespace Verif.Engine
variable {J A R : Type}

/-- FIFO: what is left to be taken is always a final part of what was to be produced. -/
theorem remaining_suffix {p : Prog J A R} {as : List Action} {s s' : State J A R}
    (h : exec p as s = some s') : (s'.queue ++ s'.pending) <:+ (s.queue ++ s.pending) := by
  refine exec_invariant p (fun t => (t.queue ++ t.pending) <:+ (s.queue ++ s.pending)) (fun _ => True) ?_ as s s'
    (fun _ _ => trivial) (List.suffix_refl _) h
  intro a t t' _ hI hs
  rcases step_cases hs with ⟨x, rest, _, hp, rfl⟩ | ⟨i, b, j, q, _, h1, h2, rfl⟩ | ⟨i, b, q, _, h1, h2, rfl⟩ |
    ⟨i, b, j, _, h1, rfl⟩ | ⟨i, b, _, h1, rfl⟩ | ⟨i, w, _, _, _, _, rfl⟩
  · simpa [hp] using hI
  · rw [h2] at hI; exact (List.suffix_cons _ _).trans hI
  · rw [h2] at hI; exact (List.suffix_cons _ _).trans hI
  · exact hI
  · exact hI
  · exact hI

/-- A worker's state after one step. -/
theorem step_worker {p : Prog J A R} {a : Action} {s s' : State J A R} (h : step p a s = some s') (k : Nat)
    (hk : a ≠ .take k ∧ a ≠ .work k ∧ a ≠ .crash k) : s'.workers[k]? = s.workers[k]? := by
  rcases step_cases h with ⟨x, rest, rfl, hp, rfl⟩ | ⟨i, b, j, q, rfl, h1, h2, rfl⟩ | ⟨i, b, q, rfl, h1, h2, rfl⟩ |
    ⟨i, b, j, rfl, h1, rfl⟩ | ⟨i, b, rfl, h1, rfl⟩ | ⟨i, w, rfl, _, _, _, rfl⟩
  · rfl
  all_goals
    have hik : i ≠ k := by rintro rfl; simp at hk
    simp [hik]

theorem set_self_getElem? {α : Type} {l : List α} {i : Nat} {x y : α} (h : l[i]? = some x) :
    (l.set i y)[i]? = some y := by
  obtain ⟨hi, _⟩ := List.getElem?_eq_some_iff.1 h
  simp [hi]

/-- Has the worker got its stop marker? -/
def stopped : WState J A → Nat
  | .idle _ => 0
  | .busy _ _ => 0
  | .stopping _ => 1
  | .done _ => 1
  | .crashed => 0

theorem stops_cons {p : Prog J A R} {k : Nat} {a : Action} {as : List Action} {s s1 : State J A R}
    (h : step p a s = some s1) :
    stops p k (a :: as) s = getsStop k a s + stops p k as s1 := by
  simp [stops, h]

theorem stops_eq {p : Prog J A R} {as : List Action} {s s' : State J A R} (hc : CrashFree as)
    (h : exec p as s = some s') (k : Nat) {w : WState J A} (hw : s.workers[k]? = some w) :
    ∃ w', s'.workers[k]? = some w' ∧ stopped w' = stopped w + stops p k as s := by
  induction as generalizing s w with
  | nil => simp only [exec, Option.some.injEq] at h; subst h; exact ⟨w, hw, by simp [stops]⟩
  | cons a as ih =>
    simp only [exec] at h
    cases hq : step p a s with
    | none => rw [hq] at h; cases h
    | some s1 =>
      rw [hq] at h
      have hc' : CrashFree as := fun i hi => hc i (by simp [hi])
      rw [stops_cons hq]
      by_cases hk : a ≠ .take k ∧ a ≠ .work k ∧ a ≠ .crash k
      · obtain ⟨w', h1, h2⟩ := ih hc' h ((step_worker hq k hk).trans hw)
        exact ⟨w', h1, by rw [h2, getsStop, if_neg hk.1]; omega⟩
      · have hk2 : a = .take k ∨ a = .work k := by
          have := hc k
          simp only [List.mem_cons, not_or] at this
          by_contra hcon
          simp only [not_or] at hcon
          exact hk ⟨hcon.1, hcon.2, Ne.symm this.1⟩
        rcases step_cases hq with ⟨x, rest, rfl, hp, rfl⟩ | ⟨i, b, j, q, rfl, h1, h2, rfl⟩ |
          ⟨i, b, q, rfl, h1, h2, rfl⟩ | ⟨i, b, j, rfl, h1, rfl⟩ | ⟨i, b, rfl, h1, rfl⟩ | ⟨i, w, rfl, _, _, _, rfl⟩
        · simp at hk2
        · simp only [Action.take.injEq, reduceCtorEq, or_false] at hk2
          subst hk2
          rw [h1] at hw; cases hw
          obtain ⟨w', h3, h4⟩ := ih hc' h (set_self_getElem? h1)
          exact ⟨w', h3, by rw [h4]; simp [stopped, h2, getsStop]⟩
        · simp only [Action.take.injEq, reduceCtorEq, or_false] at hk2
          subst hk2
          rw [h1] at hw; cases hw
          obtain ⟨w', h3, h4⟩ := ih hc' h (set_self_getElem? h1)
          exact ⟨w', h3, by rw [h4]; simp [stopped, h2, getsStop]⟩
        · simp only [Action.work.injEq, reduceCtorEq, false_or] at hk2
          subst hk2
          rw [h1] at hw; cases hw
          obtain ⟨w', h3, h4⟩ := ih hc' h (set_self_getElem? h1)
          exact ⟨w', h3, by rw [h4]; simp [stopped, getsStop]⟩
        · simp only [Action.work.injEq, reduceCtorEq, false_or] at hk2
          subst hk2
          rw [h1] at hw; cases hw
          obtain ⟨w', h3, h4⟩ := ih hc' h (set_self_getElem? h1)
          exact ⟨w', h3, by rw [h4]; simp [stopped, getsStop]⟩
        · simp at hk2

/-- No marker is lost along a crash-free run. -/
theorem markers_conserved {p : Prog J A R} {as : List Action} {W : Nat} {files : List J} {s : State J A R}
    (hc : CrashFree as) (h : exec p as (start p W files) = some s) :
    s.pending.countP Option.isNone + s.queue.countP Option.isNone + (s.workers.map stopped).sum = W := by
  let w : Weights J A R Nat :=
    { job := fun _ => 0, mark := 1, idle := fun _ => 0, stopping := fun _ => 1, done := fun _ => 1, res := fun _ => 0 }
  have hb : w.Balanced p := ⟨fun _ => rfl, fun _ _ => by simp [w], fun _ => by simp [w]⟩
  have e := Weights.conserved hb hc h
  rw [Weights.total_start] at e
  have e1 : ∀ q : List (Option J), (q.map w.entry).sum = q.countP Option.isNone := by
    intro q
    induction q with
    | nil => rfl
    | cons x q ih => cases x <;> simp [Weights.entry, w] at ih ⊢ <;> omega
  have e2 : w.worker = stopped := by
    funext x; cases x <;> rfl
  simp only [Weights.total, e1, e2] at e
  simpa [w] using e

/-- In a state nobody can continue, everything was produced, taken and stopped. -/
theorem maximal_joined {p : Prog J A R} {as : List Action} {W : Nat} {files : List J} {s : State J A R}
    (hW : 1 ≤ W) (hc : CrashFree as) (h : exec p as (start p W files) = some s) (hm : Maximal p s) :
    s.pending = [] ∧ s.queue = [] ∧ ∀ w ∈ s.workers, ∃ a, w = .done a := by
  have hp : s.pending = [] := by
    have := hm .produce (by simp)
    cases hq : s.pending with
    | nil => rfl
    | cons x r => simp [step, hq] at this
  have hlen : s.workers.length = W := by rw [workers_length h]; simp [start]
  have hmk := markers_conserved hc h
  have hnocrash : ∀ w ∈ s.workers, w ≠ .crashed := by
    refine exec_invariant p (fun t => ∀ w ∈ t.workers, w ≠ .crashed) (fun a => ∀ i, a ≠ .crash i) ?_ as
      (start p W files) s (fun a ha i hi => hc i (hi ▸ ha)) ?_ h
    · intro a t t' hok hI hs
      rcases step_cases hs with ⟨x, rest, _, hp, rfl⟩ | ⟨i, b, j, q, _, h1, h2, rfl⟩ | ⟨i, b, q, _, h1, h2, rfl⟩ |
        ⟨i, b, j, _, h1, rfl⟩ | ⟨i, b, _, h1, rfl⟩ | ⟨i, w, h, _, _, _, rfl⟩
      · exact hI
      · intro w hw; rcases List.mem_or_eq_of_mem_set hw with h | rfl <;> [exact hI w h; simp]
      · intro w hw; rcases List.mem_or_eq_of_mem_set hw with h | rfl <;> [exact hI w h; simp]
      · intro w hw; rcases List.mem_or_eq_of_mem_set hw with h | rfl <;> [exact hI w h; simp]
      · intro w hw; rcases List.mem_or_eq_of_mem_set hw with h | rfl <;> [exact hI w h; simp]
      · exact absurd h (hok i)
    · intro w hw
      simp only [start, List.mem_replicate] at hw
      rw [hw.2]; simp
  -- each worker is done or waits on an empty queue
  have hst : ∀ w ∈ s.workers, (∃ a, w = .done a) ∨ (s.queue = [] ∧ ∃ a, w = .idle a) := by
    intro w hw
    obtain ⟨i, hi⟩ := List.mem_iff_getElem?.1 hw
    cases w with
    | idle a =>
      right
      refine ⟨?_, a, rfl⟩
      have := hm (.take i) (by simp)
      cases hq : s.queue with
      | nil => rfl
      | cons x q => cases x <;> simp [step, hi, hq] at this
    | busy a j => have := hm (.work i) (by simp); simp [step, hi] at this
    | stopping a => have := hm (.work i) (by simp); simp [step, hi] at this
    | done a => exact Or.inl ⟨a, rfl⟩
    | crashed => exact absurd rfl (hnocrash _ hw)
  have hsum_le : ∀ l : List (WState J A), (l.map stopped).sum ≤ l.length := by
    intro l
    induction l with
    | nil => simp
    | cons x l ih => cases x <;> simp [stopped] <;> omega
  have hsum_lt : ∀ l : List (WState J A), (∃ a, WState.idle a ∈ l) → (l.map stopped).sum < l.length := by
    intro l ⟨a, ha⟩
    induction l with
    | nil => simp at ha
    | cons x l ih =>
      have := hsum_le l
      rcases List.mem_cons.1 ha with rfl | ha
      · simp [stopped]; omega
      · have := ih ha
        cases x <;> simp [stopped] <;> omega
  rw [hp] at hmk
  simp only [List.countP_nil, zero_add] at hmk
  have hall : ∀ w ∈ s.workers, ∃ a, w = .done a := by
    intro w hw
    rcases hst w hw with h1 | ⟨hq, a, rfl⟩
    · exact h1
    · exfalso
      have := hsum_lt s.workers ⟨a, hw⟩
      rw [hq] at hmk
      simp only [List.countP_nil, zero_add] at hmk
      omega
  refine ⟨hp, ?_, hall⟩
  -- all markers are taken, so by FIFO order no job is left
  have hs1 : (s.workers.map stopped).sum = W := by
    rw [← hlen]
    have : ∀ l : List (WState J A), (∀ w ∈ l, ∃ a, w = .done a) → (l.map stopped).sum = l.length := by
      intro l
      induction l with
      | nil => simp
      | cons x l ih =>
        intro hl
        obtain ⟨a, rfl⟩ := hl x (by simp)
        rw [List.map_cons, List.sum_cons, ih (fun w hw => hl w (by simp [hw])), List.length_cons]
        simp [stopped]; omega
    exact this _ hall
  have hnone : s.queue.countP Option.isNone = 0 := by omega
  have hsuf := remaining_suffix h
  rw [hp, List.append_nil] at hsuf
  simp only [start, List.nil_append] at hsuf
  obtain ⟨t, ht⟩ := hsuf
  by_contra hne
  have hlast : s.queue.getLast hne = none := by
    have e1 : (t ++ s.queue).getLast (by simp [hne]) = s.queue.getLast hne := List.getLast_append_of_ne_nil _ hne
    have hr : List.replicate W (none : Option J) ≠ [] := by simp; omega
    have e2 : (files.map some ++ List.replicate W none).getLast (by simp [hr]) = (none : Option J) := by
      rw [List.getLast_append_of_ne_nil _ hr, List.getLast_replicate]
    rw [← e1, ← e2]
    congr 1
  have : (none : Option J) ∈ s.queue := hlast ▸ List.getLast_mem hne
  have : 0 < s.queue.countP Option.isNone := List.countP_pos_iff.2 ⟨none, this, rfl⟩
  omega

/-- `first` is still set exactly when the worker got no job. -/
def firstFlag {T : Type} : WState J (Bool × T) → Bool
  | .idle a => a.1
  | .busy _ _ => false
  | .stopping a => a.1
  | .done a => a.1
  | .crashed => false

theorem firstFlag_eq {T : Type} {t0 : T} {upd : T → J → T} {as : List Action}
    {s s' : State J (Bool × T) (TokRes T)} (hc : CrashFree as)
    (h : exec (tokenProg t0 upd) as s = some s') (k : Nat) {w : WState J (Bool × T)}
    (hw : s.workers[k]? = some w) :
    ∃ w', s'.workers[k]? = some w' ∧
      firstFlag w' = (firstFlag w && (received (tokenProg t0 upd) k as s).isEmpty) := by
  induction as generalizing s w with
  | nil => simp only [exec, Option.some.injEq] at h; subst h; exact ⟨w, hw, by simp [received]⟩
  | cons a as ih =>
    simp only [exec] at h
    cases hq : step (tokenProg t0 upd) a s with
    | none => rw [hq] at h; cases h
    | some s1 =>
      rw [hq] at h
      have hc' : CrashFree as := fun i hi => hc i (by simp [hi])
      rw [received_cons hq]
      by_cases hk : a ≠ .take k ∧ a ≠ .work k ∧ a ≠ .crash k
      · obtain ⟨w', h1, h2⟩ := ih hc' h ((step_worker hq k hk).trans hw)
        exact ⟨w', h1, by rw [h2, gets, if_neg hk.1]; simp⟩
      · have hk2 : a = .take k ∨ a = .work k := by
          have := hc k
          simp only [List.mem_cons, not_or] at this
          by_contra hcon
          simp only [not_or] at hcon
          exact hk ⟨hcon.1, hcon.2, Ne.symm this.1⟩
        rcases step_cases hq with ⟨x, rest, rfl, hp, rfl⟩ | ⟨i, b, j, q, rfl, h1, h2, rfl⟩ |
          ⟨i, b, q, rfl, h1, h2, rfl⟩ | ⟨i, b, j, rfl, h1, rfl⟩ | ⟨i, b, rfl, h1, rfl⟩ | ⟨i, w, rfl, _, _, _, rfl⟩
        · simp at hk2
        · simp only [Action.take.injEq, reduceCtorEq, or_false] at hk2
          subst hk2
          rw [h1] at hw; cases hw
          obtain ⟨w', h3, h4⟩ := ih hc' h (set_self_getElem? h1)
          exact ⟨w', h3, by rw [h4]; simp [firstFlag, h2, gets]⟩
        · simp only [Action.take.injEq, reduceCtorEq, or_false] at hk2
          subst hk2
          rw [h1] at hw; cases hw
          obtain ⟨w', h3, h4⟩ := ih hc' h (set_self_getElem? h1)
          exact ⟨w', h3, by rw [h4]; simp [firstFlag, h2, gets]⟩
        · simp only [Action.work.injEq, reduceCtorEq, false_or] at hk2
          subst hk2
          rw [h1] at hw; cases hw
          obtain ⟨w', h3, h4⟩ := ih hc' h (set_self_getElem? h1)
          exact ⟨w', h3, by rw [h4]; simp [firstFlag, tokenProg]⟩
        · simp only [Action.work.injEq, reduceCtorEq, false_or] at hk2
          subst hk2
          rw [h1] at hw; cases hw
          obtain ⟨w', h3, h4⟩ := ih hc' h (set_self_getElem? h1)
          exact ⟨w', h3, by rw [h4]; simp [firstFlag, gets]⟩
        · simp at hk2

end Verif.Engine
