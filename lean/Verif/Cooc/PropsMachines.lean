import Verif.Cooc.Props
import Verif.Engine.Props

/-!
# C169: counts on different machines
-/

set_option linter.unusedSectionVars false

namespace Verif.Cooc
open Verif.Py Verif.Vocab Verif.Corpus Verif.Window Verif.Engine Verif.Matrix

variable {ℓ μ κ : Type} [LinearOrder κ]

/-- Number of processes a handler starts on a machine with `cpus` processors. -/
def started (workers : Int) (cpus : Nat) : Nat := (workerCount workers cpus).toNat

/-- `build_col_freq` of a handler asked for `workers` workers on a machine with `cpus` processors may give `res`: some
run without worker deaths in which everything the parent waits for has happened. -/
def ColCall (f : Formatter ℓ μ κ) (L R : Nat) (rowv colv : Vocab κ) (workers : Int) (cpus : Nat) (files : List (List ℓ))
    (res : Except Matrix.Err (Option (Mtx κ Int))) : Prop :=
  ∃ as s, CrashFree as ∧ exec (colProg f L R rowv colv) as (start (colProg f L R rowv colv) (started workers cpus) files) = some s ∧
    Joined s ∧ buildColFreq rowv s = res

/-- **C169 (partial).** The full claim has no lower bound on the processors (see `C169_false_one_processor`).  On two
machines with at least two processors each, whatever numbers of workers are asked for: both calls give nothing, or both
give a matrix with the same rows, the same columns and the same counts. -/
theorem C169_partial (f : Formatter ℓ μ κ) (L R : Nat) (rowv colv : Vocab κ) (hrw : Constructed rowv)
    (hc : Constructed colv) (files : List (List ℓ)) (w w' : Int) (cpus cpus' : Nat) (h2 : 2 ≤ cpus) (h2' : 2 ≤ cpus')
    (res res' : Except Matrix.Err (Option (Mtx κ Int)))
    (h : ColCall f L R rowv colv w cpus files res) (h' : ColCall f L R rowv colv w' cpus' files res') :
    (res = .ok none ∧ res' = .ok none) ∨
    ∃ m m', res = .ok (some m) ∧ res' = .ok (some m') ∧ m.rows = m'.rows ∧ m.cols = m'.cols ∧
      ∀ t c, entry m t c = entry m' t c := by
  obtain ⟨as, s, hcf, he, hj, rfl⟩ := h
  obtain ⟨as', s', hcf', he', hj', rfl⟩ := h'
  have e1 : 1 ≤ started w cpus := by
    have := (C08_workers_partial w cpus (by exact_mod_cast h2)).1
    unfold started; omega
  have e2 : 1 ≤ started w' cpus' := by
    have := (C08_workers_partial w' cpus' (by exact_mod_cast h2')).1
    unfold started; omega
  exact C04_deterministic f L R rowv colv hrw hc e1 e2 (List.Perm.refl files) hcf hcf' he hj he' hj'

/-- With no worker nothing is counted. -/
theorem no_worker_results {J A R : Type} (p : Prog J A R) (files : List J) (as : List Action) (s : State J A R)
    (h : exec p as (start p 0 files) = some s) : s.results = [] := by
  refine (exec_invariant p (fun t => t.workers = [] ∧ t.results = []) (fun _ => True) ?_ as _ s
    (fun _ _ => trivial) ⟨rfl, rfl⟩ h).2
  intro a t t' _ hI hs
  rcases step_cases hs with ⟨x, rest, _, hp, rfl⟩ | ⟨i, b, j, q, _, h1, h2, rfl⟩ |
    ⟨i, b, q, _, h1, h2, rfl⟩ | ⟨i, b, j, _, h1, rfl⟩ | ⟨i, b, _, h1, rfl⟩ | ⟨i, w, _, h1, _, _, rfl⟩
  · exact hI
  all_goals rw [hI.1] at h1; simp at h1

theorem exec_produce {J A R : Type} (p : Prog J A R) (xs : List (Option J)) : ∀ q ws rs,
    exec p (List.replicate xs.length .produce) ⟨xs, q, ws, rs⟩ = some ⟨[], q ++ xs, ws, rs⟩ := by
  induction xs with
  | nil => intro q ws rs; simp [exec]
  | cons x xs ih =>
    intro q ws rs
    simp only [List.length_cons, List.replicate_succ, exec, step, Option.bind_some]
    rw [ih]; simp

/-- **C169 is false** on a machine with one processor: the call always returns, without an error, and gives nothing,
whatever number of workers is asked for and whatever is in the corpus. -/
theorem C169_false_one_processor (f : Formatter ℓ μ κ) (L R : Nat) (rowv colv : Vocab κ) (w : Int)
    (files : List (List ℓ)) (res : Except Matrix.Err (Option (Mtx κ Int))) :
    ColCall f L R rowv colv w 1 files res ↔ res = .ok none := by
  have e : started w 1 = 0 := by unfold started; rw [(show ((1 : Nat) : Int) = 1 from rfl), (C08_false_one_cpu w).1]; rfl
  unfold ColCall
  rw [e]
  have hb : ∀ as s, exec (colProg f L R rowv colv) as (start (colProg f L R rowv colv) 0 files) = some s →
      buildColFreq rowv s = .ok none := by
    intro as s h
    unfold buildColFreq
    split
    · rfl
    · rw [readAll, no_worker_results _ files as s h]; rfl
  constructor
  · rintro ⟨as, s, _, h, _, rfl⟩
    exact hb as s h
  · rintro rfl
    have hx := exec_produce (colProg f L R rowv colv) (files.map some) [] [] []
    have h : exec (colProg f L R rowv colv) (List.replicate (files.map some).length .produce)
        (start (colProg f L R rowv colv) 0 files) = some ⟨[], [] ++ files.map some, [], []⟩ := by
      rw [← hx]; simp [start]
    refine ⟨_, _, ?_, h, ⟨rfl, by simp⟩, hb _ _ h⟩
    intro i hi
    have := List.eq_of_mem_replicate hi
    cases this

/-- The two files `1 2 3` and `2 1`: with two workers on three processors the counts are made, on one processor
nothing is. -/
example : (∃ m, ColCall fmt 1 1 rowv12 Vocab.empty 2 3 [[1, 2, 3], [2, 1]] (.ok (some m)) ∧ entry m 1 2 = 2) ∧
    ColCall fmt 1 1 rowv12 Vocab.empty 2 1 [[1, 2, 3], [2, 1]] (.ok none) := by
  refine ⟨⟨⟨.sp ⟨.csr, 2, 3, [((0, 1), 2), ((1, 0), 2), ((1, 2), 1)]⟩, [1, 2], [1, 2, 3]⟩, ⟨run2,
    ⟨[], [], [.done held21, .done held123], [.sub sub123, .sub sub21]⟩, by intro i; simp [run2], rfl, ⟨rfl, ?_⟩, rfl⟩, rfl⟩,
    (C169_false_one_processor _ _ _ _ _ _ _ _).2 rfl⟩
  intro w hw
  simp only [List.mem_cons, List.not_mem_nil, or_false] at hw
  exact Or.inl (by rcases hw with rfl | rfl <;> exact ⟨_, rfl⟩)

end Verif.Cooc
