import Verif.Engine.Lemmas

/-!
# Workers that accumulate and put once at the end

What any run of such a program puts, in terms of how the files were shared among the workers.
-/

namespace Verif.Engine

variable {J A R : Type}

/-- In a crash-free joined run with a worker nothing is left in the job queue. -/
theorem joined_queue_nil {p : Prog J A R} {as : List Action} {W : Nat} {files : List J} {s : State J A R}
    (hW : 1 ≤ W) (hc : CrashFree as) (h : exec p as (start p W files) = some s) (hj : Joined s) : s.queue = [] := by
  refine (maximal_joined hW hc h ?_).2.1
  have hno : ∀ w ∈ s.workers, w ≠ .crashed := by
    refine exec_invariant p (fun t => ∀ w ∈ t.workers, w ≠ .crashed) (fun a => ∀ i, a ≠ .crash i) ?_ as
      (start p W files) s (fun a ha i hi => hc i (hi ▸ ha)) ?_ h
    · intro a t t' hok hI hs
      rcases step_cases hs with ⟨x, rest, _, hp, rfl⟩ | ⟨i, b, j, q, _, h1, h2, rfl⟩ | ⟨i, b, q, _, h1, h2, rfl⟩ |
        ⟨i, b, j, _, h1, rfl⟩ | ⟨i, b, _, h1, rfl⟩ | ⟨i, w, h, _, _, _, rfl⟩
      · exact hI
      · intro w hw; rcases List.mem_or_eq_of_mem_set hw with h | rfl <;> [exact hI w h; simp]
      · intro w hw; rcases List.mem_or_eq_of_mem_set hw with h | rfl <;> [exact hI w h; simp]
      · intro w hw; rcases List.mem_or_eq_of_mem_set hw with h | rfl <;> [exact hI w h; simp]
      · intro w hw; rcases List.mem_or_eq_of_mem_set hw with h | rfl <;> [exact hI w h; simp]
      · exact absurd h (hok i)
    · intro w hw
      simp only [start, List.mem_replicate] at hw
      rw [hw.2]; simp
  have hdone : ∀ (i : Nat) w, s.workers[i]? = some w → ∃ a, w = .done a := by
    intro i w hi
    have hw := List.mem_iff_getElem?.2 ⟨i, hi⟩
    rcases hj.2 w hw with h | h
    · exact h
    · exact absurd h (hno w hw)
  intro a ha
  cases a with
  | produce => simp [step, hj.1]
  | crash i => exact absurd rfl (ha i)
  | take i =>
    cases hi : s.workers[i]? with
    | none => simp [step, hi]
    | some w => obtain ⟨b, rfl⟩ := hdone i w hi; simp [step, hi]
  | work i =>
    cases hi : s.workers[i]? with
    | none => simp [step, hi]
    | some w => obtain ⟨b, rfl⟩ := hdone i w hi; simp [step, hi]

theorem sum_singletons (l : List J) : (l.map (fun j => ({j} : Multiset J))).sum = ↑l := by
  induction l with
  | nil => rfl
  | cons a l ih => rw [List.map_cons, List.sum_cons, ih]; rfl

/-- The program that records which files a worker got. -/
def recorder (J : Type) : Prog J (List J) (List J) := accumulate [] (fun l j => l ++ [j]) (fun l => [l])

/-- A worker of an accumulating program, from what it got. -/
def imgWorker (a0 : A) (upd : A → J → A) : WState J (List J) → WState J A
  | .idle l => .idle (l.foldl upd a0)
  | .busy l j => .busy (l.foldl upd a0) j
  | .stopping l => .stopping (l.foldl upd a0)
  | .done l => .done (l.foldl upd a0)
  | .crashed => .crashed

/-- A state of an accumulating program, from the recorder's state. -/
def img (a0 : A) (upd : A → J → A) (emit : A → List R) (t : State J (List J) (List J)) : State J A R :=
  { pending := t.pending, queue := t.queue, workers := t.workers.map (imgWorker a0 upd)
    results := t.results.flatMap (fun l => emit (l.foldl upd a0)) }

theorem step_img (a0 : A) (upd : A → J → A) (emit : A → List R) (a : Action) (t : State J (List J) (List J)) :
    step (accumulate a0 upd emit) a (img a0 upd emit t) = (step (recorder J) a t).map (img a0 upd emit) := by
  cases a with
  | produce =>
    cases hp : t.pending with
    | nil => simp [step, img, hp]
    | cons x r => simp [step, img, hp]
  | take i =>
    cases hw : t.workers[i]? with
    | none => simp [step, img, hw]
    | some w =>
      cases w <;> cases hq : t.queue with
      | nil => simp [step, img, hw, hq, imgWorker]
      | cons x q => cases x <;> simp [step, img, hw, hq, imgWorker, List.map_set]
  | work i =>
    cases hw : t.workers[i]? with
    | none => simp [step, img, hw]
    | some w =>
      cases w <;> simp [step, img, hw, imgWorker, List.map_set, accumulate, recorder, List.foldl_append]
  | crash i =>
    cases hw : t.workers[i]? with
    | none => simp [step, img, hw]
    | some w =>
      cases w <;> simp [step, img, hw, imgWorker, List.map_set]

theorem exec_img (a0 : A) (upd : A → J → A) (emit : A → List R) (as : List Action) (t : State J (List J) (List J)) :
    exec (accumulate a0 upd emit) as (img a0 upd emit t) = (exec (recorder J) as t).map (img a0 upd emit) := by
  induction as generalizing t with
  | nil => rfl
  | cons a as ih =>
    simp only [exec, step_img]
    cases step (recorder J) a t with
    | none => rfl
    | some t' => exact ih t'

/-- Whatever happens (deaths included), the results come from disjoint shares of the files. -/
theorem accumulate_le {a0 : A} {upd : A → J → A} {emit : A → List R} {as : List Action} {W : Nat} {files : List J}
    {s : State J A R} (h : exec (accumulate a0 upd emit) as (start (accumulate a0 upd emit) W files) = some s) :
    ∃ parts : List (List J), parts.flatten.Subperm files ∧
      s.results = parts.flatMap (fun l => emit (l.foldl upd a0)) := by
  have h0 : start (accumulate a0 upd emit) W files = img a0 upd emit (start (recorder J) W files) := by
    simp [start, img, accumulate, recorder, imgWorker]
  rw [h0, exec_img] at h
  cases ht : exec (recorder J) as (start (recorder J) W files) with
  | none => rw [ht] at h; cases h
  | some t =>
    rw [ht] at h
    simp only [Option.map_some, Option.some.injEq] at h
    subst h
    refine ⟨t.results, ?_, rfl⟩
    let w : Weights J (List J) (List J) (Multiset J) :=
      { job := fun j => {j}, mark := 0, idle := fun l => ↑l, stopping := fun l => ↑l, done := fun _ => 0, res := fun l => ↑l }
    have hle : w.total t ≤ ↑files := by
      refine exec_invariant (recorder J) (fun t => w.total t ≤ ↑files) (fun _ => True) ?_ as
        (start (recorder J) W files) t (fun _ _ => trivial) ?_ ht
      · intro a t t' _ hI hs
        refine le_trans ?_ hI
        by_cases hcr : ∃ i, a = .crash i
        · obtain ⟨i, rfl⟩ := hcr
          rcases step_cases hs with ⟨x, rest, h, _⟩ | ⟨_, b, j, q, h, _⟩ | ⟨_, b, q, h, _⟩ | ⟨_, b, j, h, _⟩ | ⟨_, b, h, _⟩ |
            ⟨k, x, _, h1, _, _, rfl⟩
          · cases h
          · cases h
          · cases h
          · cases h
          · cases h
          · have e := sum_map_set w.worker t.workers k _ .crashed h1
            simp only [Weights.worker, add_zero] at e
            have e' : ((t.workers.set k .crashed).map w.worker).sum ≤ (t.workers.map w.worker).sum := by
              refine le_trans (Multiset.le_add_right _ (w.worker x)) (le_of_eq ?_)
              exact e
            unfold Weights.total
            exact add_le_add (add_le_add (le_refl _) e') (le_refl _)
        · have hb : w.Balanced (recorder J) := by
            refine ⟨fun l => by simp [w], fun l j => ?_, fun l => ?_⟩
            · simp [w, recorder, accumulate]
              rfl
            · simp [w, recorder, accumulate]
          have := Weights.conserved hb (as := [a]) (s := t) (s' := t')
            (by intro i hi; simp only [List.mem_singleton] at hi; exact hcr ⟨i, hi.symm⟩) (by simp [exec, hs])
          exact le_of_eq this
      · rw [Weights.total_start]
        simp [w, recorder, accumulate, sum_singletons]
    have : (t.results.flatten : Multiset J) = (t.results.map w.res).sum := by
      induction t.results with
      | nil => rfl
      | cons l r ih => simp only [List.flatten_cons, ← Multiset.coe_add, List.map_cons, List.sum_cons, ih]; rfl
    rw [← Multiset.coe_le, this]
    exact le_trans (Multiset.le_add_left _ _) hle

/-- In a crash-free joined run every worker puts once, and the shares make up the files. -/
theorem accumulate_results {a0 : A} {upd : A → J → A} {emit : A → List R} {as : List Action} {W : Nat} (hW : 1 ≤ W)
    {files : List J} {s : State J A R} (hc : CrashFree as)
    (h : exec (accumulate a0 upd emit) as (start (accumulate a0 upd emit) W files) = some s) (hj : Joined s) :
    ∃ parts : List (List J), parts.length = W ∧ parts.flatten.Perm files ∧
      s.results = parts.flatMap (fun l => emit (l.foldl upd a0)) := by
  have hq := joined_queue_nil hW hc h hj
  have h0 : start (accumulate a0 upd emit) W files = img a0 upd emit (start (recorder J) W files) := by
    simp [start, img, accumulate, recorder, imgWorker]
  rw [h0, exec_img] at h
  cases ht : exec (recorder J) as (start (recorder J) W files) with
  | none => rw [ht] at h; cases h
  | some t =>
    rw [ht] at h
    simp only [Option.map_some, Option.some.injEq] at h
    subst h
    have hp : t.pending = [] := hj.1
    have hq : t.queue = [] := hq
    have hw : ∀ x ∈ t.workers, (∃ l, x = .done l) ∨ x = .crashed := by
      intro x hx
      have := hj.2 (imgWorker a0 upd x) (by simp only [img, List.mem_map]; exact ⟨x, hx, rfl⟩)
      cases x <;> simp_all [imgWorker]
    refine ⟨t.results, ?_, ?_, rfl⟩
    · let w : Weights J (List J) (List J) Nat :=
        { job := fun _ => 0, mark := 0, idle := fun _ => 1, stopping := fun _ => 1, done := fun _ => 0, res := fun _ => 1 }
      have hb : w.Balanced (recorder J) := by
        refine ⟨fun l => by simp [w], fun l j => ?_, fun l => ?_⟩ <;> simp [w, recorder, accumulate]
      have e := Weights.conserved hb hc ht
      rw [Weights.total_start] at e
      have hz : (t.workers.map w.worker).sum = 0 := by
        rw [List.sum_eq_zero]
        intro x hx
        obtain ⟨y, hy, rfl⟩ := List.mem_map.1 hx
        rcases hw y hy with ⟨l, rfl⟩ | rfl <;> rfl
      have hr : (t.results.map w.res).sum = t.results.length := by simp [w]
      simp only [Weights.total, hp, hq, List.map_nil, List.sum_nil, hz, hr] at e
      simpa [w] using e
    · let w : Weights J (List J) (List J) (Multiset J) :=
        { job := fun j => {j}, mark := 0, idle := fun l => ↑l, stopping := fun l => ↑l, done := fun _ => 0, res := fun l => ↑l }
      have hb : w.Balanced (recorder J) := by
        refine ⟨fun l => by simp [w], fun l j => ?_, fun l => ?_⟩
        · simp [w, recorder, accumulate]
          rfl
        · simp [w, recorder, accumulate]
      have e := Weights.conserved hb hc ht
      rw [Weights.total_start] at e
      have hz : (t.workers.map w.worker).sum = 0 := by
        rw [List.sum_eq_zero]
        intro x hx
        obtain ⟨y, hy, rfl⟩ := List.mem_map.1 hx
        rcases hw y hy with ⟨l, rfl⟩ | rfl <;> rfl
      have hr : (t.results.flatten : Multiset J) = (t.results.map w.res).sum := by
        induction t.results with
        | nil => rfl
        | cons l r ih => simp only [List.flatten_cons, ← Multiset.coe_add, List.map_cons, List.sum_cons, ih]; rfl
      simp only [Weights.total, hp, hq, List.map_nil, List.sum_nil, hz, zero_add] at e
      rw [← Multiset.coe_eq_coe, hr, e]
      simp [w, recorder, accumulate, sum_singletons]

end Verif.Engine
