import Verif.Engine.Lemmas

/-!
# Runs of one worker program seen as runs of another
-/

namespace Verif.Flow
open Verif.Engine

variable {J A A' R R' : Type}

/-- A worker with its local state replaced. -/
def mapWorker (g : A → A') : WState J A → WState J A'
  | .idle a => .idle (g a)
  | .busy a j => .busy (g a) j
  | .stopping a => .stopping (g a)
  | .done a => .done (g a)
  | .crashed => .crashed

/-- A state with local states and results replaced. -/
def mapState (g : A → A') (r : R → R') (s : State J A R) : State J A' R' :=
  { pending := s.pending, queue := s.queue, workers := s.workers.map (mapWorker g), results := s.results.map r }

/-- The second program does on the images what the first does. -/
structure Simulates (p : Prog J A R) (p' : Prog J A' R') (g : A → A') (r : R → R') : Prop where
  init : p'.init = g p.init
  onJob : ∀ a j, p'.onJob (g a) j = (g (p.onJob a j).1, (p.onJob a j).2.map r)
  onStop : ∀ a, p'.onStop (g a) = (p.onStop a).map r

variable {p : Prog J A R} {p' : Prog J A' R'} {g : A → A'} {r : R → R'}

theorem step_map (h : Simulates p p' g r) (a : Action) (t : State J A R) :
    step p' a (mapState g r t) = (step p a t).map (mapState g r) := by
  cases a with
  | produce =>
    cases hp : t.pending with
    | nil => simp [step, mapState, hp]
    | cons x q => simp [step, mapState, hp]
  | take i =>
    cases hw : t.workers[i]? with
    | none => simp [step, mapState, hw]
    | some w =>
      cases w <;> cases hq : t.queue with
      | nil => simp [step, mapState, hw, hq, mapWorker]
      | cons x q => cases x <;> simp [step, mapState, hw, hq, mapWorker, List.map_set]
  | work i =>
    cases hw : t.workers[i]? with
    | none => simp [step, mapState, hw]
    | some w =>
      cases w <;> simp [step, mapState, hw, mapWorker, List.map_set, h.onJob, h.onStop]
  | crash i =>
    cases hw : t.workers[i]? with
    | none => simp [step, mapState, hw]
    | some w =>
      cases w <;> simp [step, mapState, hw, mapWorker, List.map_set]

theorem exec_map (h : Simulates p p' g r) (as : List Action) (t : State J A R) :
    exec p' as (mapState g r t) = (exec p as t).map (mapState g r) := by
  induction as generalizing t with
  | nil => rfl
  | cons a as ih =>
    simp only [exec, step_map h]
    cases step p a t with
    | none => rfl
    | some t' => exact ih t'

theorem start_map (h : Simulates p p' g r) (W : Nat) (files : List J) :
    start p' W files = mapState g r (start p W files) := by
  simp [start, mapState, mapWorker, h.init]

theorem received_map (h : Simulates p p' g r) (i : Nat) (as : List Action) (t : State J A R) :
    received p' i as (mapState g r t) = received p i as t := by
  induction as generalizing t with
  | nil => rfl
  | cons a as ih =>
    simp only [received, step_map h]
    congr 1
    cases step p a t with
    | none => rfl
    | some t' => exact ih t'

theorem joined_map (g : A → A') (r : R → R') (t : State J A R) (h : Joined (mapState g r t)) : Joined t := by
  refine ⟨h.1, fun w hw => ?_⟩
  have := h.2 (mapWorker g w) (List.mem_map.2 ⟨w, hw, rfl⟩)
  cases w with
  | done a => exact Or.inl ⟨a, rfl⟩
  | crashed => exact Or.inr rfl
  | idle a => rcases this with ⟨_, h⟩ | h <;> cases h
  | busy a j => rcases this with ⟨_, h⟩ | h <;> cases h
  | stopping a => rcases this with ⟨_, h⟩ | h <;> cases h

theorem readN_map (g : A → A') (r : R → R') (n : Nat) (t : State J A R) :
    readN n (mapState g r t) = (readN n t).map (List.map r) := by
  unfold readN mapState
  simp only [List.length_map]
  split <;> simp [List.map_take]

/-- A run of the second program comes from a run of the first with the same actions. -/
theorem run_of_sim (h : Simulates p p' g r) {W : Nat} {files : List J} {as : List Action} {s' : State J A' R'}
    (he : exec p' as (start p' W files) = some s') :
    ∃ s, exec p as (start p W files) = some s ∧ s' = mapState g r s := by
  rw [start_map h, exec_map h] at he
  obtain ⟨s, h1, h2⟩ := Option.map_eq_some_iff.1 he
  exact ⟨s, h1, h2.symm⟩

end Verif.Flow
