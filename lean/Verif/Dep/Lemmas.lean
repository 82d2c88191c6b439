import Verif.Dep.Graph
import Mathlib.Data.List.Nodup
import Mathlib.Data.List.Perm.Subperm
import Mathlib.Logic.Relation

set_option linter.unusedSectionVars false

/-!
# Rooted trees and their levels
-/

namespace Verif.Dep
open Verif.Py

variable {α β : Type}

/-! ### Specification -/

/-- There is an edge from `u` to `v`. -/
def HasEdge (g : DG α β) (u v : Nat) : Prop := (u, v) ∈ g.edges.keys

/-- Specification: `g` is a tree with root `r`: every node but the root has exactly one head, the root has none, and
everything is reached from the root. -/
structure RootedTree (g : DG α β) (r : Nat) : Prop where
  nodesWF : g.nodes.WF
  edgesWF : g.edges.WF
  ends : ∀ u v, HasEdge g u v → u ∈ g.nodes.keys ∧ v ∈ g.nodes.keys
  root : r ∈ g.nodes.keys
  rootTop : ∀ u, ¬ HasEdge g u r
  oneHead : ∀ u u' v, HasEdge g u v → HasEdge g u' v → u = u'
  reach : ∀ v ∈ g.nodes.keys, Relation.ReflTransGen (HasEdge g) r v

/-- Specification: a directed path from `u` to `v` through `n` nodes (ends included). -/
inductive PathN (g : DG α β) (u : Nat) : Nat → Nat → Prop where
  | one : u ∈ g.nodes.keys → PathN g u u 1
  | step {v w n} : PathN g u v n → HasEdge g v w → PathN g u w (n + 1)

/-! ### Successors and predecessors -/

theorem mem_succ {g : DG α β} {u v : Nat} : v ∈ g.succ u ↔ HasEdge g u v := by
  unfold DG.succ HasEdge Dict.keys
  constructor
  · intro h
    obtain ⟨e, he, rfl⟩ := List.mem_map.1 h
    obtain ⟨h1, h2⟩ := List.mem_filter.1 he
    simp only [decide_eq_true_eq] at h2
    exact List.mem_map.2 ⟨e, h1, by rw [← h2]⟩
  · intro h
    obtain ⟨e, he, h2⟩ := List.mem_map.1 h
    exact List.mem_map.2 ⟨e, List.mem_filter.2 ⟨he, by simp [h2]⟩, by rw [h2]⟩

theorem mem_pred {g : DG α β} {u v : Nat} : u ∈ g.pred v ↔ HasEdge g u v := by
  unfold DG.pred HasEdge Dict.keys
  constructor
  · intro h
    obtain ⟨e, he, rfl⟩ := List.mem_map.1 h
    obtain ⟨h1, h2⟩ := List.mem_filter.1 he
    simp only [decide_eq_true_eq] at h2
    exact List.mem_map.2 ⟨e, h1, by rw [← h2]⟩
  · intro h
    obtain ⟨e, he, h2⟩ := List.mem_map.1 h
    exact List.mem_map.2 ⟨e, List.mem_filter.2 ⟨he, by simp [h2]⟩, by rw [h2]⟩

theorem succ_nodup {g : DG α β} (h : g.edges.WF) (u : Nat) : (g.succ u).Nodup := by
  unfold DG.succ
  have h1 : ((g.edges.filter (fun e => decide (e.1.1 = u))).map Prod.fst).Nodup := Dict.WF_filter h _
  have e : (g.edges.filter (fun e => decide (e.1.1 = u))).map (fun e => e.1.2) =
      ((g.edges.filter (fun e => decide (e.1.1 = u))).map Prod.fst).map Prod.snd := by rw [List.map_map]; rfl
  rw [e]
  refine List.Nodup.map_on ?_ h1
  intro x hx y hy hxy
  obtain ⟨a, ha, rfl⟩ := List.mem_map.1 hx
  obtain ⟨b, hb, rfl⟩ := List.mem_map.1 hy
  have h2 := (List.mem_filter.1 ha).2
  have h3 := (List.mem_filter.1 hb).2
  simp only [decide_eq_true_eq] at h2 h3
  exact Prod.ext (h2.trans h3.symm) hxy

theorem pred_nodup {g : DG α β} (h : g.edges.WF) (u : Nat) : (g.pred u).Nodup := by
  unfold DG.pred
  have h1 : ((g.edges.filter (fun e => decide (e.1.2 = u))).map Prod.fst).Nodup := Dict.WF_filter h _
  have e : (g.edges.filter (fun e => decide (e.1.2 = u))).map (fun e => e.1.1) =
      ((g.edges.filter (fun e => decide (e.1.2 = u))).map Prod.fst).map Prod.fst := by rw [List.map_map]; rfl
  rw [e]
  refine List.Nodup.map_on ?_ h1
  intro x hx y hy hxy
  obtain ⟨a, ha, rfl⟩ := List.mem_map.1 hx
  obtain ⟨b, hb, rfl⟩ := List.mem_map.1 hy
  have h2 := (List.mem_filter.1 ha).2
  have h3 := (List.mem_filter.1 hb).2
  simp only [decide_eq_true_eq] at h2 h3
  exact Prod.ext hxy (h2.trans h3.symm)

theorem outDeg_zero {g : DG α β} {v : Nat} : g.outDeg v = 0 ↔ ∀ w, ¬ HasEdge g v w := by
  unfold DG.outDeg
  rw [List.length_eq_zero_iff, List.eq_nil_iff_forall_not_mem]
  exact forall_congr' fun w => not_congr mem_succ

namespace RootedTree
variable {g : DG α β} {r : Nat} (T : RootedTree g r)
include T

theorem pred_root : g.pred r = [] := List.eq_nil_iff_forall_not_mem.2 fun u hu => T.rootTop u (mem_pred.1 hu)

theorem pred_eq {u v : Nat} (h : HasEdge g u v) : g.pred v = [u] := by
  have hn := pred_nodup T.edgesWF v
  have hm : u ∈ g.pred v := mem_pred.2 h
  have hall : ∀ x ∈ g.pred v, x = u := fun x hx => T.oneHead _ _ _ (mem_pred.1 hx) h
  cases hp : g.pred v with
  | nil => rw [hp] at hm; cases hm
  | cons a l =>
    rw [hp] at hn hall
    have ha : a = u := hall a (by simp)
    subst ha
    cases l with
    | nil => rfl
    | cons b l =>
      have hb := hall b (by simp)
      subst hb
      simp at hn

end RootedTree

/-! ### Levels -/

/-- The nodes at distance `i` from `r`, in the order of a breadth-first walk. -/
def levels (g : DG α β) (r : Nat) : Nat → List Nat
  | 0 => [r]
  | i + 1 => (levels g r i).flatMap g.succ

theorem mem_levels_succ {g : DG α β} {r i v : Nat} : v ∈ levels g r (i + 1) ↔ ∃ u ∈ levels g r i, HasEdge g u v := by
  show v ∈ (levels g r i).flatMap g.succ ↔ _
  rw [List.mem_flatMap]
  simp only [mem_succ]

namespace RootedTree
variable {g : DG α β} {r : Nat} (T : RootedTree g r)
include T

theorem levels_sub (i : Nat) {v : Nat} (h : v ∈ levels g r i) : v ∈ g.nodes.keys := by
  cases i with
  | zero => rw [List.mem_singleton.1 h]; exact T.root
  | succ i => obtain ⟨u, _, hu⟩ := mem_levels_succ.1 h; exact (T.ends _ _ hu).2

theorem levels_cover {v : Nat} (h : v ∈ g.nodes.keys) : ∃ i, v ∈ levels g r i := by
  have := T.reach v h
  clear h
  induction this with
  | refl => exact ⟨0, by simp [levels]⟩
  | tail _ hstep ih => obtain ⟨i, hi⟩ := ih; exact ⟨i + 1, mem_levels_succ.2 ⟨_, hi, hstep⟩⟩

theorem levels_disjoint {i j v : Nat} (hi : v ∈ levels g r i) (hj : v ∈ levels g r j) : i = j := by
  induction i generalizing j v with
  | zero =>
    have hv : v = r := List.mem_singleton.1 hi
    subst hv
    cases j with
    | zero => rfl
    | succ j => obtain ⟨u, _, hu⟩ := mem_levels_succ.1 hj; exact absurd hu (T.rootTop u)
  | succ i ih =>
    obtain ⟨u, hu, he⟩ := mem_levels_succ.1 hi
    cases j with
    | zero =>
      have hv : v = r := List.mem_singleton.1 hj
      subst hv
      exact absurd he (T.rootTop u)
    | succ j =>
      obtain ⟨u', hu', he'⟩ := mem_levels_succ.1 hj
      have := T.oneHead _ _ _ he he'
      subst this
      rw [ih hu hu']

theorem levels_nodup (i : Nat) : (levels g r i).Nodup := by
  induction i with
  | zero => simp [levels]
  | succ i ih =>
    show ((levels g r i).flatMap g.succ).Nodup
    rw [List.nodup_flatMap]
    refine ⟨fun u _ => succ_nodup T.edgesWF u, ?_⟩
    refine ih.imp ?_
    intro u u' hne
    intro v hv hv'
    exact hne (T.oneHead _ _ _ (mem_succ.1 hv) (mem_succ.1 hv'))

/-- The first `n` levels in one list. -/
theorem upTo_nodup (n : Nat) : ((List.range n).flatMap (levels g r)).Nodup := by
  rw [List.nodup_flatMap]
  refine ⟨fun i _ => T.levels_nodup i, ?_⟩
  refine List.nodup_range.imp ?_
  intro i j hne v hv hv'
  exact hne (T.levels_disjoint hv hv')

theorem levels_prev {i v : Nat} (h : v ∈ levels g r i) : ∀ j ≤ i, levels g r j ≠ [] := by
  induction i generalizing v with
  | zero => intro j hj; rw [Nat.le_zero.1 hj]; simp [levels]
  | succ i ih =>
    obtain ⟨u, hu, _⟩ := mem_levels_succ.1 h
    intro j hj
    rcases Nat.lt_or_ge j (i + 1) with hlt | hge
    · exact ih hu j (by omega)
    · have : j = i + 1 := by omega
      subst this
      intro h0; rw [h0] at h; cases h

theorem level_lt {i v : Nat} (h : v ∈ levels g r i) : i < g.nodes.length := by
  have h1 := T.upTo_nodup (i + 1)
  have h2 : ((List.range (i + 1)).flatMap (levels g r)) ⊆ g.nodes.keys := by
    intro x hx
    obtain ⟨j, _, hj⟩ := List.mem_flatMap.1 hx
    exact T.levels_sub j hj
  have h3 := (List.subperm_of_subset h1 h2).length_le
  have h4 : ∀ n, n ≤ i + 1 → n ≤ ((List.range n).flatMap (levels g r)).length := by
    intro n
    induction n with
    | zero => intro _; omega
    | succ n ih =>
      intro hn
      have hne := T.levels_prev h n (by omega)
      have hpos : 0 < (levels g r n).length := List.length_pos_iff.2 hne
      rw [List.range_succ, List.flatMap_append, List.length_append]
      have := ih (by omega)
      simp only [List.flatMap_cons, List.flatMap_nil, List.append_nil]
      omega
  have h5 := h4 (i + 1) (Nat.le_refl _)
  have h6 : g.nodes.keys.length = g.nodes.length := List.length_map _
  omega

theorem pred_level {i v : Nat} (h : v ∈ levels g r (i + 1)) : ∃ u ∈ levels g r i, HasEdge g u v ∧ g.pred v = [u] := by
  obtain ⟨u, hu, he⟩ := mem_levels_succ.1 h
  exact ⟨u, hu, he, T.pred_eq he⟩

theorem rootWalk_eq {i v : Nat} (h : v ∈ levels g r i) : ∀ n, i < n → rootWalk g n v = .ok r := by
  induction i generalizing v with
  | zero =>
    intro n hn
    obtain ⟨n, rfl⟩ : ∃ m, n = m + 1 := ⟨n - 1, by omega⟩
    have hv : v = r := List.mem_singleton.1 h
    subst hv
    unfold rootWalk
    rw [T.pred_root]
  | succ i ih =>
    intro n hn
    obtain ⟨n, rfl⟩ : ∃ m, n = m + 1 := ⟨n - 1, by omega⟩
    obtain ⟨u, hu, _, hp⟩ := T.pred_level h
    unfold rootWalk
    rw [hp]
    exact ih hu n (by omega)

theorem depthWalk_eq {i v : Nat} (h : v ∈ levels g r i) : ∀ n, i < n → depthWalk g n v = .ok (i + 1) := by
  induction i generalizing v with
  | zero =>
    intro n hn
    obtain ⟨n, rfl⟩ : ∃ m, n = m + 1 := ⟨n - 1, by omega⟩
    have hv : v = r := List.mem_singleton.1 h
    subst hv
    unfold depthWalk
    rw [T.pred_root]
  | succ i ih =>
    intro n hn
    obtain ⟨n, rfl⟩ : ∃ m, n = m + 1 := ⟨n - 1, by omega⟩
    obtain ⟨u, hu, _, hp⟩ := T.pred_level h
    unfold depthWalk
    rw [hp]
    simp only
    rw [ih hu n (by omega)]

theorem path_level {v n : Nat} : PathN g r v n ↔ ∃ i, n = i + 1 ∧ v ∈ levels g r i := by
  constructor
  · intro h
    induction h with
    | one _ => exact ⟨0, rfl, by simp [levels]⟩
    | step _ he ih =>
      obtain ⟨i, rfl, hi⟩ := ih
      exact ⟨i + 1, rfl, mem_levels_succ.2 ⟨_, hi, he⟩⟩
  · rintro ⟨i, rfl, hi⟩
    induction i generalizing v with
    | zero => rw [List.mem_singleton.1 hi]; exact .one T.root
    | succ i ih =>
      obtain ⟨u, hu, he⟩ := mem_levels_succ.1 hi
      exact .step (ih hu) he

/-- Below every node there is a leaf. -/
theorem leaf_below {i v : Nat} (h : v ∈ levels g r i) : ∃ j w, i ≤ j ∧ w ∈ levels g r j ∧ g.outDeg w = 0 := by
  have key : ∀ k i v, v ∈ levels g r i → g.nodes.length ≤ i + k → ∃ j w, i ≤ j ∧ w ∈ levels g r j ∧ g.outDeg w = 0 := by
    intro k
    induction k with
    | zero => intro i v hv hk; have := T.level_lt hv; omega
    | succ k ih =>
      intro i v hv hk
      by_cases h0 : g.outDeg v = 0
      · exact ⟨i, v, Nat.le_refl _, hv, h0⟩
      · rw [outDeg_zero] at h0
        push Not at h0
        obtain ⟨w, hw⟩ := h0
        obtain ⟨j, x, h1, h2, h3⟩ := ih (i + 1) w (mem_levels_succ.2 ⟨v, hv, hw⟩) (by omega)
        exact ⟨j, x, by omega, h2, h3⟩
  exact key g.nodes.length i v h (by omega)

end RootedTree

end Verif.Dep
