import Verif.Dep.PropsTree

/-! # Property theorem C40 for trees with nodes of any degree -/

set_option linter.unusedSectionVars false

namespace Verif.Dep
open Verif.Py

variable {α β : Type}

namespace RootedTree
variable {g : DG α β} {r : Nat} (T : RootedTree g r)
include T

theorem linWalk_ends (fuel : Nat) : ∀ (cur nxt i : Nat), nxt ∈ levels g r i →
    ((HasEdge g nxt cur ∧ g.nodes.length + i < fuel) ∨ (HasEdge g cur nxt ∧ g.nodes.length < fuel + i)) →
    ∃ b, linWalk g fuel cur nxt = .ok b ∧ (b = false → ∃ v ∈ g.nodes.keys, degree g v = 3) := by
  induction fuel with
  | zero =>
    intro cur nxt i hi hf
    have := T.level_lt hi
    omega
  | succ fuel ih =>
    intro cur nxt i hi hf
    have hlt := T.level_lt hi
    have hcn : cur ∈ g.nbrs nxt := T.mem_nbrs.2 (hf.imp And.left And.left)
    have hpos : 0 < (g.nbrs nxt).length := List.length_pos_of_mem hcn
    unfold linWalk
    by_cases e3 : (g.nbrs nxt).length = 3
    · rw [if_pos e3]
      exact ⟨false, rfl, fun _ => ⟨nxt, T.levels_sub _ hi, by rw [← T.nbrs_length]; exact e3⟩⟩
    · rw [if_neg e3]
      by_cases e1 : (g.nbrs nxt).length = 1
      · rw [if_pos e1]
        exact ⟨true, rfl, fun h => nomatch h⟩
      · rw [if_neg e1]
        have hnd := T.nbrs_nodup nxt
        cases hfind : (g.nbrs nxt).find? (fun w => decide (w ≠ cur)) with
        | none =>
          exfalso
          have hall : ∀ w ∈ g.nbrs nxt, w = cur := by
            intro w hw
            simpa using List.find?_eq_none.1 hfind w hw
          have hle : (g.nbrs nxt).length ≤ [cur].length :=
            (List.subperm_of_subset hnd (fun w hw => by rw [hall w hw]; simp)).length_le
          simp at hle
          omega
        | some w =>
          simp only
          have hwc : w ≠ cur := by simpa using List.find?_some hfind
          have hwE := T.mem_nbrs.1 (List.mem_of_find?_eq_some hfind)
          have hnext : ∃ j, w ∈ levels g r j ∧ ((HasEdge g w nxt ∧ g.nodes.length + j < fuel) ∨ (HasEdge g nxt w ∧ g.nodes.length < fuel + j)) := by
            rcases hwE with hdown | hup
            · refine ⟨i + 1, mem_levels_succ.2 ⟨nxt, hi, hdown⟩, Or.inr ⟨hdown, ?_⟩⟩
              rcases hf with ⟨_, hf⟩ | ⟨_, hf⟩ <;> omega
            · rcases hf with ⟨_, hf⟩ | ⟨hcn', hf⟩
              · cases i with
                | zero => rw [List.mem_singleton.1 hi] at hup; exact absurd hup (T.rootTop w)
                | succ i =>
                  obtain ⟨u, hu, he⟩ := mem_levels_succ.1 hi
                  have := T.oneHead _ _ _ he hup
                  subst this
                  exact ⟨i, hu, Or.inl ⟨hup, by omega⟩⟩
              · exact absurd (T.oneHead _ _ _ hup hcn') hwc
          obtain ⟨j, hj, hfuel⟩ := hnext
          exact ih nxt w j hj hfuel

/-- Every tree with two nodes has a leaf. -/
theorem exists_leaf (h2 : 2 ≤ g.nodes.length) : ∃ v ∈ g.nodes.keys, (g.nbrs v).length = 1 := by
  obtain ⟨j, w, _, hw, hl⟩ := T.leaf_below (i := 0) (v := r) (by simp [levels])
  cases j with
  | zero =>
    have hwr : w = r := List.mem_singleton.1 hw
    subst hwr
    exfalso
    have hall : ∀ v ∈ g.nodes.keys, v = w := by
      intro v hv
      obtain ⟨i, hi⟩ := T.levels_cover hv
      cases i with
      | zero => exact List.mem_singleton.1 hi
      | succ i =>
        have hne := T.levels_prev hi 1 (by omega)
        obtain ⟨x, hx⟩ := List.exists_mem_of_ne_nil _ hne
        obtain ⟨u, hu, hue⟩ := mem_levels_succ.1 hx
        rw [List.mem_singleton.1 hu] at hue
        exact absurd hue (outDeg_zero.1 hl x)
    have hlen : g.nodes.keys.length ≤ [w].length :=
      (List.subperm_of_subset T.nodesWF (fun v hv => by rw [hall v hv]; simp)).length_le
    have h6 : g.nodes.keys.length = g.nodes.length := List.length_map _
    simp at hlen
    omega
  | succ j =>
    obtain ⟨u, _, _, hp⟩ := T.pred_level hw
    refine ⟨w, T.levels_sub _ hw, ?_⟩
    rw [T.nbrs_length]
    unfold degree
    unfold DG.outDeg at hl
    rw [hp, hl]
    rfl

end RootedTree

/-- **C40** (trees with nodes of any degree).  For a tree pattern with at least two nodes, numbered from 1, `islinear` always ends
without an exception.  No path is missed; a pattern that is called linear is a path or has a node with four or more neighbours; one
that is called nonlinear has a node with exactly three neighbours. -/
theorem C40_any_degree {g : DG α β} {r : Nat} (T : RootedTree g r) (h2 : 2 ≤ g.nodes.length) (h0 : 0 ∉ g.nodes.keys) :
    ∃ b, isLinear g = .ok b ∧ (IsPath g → b = true) ∧ (b = true → IsPath g ∨ ∃ v ∈ g.nodes.keys, 4 ≤ degree g v) ∧
      (b = false → ∃ v ∈ g.nodes.keys, degree g v = 3) := by
  have main : ∃ b, isLinear g = .ok b ∧ (b = false → ∃ v ∈ g.nodes.keys, degree g v = 3) := by
    unfold isLinear
    by_cases he : g.edges.length = 1
    · rw [if_pos he]
      exact ⟨true, rfl, fun h => nomatch h⟩
    · rw [if_neg he]
      cases hf : g.nodes.keys.find? (fun v => decide ((g.nbrs v).length = 1)) with
      | none =>
        obtain ⟨v, hv, h1⟩ := T.exists_leaf h2
        have := List.find?_eq_none.1 hf v hv
        simp [h1] at this
      | some cur =>
        simp only
        have hc1 := List.find?_some hf
        simp only [decide_eq_true_eq] at hc1
        have hcm : cur ∈ g.nodes.keys := List.mem_of_find?_eq_some hf
        rw [if_neg (by rintro rfl; exact h0 hcm)]
        obtain ⟨nxt, hn⟩ := List.length_eq_one_iff.1 hc1
        rw [hn]
        simp only
        have hE := T.mem_nbrs.1 (show nxt ∈ g.nbrs cur by rw [hn]; simp)
        have hnk : nxt ∈ g.nodes.keys := by
          rcases hE with h | h
          · exact (T.ends _ _ h).2
          · exact (T.ends _ _ h).1
        obtain ⟨i, hi⟩ := T.levels_cover hnk
        have hlt := T.level_lt hi
        refine T.linWalk_ends _ cur nxt i hi ?_
        rcases hE with h | h
        · exact Or.inr ⟨h, by omega⟩
        · exact Or.inl ⟨h, by omega⟩
  obtain ⟨b, hb, h3⟩ := main
  have small : (∀ v ∈ g.nodes.keys, degree g v ≤ 3) → (b = true ↔ IsPath g) := by
    intro h
    obtain ⟨b', hb', h'⟩ := C40_partial T h2 h0 h
    rw [hb] at hb'
    cases hb'
    exact h'
  refine ⟨b, hb, ?_, ?_, h3⟩
  · intro hp
    exact (small (fun v hv => by have := hp v hv; omega)).2 hp
  · intro ht
    by_cases h : ∀ v ∈ g.nodes.keys, degree g v ≤ 3
    · exact .inl ((small h).1 ht)
    · push Not at h
      obtain ⟨v, hv, h⟩ := h
      exact .inr ⟨v, hv, by omega⟩

/-- A tree with a node of degree 4 that is called linear. -/
example : ∃ b, isLinear star4 = .ok b ∧ (b = true → IsPath star4 ∨ ∃ v ∈ star4.nodes.keys, 4 ≤ degree star4 v) :=
  let ⟨b, h1, _, h2, _⟩ := C40_any_degree star4_rooted (by decide) (by decide)
  ⟨b, h1, h2⟩

end Verif.Dep
