import Verif.Dep.Lemmas

set_option linter.unusedSectionVars false

/-!
# C40, C41: shape of patterns
-/

namespace Verif.Dep
open Verif.Py

variable {α β : Type}

/-! ### C41 -/

/-- **C41**, root: for a rooted tree in which some node has number 1, `get_root` gives the root, whichever node that is. -/
theorem C41_root {g : DG α β} {r : Nat} (T : RootedTree g r) (h1 : 1 ∈ g.nodes.keys) : getRoot g = .ok r := by
  unfold getRoot
  rw [if_pos h1]
  obtain ⟨i, hi⟩ := T.levels_cover h1
  exact T.rootWalk_eq hi _ (by have := T.level_lt hi; omega)

/-- **C41**, root: the root is the only node without a predecessor. -/
theorem C41_root_unique {g : DG α β} {r : Nat} (T : RootedTree g r) {v : Nat} (hv : v ∈ g.nodes.keys)
    (h : ∀ u, ¬ HasEdge g u v) : v = r := by
  obtain ⟨i, hi⟩ := T.levels_cover hv
  cases i with
  | zero => exact List.mem_singleton.1 hi
  | succ i => obtain ⟨u, _, hu⟩ := mem_levels_succ.1 hi; exact absurd hu (h u)

/-- Without a node number 1 the function raises. -/
theorem C41_no_node_one {g : DG α β} (h1 : 1 ∉ g.nodes.keys) : getRoot g = .error .networkX := by
  unfold getRoot
  rw [if_neg h1]

theorem depth_fold {g : DG α β} {r : Nat} (T : RootedTree g r) (l : List Nat) (hl : ∀ v ∈ l, v ∈ g.nodes.keys) (m : Nat) :
    ∃ d, l.foldlM (depthStep g) m = .ok d ∧ m ≤ d ∧ (d = m ∨ ∃ v i, g.outDeg v = 0 ∧ v ∈ levels g r i ∧ d = i + 1) ∧
      ∀ v ∈ l, ∀ i, g.outDeg v = 0 → v ∈ levels g r i → i + 1 ≤ d := by
  induction l generalizing m with
  | nil => exact ⟨m, rfl, Nat.le_refl _, Or.inl rfl, fun v hv => by cases hv⟩
  | cons x l ih =>
    obtain ⟨i, hi⟩ := T.levels_cover (hl x (by simp))
    have hlt := T.level_lt hi
    rw [List.foldlM_cons]
    unfold depthStep
    by_cases h0 : g.outDeg x = 0
    · rw [if_pos h0, T.depthWalk_eq hi _ (by omega)]
      simp only [bind, Except.bind]
      obtain ⟨d, h1, h2, h3, h4⟩ := ih (fun v hv => hl v (by simp [hv])) (if i + 1 > m then i + 1 else m)
      have hm : m ≤ (if i + 1 > m then i + 1 else m) ∧ i + 1 ≤ (if i + 1 > m then i + 1 else m) := by split <;> omega
      refine ⟨d, h1, by omega, ?_, ?_⟩
      · rcases h3 with h3 | h3
        · split at h3
          · exact Or.inr ⟨x, i, h0, hi, h3⟩
          · exact Or.inl h3
        · exact Or.inr h3
      · intro v hv j hj hvj
        rcases List.mem_cons.1 hv with rfl | hv
        · have := T.levels_disjoint hi hvj; omega
        · exact h4 v hv j hj hvj
    · rw [if_neg h0]
      simp only [bind, Except.bind]
      obtain ⟨d, h1, h2, h3, h4⟩ := ih (fun v hv => hl v (by simp [hv])) m
      refine ⟨d, h1, h2, h3, ?_⟩
      intro v hv j hj hvj
      rcases List.mem_cons.1 hv with rfl | hv
      · exact absurd hj h0
      · exact h4 v hv j hj hvj

theorem getDepth_levels {g : DG α β} {r : Nat} (T : RootedTree g r) :
    ∃ d, getDepth g = .ok d ∧ (∃ v i, g.outDeg v = 0 ∧ v ∈ levels g r i ∧ d = i + 1) ∧ ∀ i v, v ∈ levels g r i → i + 1 ≤ d := by
  obtain ⟨d, h1, h2, h3, h4⟩ := depth_fold T g.nodes.keys (fun _ h => h) 1
  have hb : ∀ i v, v ∈ levels g r i → i + 1 ≤ d := by
    intro i v hv
    obtain ⟨j, w, hij, hw, hl⟩ := T.leaf_below hv
    have := h4 w (T.levels_sub j hw) j hl hw
    omega
  refine ⟨d, h1, ?_, hb⟩
  rcases h3 with h3 | h3
  · obtain ⟨j, w, hij, hw, hl⟩ := T.leaf_below (i := 0) (v := r) (by simp [levels])
    have := hb j w hw
    exact ⟨w, j, hl, hw, by omega⟩
  · exact h3

/-- **C41**, depth: `get_depth` is the number of nodes on the longest path from the root to a leaf. -/
theorem C41_depth {g : DG α β} {r : Nat} (T : RootedTree g r) :
    ∃ d, getDepth g = .ok d ∧ (∃ v, (∀ w, ¬ HasEdge g v w) ∧ PathN g r v d) ∧ ∀ v n, PathN g r v n → n ≤ d := by
  obtain ⟨d, h1, ⟨v, i, h2, h3, h4⟩, h5⟩ := getDepth_levels T
  refine ⟨d, h1, ⟨v, outDeg_zero.1 h2, T.path_level.2 ⟨i, h4, h3⟩⟩, ?_⟩
  intro w n hw
  obtain ⟨j, rfl, hj⟩ := T.path_level.1 hw
  exact h5 j w hj

/-- A pattern: node 2 is the root, 1 and 3 depend on it, 4 depends on 3. -/
def sampleTree : DG Unit Unit := ⟨[(1, ()), (2, ()), (3, ()), (4, ())], [((2, 1), ()), ((2, 3), ()), ((3, 4), ())]⟩

theorem sampleTree_edge {u v : Nat} : HasEdge sampleTree u v ↔ (u, v) = (2, 1) ∨ (u, v) = (2, 3) ∨ (u, v) = (3, 4) := by
  unfold HasEdge
  have : sampleTree.edges.keys = [(2, 1), (2, 3), (3, 4)] := rfl
  rw [this]
  simp

theorem sampleTree_rooted : RootedTree sampleTree 2 := by
  have hn : sampleTree.nodes.keys = [1, 2, 3, 4] := rfl
  have e21 : HasEdge sampleTree 2 1 := sampleTree_edge.2 (by simp)
  have e23 : HasEdge sampleTree 2 3 := sampleTree_edge.2 (by simp)
  have e34 : HasEdge sampleTree 3 4 := sampleTree_edge.2 (by simp)
  refine ⟨by unfold Dict.WF; decide, by unfold Dict.WF; decide, ?_, by decide, ?_, ?_, ?_⟩
  · intro u v h
    rw [sampleTree_edge] at h
    rw [hn]
    rcases h with h | h | h <;> cases h <;> decide
  · intro u h
    rw [sampleTree_edge] at h
    simp at h
  · intro u u' v h h'
    rw [sampleTree_edge] at h h'
    simp only [Prod.mk.injEq] at h h'
    omega
  · intro v hv
    rw [hn] at hv
    simp only [List.mem_cons, List.not_mem_nil, or_false] at hv
    rcases hv with rfl | rfl | rfl | rfl
    · exact .single e21
    · exact .refl
    · exact .single e23
    · exact .tail (.single e23) e34

/-- Non-vacuity for C41. -/
example : RootedTree sampleTree 2 ∧ getRoot sampleTree = .ok 2 ∧ getDepth sampleTree = .ok 3 :=
  ⟨sampleTree_rooted, rfl, rfl⟩

/-! ### C40 -/

/-- Specification: number of neighbours, heads and dependents together. -/
def degree (g : DG α β) (v : Nat) : Nat := (g.pred v).length + (g.succ v).length

/-- Specification: a tree is a path if no node has more than two neighbours. -/
def IsPath (g : DG α β) : Prop := ∀ v ∈ g.nodes.keys, degree g v ≤ 2

namespace RootedTree
variable {g : DG α β} {r : Nat} (T : RootedTree g r)
include T

theorem no_loop {v : Nat} : ¬ HasEdge g v v := by
  intro h
  obtain ⟨i, hi⟩ := T.levels_cover (T.ends _ _ h).1
  have := T.levels_disjoint hi (mem_levels_succ.2 ⟨v, hi, h⟩)
  omega

theorem no_back {u v : Nat} (h : HasEdge g u v) : ¬ HasEdge g v u := by
  intro h'
  obtain ⟨i, hi⟩ := T.levels_cover (T.ends _ _ h).1
  have := T.levels_disjoint hi (mem_levels_succ.2 ⟨v, mem_levels_succ.2 ⟨u, hi, h⟩, h'⟩)
  omega

theorem mem_nbrs {v w : Nat} : w ∈ g.nbrs v ↔ HasEdge g v w ∨ HasEdge g w v := by
  unfold DG.nbrs DG.adjEdges
  rw [List.mem_filterMap]
  constructor
  · rintro ⟨⟨a, b⟩, he, ho⟩
    obtain ⟨u, _, hu⟩ := List.mem_flatMap.1 he
    obtain ⟨x, hx, hxe⟩ := List.mem_map.1 hu
    cases hxe
    have hE := mem_succ.1 hx
    unfold otherEnd at ho
    simp only at ho
    split at ho
    · next h => cases ho; subst h; exact Or.inl hE
    · split at ho
      · next h => cases ho; subst h; exact Or.inr hE
      · cases ho
  · rintro (h | h)
    · refine ⟨(v, w), List.mem_flatMap.2 ⟨v, (T.ends _ _ h).1, List.mem_map.2 ⟨w, mem_succ.2 h, rfl⟩⟩, ?_⟩
      simp [otherEnd]
    · refine ⟨(w, v), List.mem_flatMap.2 ⟨w, (T.ends _ _ h).1, List.mem_map.2 ⟨v, mem_succ.2 h, rfl⟩⟩, ?_⟩
      have hne : w ≠ v := by rintro rfl; exact T.no_loop h
      simp [otherEnd, hne]

theorem nbrs_nodup (v : Nat) : (g.nbrs v).Nodup := by
  unfold DG.nbrs
  have hadj : g.adjEdges.Nodup := by
    unfold DG.adjEdges
    rw [List.nodup_flatMap]
    refine ⟨fun u _ => List.Nodup.map (fun _ _ h => (Prod.mk.inj h).2) (succ_nodup T.edgesWF u), ?_⟩
    have hn : (g.nodes.keys).Nodup := T.nodesWF
    refine hn.imp ?_
    intro a b hab x hx hx'
    obtain ⟨_, _, rfl⟩ := List.mem_map.1 hx
    obtain ⟨_, _, h⟩ := List.mem_map.1 hx'
    exact hab (Prod.mk.inj h).1.symm
  have hE : ∀ e ∈ g.adjEdges, HasEdge g e.1 e.2 := by
    intro e he
    obtain ⟨u, _, hu⟩ := List.mem_flatMap.1 he
    obtain ⟨x, hx, rfl⟩ := List.mem_map.1 hu
    exact mem_succ.1 hx
  refine List.pairwise_filterMap.2 (List.Pairwise.imp_of_mem ?_ hadj)
  rintro ⟨a, b⟩ ⟨c, d⟩ h1 h2 hne x hx y hy rfl
  have e1 := hE _ h1
  have e2 := hE _ h2
  simp only at e1 e2
  unfold otherEnd at hx hy
  simp only at hx hy
  split at hx
  · next hav =>
    split at hy
    · next hcv => cases hx; cases hy; exact hne (by rw [hav, hcv])
    · split at hy
      · next hdv => cases hx; cases hy; subst hav; subst hdv; exact T.no_back e1 e2
      · cases hy
  · split at hx
    · next hbv =>
      split at hy
      · next hcv => cases hx; cases hy; subst hbv; subst hcv; exact T.no_back e1 e2
      · split at hy
        · next hdv => cases hx; cases hy; exact hne (by rw [hbv, hdv])
        · cases hy
    · cases hx

theorem nbrs_length (v : Nat) : (g.nbrs v).length = degree g v := by
  unfold degree
  rw [← List.length_append]
  refine List.Perm.length_eq ((List.perm_ext_iff_of_nodup (T.nbrs_nodup v) ?_).2 ?_)
  · rw [List.nodup_append]
    refine ⟨pred_nodup T.edgesWF v, succ_nodup T.edgesWF v, ?_⟩
    intro a ha b hb hab
    subst hab
    exact T.no_back (mem_pred.1 ha) (mem_succ.1 hb)
  · intro w
    rw [T.mem_nbrs, List.mem_append, mem_pred, mem_succ, or_comm]

/-- A set of nodes closed under neighbours is everything. -/
theorem closed_all {S : Nat → Prop} {x : Nat} (hx : x ∈ g.nodes.keys) (hS : S x)
    (hcl : ∀ a b, S a → (HasEdge g a b ∨ HasEdge g b a) → S b) : ∀ v ∈ g.nodes.keys, S v := by
  have hr : S r := by
    obtain ⟨i, hi⟩ := T.levels_cover hx
    clear hx
    induction i generalizing x with
    | zero => rw [← List.mem_singleton.1 hi]; exact hS
    | succ i ih =>
      obtain ⟨u, hu, he⟩ := mem_levels_succ.1 hi
      exact ih (hcl x u hS (Or.inr he)) hu
  intro v hv
  have := T.reach v hv
  clear hv
  induction this with
  | refl => exact hr
  | tail _ he ih => exact hcl _ _ ih (Or.inl he)

theorem linWalk_spec (h3 : ∀ v ∈ g.nodes.keys, degree g v ≤ 3) (fuel : Nat) :
    ∀ (cur nxt i : Nat) (S : Nat → Prop), nxt ∈ levels g r i → S cur → S nxt → cur ≠ nxt →
      ((HasEdge g nxt cur ∧ g.nodes.length + i < fuel) ∨ (HasEdge g cur nxt ∧ g.nodes.length < fuel + i)) →
      (∀ x, S x → x ∈ g.nodes.keys) → (∀ x, S x → x ≠ nxt → degree g x ≤ 2 ∧ ∀ y ∈ g.nbrs x, S y) →
      ∃ b, linWalk g fuel cur nxt = .ok b ∧ (b = true ↔ IsPath g) := by
  induction fuel with
  | zero =>
    intro cur nxt i S hi _ _ _ hf
    have := T.level_lt hi
    omega
  | succ fuel ih =>
    intro cur nxt i S hi hcur hnxt hne hf hsub hcl
    have hlt := T.level_lt hi
    have hd3 := h3 nxt (hsub _ hnxt)
    have hlen := T.nbrs_length nxt
    have hcn : cur ∈ g.nbrs nxt := T.mem_nbrs.2 (hf.imp And.left And.left)
    have hpos : 0 < (g.nbrs nxt).length := List.length_pos_of_mem hcn
    unfold linWalk
    by_cases e3 : (g.nbrs nxt).length = 3
    · rw [if_pos e3]
      refine ⟨false, rfl, ⟨fun h => (nomatch h), fun h => ?_⟩⟩
      have := h nxt (hsub _ hnxt)
      omega
    · rw [if_neg e3]
      by_cases e1 : (g.nbrs nxt).length = 1
      · rw [if_pos e1]
        refine ⟨true, rfl, ⟨fun _ => ?_, fun _ => rfl⟩⟩
        have hall := T.closed_all (S := S) (hsub _ hnxt) hnxt ?_
        · intro v hv
          by_cases hvn : v = nxt
          · subst hvn; omega
          · exact (hcl v (hall v hv) hvn).1
        · intro a b ha hab
          by_cases han : a = nxt
          · subst han
            have hb : b ∈ g.nbrs a := T.mem_nbrs.2 hab
            obtain ⟨z, hz⟩ := List.length_eq_one_iff.1 e1
            rw [hz] at hb hcn
            rw [List.mem_singleton.1 hb, ← List.mem_singleton.1 hcn]
            exact hcur
          · exact (hcl a ha han).2 b (T.mem_nbrs.2 hab)
      · rw [if_neg e1]
        have e2 : (g.nbrs nxt).length = 2 := by omega
        have hnd := T.nbrs_nodup nxt
        obtain ⟨a, b, hab⟩ := List.length_eq_two.1 e2
        have hw : ∃ w, (g.nbrs nxt).find? (fun w => decide (w ≠ cur)) = some w ∧ w ≠ cur ∧ w ∈ g.nbrs nxt ∧ ∀ y ∈ g.nbrs nxt, y = cur ∨ y = w := by
          rw [hab] at hnd hcn ⊢
          have hne2 : a ≠ b := by simpa using hnd
          rcases List.mem_cons.1 hcn with h | h
          · subst h
            exact ⟨b, by simp [List.find?, Ne.symm hne2], Ne.symm hne2, by simp, by simp⟩
          · have := List.mem_singleton.1 h
            subst this
            exact ⟨a, by simp [List.find?, hne2], hne2, by simp, by simp [or_comm]⟩
        obtain ⟨w, hfind, hwc, hwm, hwall⟩ := hw
        rw [hfind]
        simp only
        have hwE := T.mem_nbrs.1 hwm
        have hwn : w ≠ nxt := by
          rintro rfl
          rcases hwE with h | h <;> exact T.no_loop h
        have hnext : ∃ j, w ∈ levels g r j ∧ ((HasEdge g w nxt ∧ g.nodes.length + j < fuel) ∨ (HasEdge g nxt w ∧ g.nodes.length < fuel + j)) := by
          rcases hwE with hdown | hup
          · refine ⟨i + 1, mem_levels_succ.2 ⟨nxt, hi, hdown⟩, Or.inr ⟨hdown, ?_⟩⟩
            rcases hf with ⟨_, hf⟩ | ⟨_, hf⟩ <;> omega
          · rcases hf with ⟨_, hf⟩ | ⟨hcn', hf⟩
            · cases i with
              | zero => rw [List.mem_singleton.1 hi] at hup; exact absurd hup (T.rootTop w)
              | succ i =>
                obtain ⟨u, hu, he⟩ := mem_levels_succ.1 hi
                have := T.oneHead _ _ _ he hup
                subst this
                exact ⟨i, hu, Or.inl ⟨hup, by omega⟩⟩
            · exact absurd (T.oneHead _ _ _ hup hcn') hwc
        obtain ⟨j, hj, hfuel⟩ := hnext
        refine ih nxt w j (fun x => S x ∨ x = w) hj (Or.inl hnxt) (Or.inr rfl) (Ne.symm hwn) hfuel ?_ ?_
        · rintro x (hx | rfl)
          · exact hsub x hx
          · exact T.levels_sub j hj
        · rintro x (hx | rfl) hxw
          · by_cases hxn : x = nxt
            · subst hxn
              refine ⟨by omega, fun y hy => ?_⟩
              rcases hwall y hy with rfl | rfl
              · exact Or.inl hcur
              · exact Or.inr rfl
            · exact ⟨(hcl x hx hxn).1, fun y hy => Or.inl ((hcl x hx hxn).2 y hy)⟩
          · exact absurd rfl hxw

end RootedTree

/-- **C40**, in part: for tree patterns with at least two nodes, numbered from 1, in which no node has more than three
neighbours, `islinear` ends and tells whether the pattern is a path.  Missing: nodes with four or more neighbours, single
nodes and a leaf numbered 0, where it is false (below). -/
theorem C40_partial {g : DG α β} {r : Nat} (T : RootedTree g r) (h2 : 2 ≤ g.nodes.length) (h0 : 0 ∉ g.nodes.keys)
    (h3 : ∀ v ∈ g.nodes.keys, degree g v ≤ 3) : ∃ b, isLinear g = .ok b ∧ (b = true ↔ IsPath g) := by
  unfold isLinear
  by_cases he : g.edges.length = 1
  · rw [if_pos he]
    refine ⟨true, rfl, ⟨fun _ v _ => ?_, fun _ => rfl⟩⟩
    have h1 : (g.pred v).length ≤ g.edges.length := by
      unfold DG.pred; rw [List.length_map]; exact List.length_filter_le _ _
    have h2 : (g.succ v).length ≤ g.edges.length := by
      unfold DG.succ; rw [List.length_map]; exact List.length_filter_le _ _
    unfold degree
    omega
  · rw [if_neg he]
    have hleaf : ∃ v ∈ g.nodes.keys, (g.nbrs v).length = 1 := by
      obtain ⟨j, w, _, hw, hl⟩ := T.leaf_below (i := 0) (v := r) (by simp [levels])
      cases j with
      | zero =>
        have hwr : w = r := List.mem_singleton.1 hw
        subst hwr
        exfalso
        have hall : ∀ v ∈ g.nodes.keys, v = w := by
          intro v hv
          obtain ⟨i, hi⟩ := T.levels_cover hv
          cases i with
          | zero => exact List.mem_singleton.1 hi
          | succ i =>
            have hne := T.levels_prev hi 1 (by omega)
            obtain ⟨x, hx⟩ := List.exists_mem_of_ne_nil _ hne
            obtain ⟨u, hu, hue⟩ := mem_levels_succ.1 hx
            rw [List.mem_singleton.1 hu] at hue
            exact absurd hue (outDeg_zero.1 hl x)
        have hlen : g.nodes.keys.length ≤ [w].length :=
          (List.subperm_of_subset T.nodesWF (fun v hv => by rw [hall v hv]; simp)).length_le
        have h6 : g.nodes.keys.length = g.nodes.length := List.length_map _
        simp at hlen
        omega
      | succ j =>
        obtain ⟨u, _, _, hp⟩ := T.pred_level hw
        refine ⟨w, T.levels_sub _ hw, ?_⟩
        rw [T.nbrs_length]
        unfold degree
        unfold DG.outDeg at hl
        rw [hp, hl]
        rfl
    cases hf : g.nodes.keys.find? (fun v => decide ((g.nbrs v).length = 1)) with
    | none =>
      obtain ⟨v, hv, h1⟩ := hleaf
      have := List.find?_eq_none.1 hf v hv
      simp [h1] at this
    | some cur =>
      simp only
      have hc1 := List.find?_some hf
      simp only [decide_eq_true_eq] at hc1
      have hcm : cur ∈ g.nodes.keys := List.mem_of_find?_eq_some hf
      rw [if_neg (by rintro rfl; exact h0 hcm)]
      obtain ⟨nxt, hn⟩ := List.length_eq_one_iff.1 hc1
      rw [hn]
      simp only
      have hm : nxt ∈ g.nbrs cur := by rw [hn]; simp
      have hE := T.mem_nbrs.1 hm
      have hne : cur ≠ nxt := by rintro rfl; rcases hE with h | h <;> exact T.no_loop h
      have hnk : nxt ∈ g.nodes.keys := by
        rcases hE with h | h
        · exact (T.ends _ _ h).2
        · exact (T.ends _ _ h).1
      obtain ⟨i, hi⟩ := T.levels_cover hnk
      have hlt := T.level_lt hi
      refine T.linWalk_spec h3 _ cur nxt i (fun x => x = cur ∨ x = nxt) hi (Or.inl rfl) (Or.inr rfl) hne ?_ ?_ ?_
      · rcases hE with h | h
        · exact Or.inr ⟨h, by omega⟩
        · exact Or.inl ⟨h, by omega⟩
      · rintro x (rfl | rfl)
        · exact hcm
        · exact hnk
      · rintro x (rfl | rfl) hx
        · refine ⟨by rw [← T.nbrs_length]; omega, fun y hy => ?_⟩
          rw [hn] at hy
          exact Or.inr (List.mem_singleton.1 hy)
        · exact absurd rfl hx

/-- Non-vacuity for C40: `sampleTree` is a path (1-2-3-4) and found linear; a star with three leaves is not. -/
example : 2 ≤ sampleTree.nodes.length ∧ 0 ∉ sampleTree.nodes.keys ∧ (∀ v ∈ sampleTree.nodes.keys, degree sampleTree v ≤ 3) ∧
    isLinear sampleTree = .ok true ∧
    isLinear (⟨[(1, ()), (2, ()), (3, ()), (4, ())], [((1, 2), ()), ((1, 3), ()), ((1, 4), ())]⟩ : DG Unit Unit) = .ok false := by
  decide

/-- A node with four dependents. -/
def star4 : DG Unit Unit :=
  ⟨[(1, ()), (2, ()), (3, ()), (4, ()), (5, ())], [((1, 2), ()), ((1, 3), ()), ((1, 4), ()), ((1, 5), ())]⟩

theorem star4_edge {u v : Nat} : HasEdge star4 u v ↔ (u, v) = (1, 2) ∨ (u, v) = (1, 3) ∨ (u, v) = (1, 4) ∨ (u, v) = (1, 5) := by
  unfold HasEdge
  have : star4.edges.keys = [(1, 2), (1, 3), (1, 4), (1, 5)] := rfl
  rw [this]
  simp

theorem star4_rooted : RootedTree star4 1 := by
  have hn : star4.nodes.keys = [1, 2, 3, 4, 5] := rfl
  refine ⟨by unfold Dict.WF; decide, by unfold Dict.WF; decide, ?_, by decide, ?_, ?_, ?_⟩
  · intro u v h
    rw [star4_edge] at h
    rw [hn]
    rcases h with h | h | h | h <;> cases h <;> decide
  · intro u h
    rw [star4_edge] at h
    simp at h
  · intro u u' v h h'
    rw [star4_edge] at h h'
    simp only [Prod.mk.injEq] at h h'
    omega
  · intro v hv
    rw [hn] at hv
    simp only [List.mem_cons, List.not_mem_nil, or_false] at hv
    rcases hv with rfl | rfl | rfl | rfl | rfl
    · exact .refl
    all_goals exact .single (star4_edge.2 (by simp))

/-- **C40 is false** for a node with four dependents: only degree 3 is tested. -/
theorem C40_false_star : RootedTree star4 1 ∧ isLinear star4 = .ok true ∧ ¬ IsPath star4 := by
  refine ⟨star4_rooted, by decide, fun h => ?_⟩
  have := h 1 (by decide)
  revert this
  decide

/-- **C40 is false** for a single node (found non-linear), and for a path one of whose ends is numbered 0. -/
theorem C40_false_single : isLinear (⟨[(1, ())], []⟩ : DG Unit Unit) = .ok false ∧ IsPath (⟨[(1, ())], []⟩ : DG Unit Unit) ∧
    isLinear (⟨[(0, ()), (1, ()), (2, ())], [((0, 1), ()), ((1, 2), ())]⟩ : DG Unit Unit) = .ok false ∧
    IsPath (⟨[(0, ()), (1, ()), (2, ())], [((0, 1), ()), ((1, 2), ())]⟩ : DG Unit Unit) := by
  unfold IsPath
  decide

end Verif.Dep
