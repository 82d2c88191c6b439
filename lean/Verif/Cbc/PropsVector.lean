import Verif.Cbc.Vector
import Verif.Matrix.Lemmas
import Mathlib.Algebra.BigOperators.Group.Finset.Basic
import Mathlib.Algebra.Order.BigOperators.Group.Finset
import Mathlib.Tactic.FieldSimp
import Mathlib.Tactic.NormNum
import Mathlib.Tactic.Linarith
import Mathlib.Tactic.Positivity

/-!
# C77, C79: committee vectors
-/

set_option linter.unusedSectionVars false

namespace Verif.Cbc

noncomputable section
open Classical

/-! ## Specification -/

/-- The mean frequency of context `j` over a set of rows. -/
def meanFreq (f : Nat → Nat → ℝ) (C : Finset Nat) (j : Nat) : ℝ := (∑ i ∈ C, f i j) / (C.card : ℝ)

/-- The frequency of context `j` over the rows below `m` outside a set. -/
def restFreq (m : Nat) (f : Nat → Nat → ℝ) (C : Finset Nat) (j : Nat) : ℝ := ∑ i ∈ Finset.range m \ C, f i j

/-- Positive pointwise mutual information of a joint frequency `o`, its two marginal frequencies and the total. -/
def positivePmi (o r c n : ℝ) : ℝ := if o = 0 then 0 else max 0 (Real.log (o * n / (r * c)))

/-- The committee seen as one row (its mean), against the sum of all other rows: entry `j` of its vector. -/
def committeePpmi (m n : Nat) (f : Nat → Nat → ℝ) (C : Finset Nat) (j : Nat) : ℝ :=
  positivePmi (meanFreq f C j) (∑ k ∈ Finset.range n, meanFreq f C k) (meanFreq f C j + restFreq m f C j)
    (∑ k ∈ Finset.range n, (meanFreq f C k + restFreq m f C k))

/-! ## Sums -/

theorem sum_range_map (n : Nat) (v : Nat → ℝ) : ((List.range n).map v).sum = ∑ j ∈ Finset.range n, v j := by
  rw [Finset.sum_eq_multiset_sum]
  rfl

theorem sum_nodup_map {l : List Nat} (h : l.Nodup) (v : Nat → ℝ) : (l.map v).sum = ∑ i ∈ l.toFinset, v i :=
  (List.sum_toFinset v h).symm

theorem centroid_eq {l : List Nat} (h : l.Nodup) (f : Nat → Nat → ℝ) (j : Nat) :
    centroid f l j = meanFreq f l.toFinset j := by
  unfold centroid sumRows meanFreq
  rw [sum_nodup_map h, List.toFinset_card_of_nodup h]

theorem rest_eq {l : List Nat} {m : Nat} (h : l.Nodup) (hm : ∀ i ∈ l, i < m) (f : Nat → Nat → ℝ) (j : Nat) :
    sumRows f (List.range m) j - sumRows f l j = restFreq m f l.toFinset j := by
  unfold sumRows restFreq
  rw [sum_nodup_map h, sum_range_map, sub_eq_iff_eq_add, Finset.sum_sdiff]
  intro i hi
  exact Finset.mem_range.2 (hm i (List.mem_toFinset.1 hi))

theorem measAt_eq (n : Nat) (T R : Nat → ℝ) (hT : ∀ j, 0 ≤ T j) (hR : ∀ j, 0 ≤ R j)
    (hN : ∑ k ∈ Finset.range n, (T k + R k) ≠ 0) (j : Nat) (hj : j < n) :
    measAt n T R j = .ok (positivePmi (T j) (∑ k ∈ Finset.range n, T k) (T j + R j)
      (∑ k ∈ Finset.range n, (T k + R k))) := by
  have hN' : vecSum n T + vecSum n R = ∑ k ∈ Finset.range n, (T k + R k) := by
    unfold vecSum
    rw [sum_range_map, sum_range_map, Finset.sum_add_distrib]
  have hNpos : 0 < ∑ k ∈ Finset.range n, (T k + R k) :=
    lt_of_le_of_ne (Finset.sum_nonneg (fun k _ => add_nonneg (hT k) (hR k))) (Ne.symm hN)
  unfold measAt positivePmi
  simp only [hN', Assoc.pyDiv, if_neg hN, bind, Except.bind]
  have hS : vecSum n T = ∑ k ∈ Finset.range n, T k := by unfold vecSum; rw [sum_range_map]
  rw [hS]
  generalize hNe : ∑ k ∈ Finset.range n, (T k + R k) = N at hN hNpos ⊢
  by_cases hz : T j = 0
  · have h10 : ¬ (1 : ℝ) ≤ 0 := by norm_num
    simp [hz, Assoc.pyLog, h10]
  · have hTj : 0 < T j := lt_of_le_of_ne (hT j) (Ne.symm hz)
    have hSpos : 0 < ∑ k ∈ Finset.range n, T k :=
      lt_of_lt_of_le hTj (Finset.single_le_sum (f := T) (fun k _ => hT k) (Finset.mem_range.2 hj))
    generalize ∑ k ∈ Finset.range n, T k = S at hSpos ⊢
    have hC : 0 < T j + R j := by linarith [hR j]
    have h1 : ¬ T j / N = 0 := (div_pos hTj hNpos).ne'
    have h2 : S / N * ((T j + R j) / N) ≠ 0 := (mul_pos (div_pos hSpos hNpos) (div_pos hC hNpos)).ne'
    have h3 : T j / N / (S / N * ((T j + R j) / N)) = T j * N / (S * (T j + R j)) := by
      field_simp
    have h4 : 0 < T j * N / (S * (T j + R j)) := div_pos (mul_pos hTj hNpos) (mul_pos hSpos hC)
    simp only [if_neg h1, if_neg h2, if_neg hz, h3]
    simp only [ne_eq, h4.ne', not_false_eq_true, if_true, Assoc.pyLog, not_le.2 h4, if_false]
    congr 1
    split
    · next hlt => exact (max_eq_left hlt.le).symm
    · next hge => exact (max_eq_right (not_lt.1 hge)).symm

/-! ## C77 -/

/-- C77: the vector of a committee has one entry per context, the positive PMI of the committee's mean row
against the sum of all other rows. -/
theorem C77_vector (m n : Nat) (f : Nat → Nat → ℝ) (hf : ∀ i j, 0 ≤ f i j) (clust : List Nat)
    (hne : clust ≠ []) (hnd : clust.Nodup) (hm : ∀ i ∈ clust, i < m)
    (hN : ∑ k ∈ Finset.range n, (meanFreq f clust.toFinset k + restFreq m f clust.toFinset k) ≠ 0) :
    committeeVector m n f clust = .ok ((List.range n).map (committeePpmi m n f clust.toFinset)) := by
  unfold committeeVector calcMeasVec
  rw [if_neg (by push Not; exact ⟨hne, hm⟩)]
  have hc : centroid f clust = meanFreq f clust.toFinset := funext (centroid_eq hnd f)
  have hr : (fun j => sumRows f (List.range m) j - sumRows f clust j) = restFreq m f clust.toFinset :=
    funext (rest_eq hnd hm f)
  rw [hc, hr]
  have hT : ∀ j, 0 ≤ meanFreq f clust.toFinset j :=
    fun j => div_nonneg (Finset.sum_nonneg (fun i _ => hf i j)) (Nat.cast_nonneg _)
  have hR : ∀ j, 0 ≤ restFreq m f clust.toFinset j := fun j => Finset.sum_nonneg (fun i _ => hf i j)
  rw [Matrix.mapM_ok_iff, List.forall₂_map_right_iff, List.forall₂_same]
  intro j hj
  exact measAt_eq n _ _ hT hR hN j (List.mem_range.1 hj)

/-- C77: entries are never negative, 0 where no member has the context, and positive exactly if the context is
relatively more frequent in the committee's mean row than overall. -/
theorem C77_sign (m n : Nat) (f : Nat → Nat → ℝ) (hf : ∀ i j, 0 ≤ f i j) (C : Finset Nat)
    (j : Nat) (hj : j < n) :
    0 ≤ committeePpmi m n f C j ∧
    ((∀ i ∈ C, f i j = 0) → committeePpmi m n f C j = 0) ∧
    (0 < committeePpmi m n f C j ↔
      (∑ k ∈ Finset.range n, meanFreq f C k) * (meanFreq f C j + restFreq m f C j)
        < meanFreq f C j * ∑ k ∈ Finset.range n, (meanFreq f C k + restFreq m f C k)) := by
  have hT : ∀ j, 0 ≤ meanFreq f C j :=
    fun j => div_nonneg (Finset.sum_nonneg (fun i _ => hf i j)) (Nat.cast_nonneg _)
  have hR : ∀ j, 0 ≤ restFreq m f C j := fun j => Finset.sum_nonneg (fun i _ => hf i j)
  unfold committeePpmi positivePmi
  refine ⟨?_, ?_, ?_⟩
  · split
    · exact le_rfl
    · exact le_max_left _ _
  · intro h0
    have : meanFreq f C j = 0 := by
      unfold meanFreq
      rw [Finset.sum_eq_zero h0, zero_div]
    rw [if_pos this]
  · by_cases hz : meanFreq f C j = 0
    · have hS : 0 ≤ ∑ k ∈ Finset.range n, meanFreq f C k := Finset.sum_nonneg (fun k _ => hT k)
      simp only [hz, if_true, lt_irrefl, zero_add, zero_mul, false_iff, not_lt]
      exact mul_nonneg hS (hR j)
    · have hTj : 0 < meanFreq f C j := lt_of_le_of_ne (hT j) (Ne.symm hz)
      have hS : 0 < ∑ k ∈ Finset.range n, meanFreq f C k :=
        lt_of_lt_of_le hTj (Finset.single_le_sum (f := meanFreq f C) (fun k _ => hT k) (Finset.mem_range.2 hj))
      have hC : 0 < meanFreq f C j + restFreq m f C j := by linarith [hR j]
      have hN : 0 < ∑ k ∈ Finset.range n, (meanFreq f C k + restFreq m f C k) := by
        rw [Finset.sum_add_distrib]
        linarith [Finset.sum_nonneg (s := Finset.range n) (fun k _ => hR k)]
      have hx := div_pos (mul_pos hTj hN) (mul_pos hS hC)
      rw [if_neg hz, lt_max_iff]
      simp only [lt_irrefl, false_or]
      rw [Real.log_pos_iff hx.le, one_lt_div (mul_pos hS hC)]

/-- C77: the order in which the members are listed does not matter. -/
theorem C77_order (m n : Nat) (f : Nat → Nat → ℝ) (clust clust' : List Nat) (h : clust.Perm clust') :
    committeeVector m n f clust = committeeVector m n f clust' := by
  unfold committeeVector
  have h1 : ∀ j, sumRows f clust j = sumRows f clust' j := fun j => (h.map _).sum_eq
  have h2 : centroid f clust = centroid f clust' := by
    funext j
    unfold centroid
    rw [h1, h.length_eq]
  have h3 : (clust = [] ∨ ¬ ∀ i ∈ clust, i < m) ↔ (clust' = [] ∨ ¬ ∀ i ∈ clust', i < m) := by
    simp only [h.mem_iff]
    rw [← List.length_eq_zero_iff, ← List.length_eq_zero_iff, h.length_eq]
  simp only [h1, h2, h3]

/-- Two rows `(2, 0)` and `(0, 1)`: the committee of the first one. -/
example : committeeVector 2 2 (fun i j => if i = 0 ∧ j = 0 then 2 else if i = 1 ∧ j = 1 then 1 else 0) [0]
    = .ok [Real.log (3 / 2), 0] := by
  have e0 : ([0] : List Nat).toFinset = {0} := rfl
  have e2 : Finset.range 2 \ {0} = {1} := by decide
  have hM : ∀ j, meanFreq (fun i j => if i = 0 ∧ j = 0 then (2 : ℝ) else if i = 1 ∧ j = 1 then 1 else 0) {0} j
      = if j = 0 then 2 else 0 := by intro j; simp [meanFreq]
  have hR : ∀ j, restFreq 2 (fun i j => if i = 0 ∧ j = 0 then (2 : ℝ) else if i = 1 ∧ j = 1 then 1 else 0) {0} j
      = if j = 1 then 1 else 0 := by intro j; unfold restFreq; rw [e2]; simp
  rw [C77_vector 2 2 _ (fun i j => by split_ifs <;> norm_num) [0] (by simp) (by simp) (by simp)]
  · have hl : (0 : ℝ) ≤ Real.log (3 / 2) := Real.log_nonneg (by norm_num)
    congr 1
    simp only [List.range_succ, List.range_zero, List.nil_append, List.map_cons, List.map_nil,
      List.cons_append, List.cons.injEq, and_true]
    unfold committeePpmi positivePmi
    rw [e0]
    simp only [hM, hR, Finset.sum_range_succ, Finset.sum_range_zero]
    norm_num
    exact hl
  · rw [e0]
    simp only [hM, hR, Finset.sum_range_succ, Finset.sum_range_zero]
    norm_num

/-! ## C79: committees of one element -/

/-- The contingency table of row `e` and column `j`. -/
def tableOf (m n : Nat) (f : Nat → Nat → ℝ) (e j : Nat) : Assoc.Table where
  o11 := f e j
  o21 := (∑ i ∈ Finset.range m, f i j) - f e j
  o12 := (∑ k ∈ Finset.range n, f e k) - f e j
  o22 := (∑ i ∈ Finset.range m, ∑ k ∈ Finset.range n, f i k) - (∑ i ∈ Finset.range m, f i j)
    - (∑ k ∈ Finset.range n, f e k) + f e j

theorem committeePpmi_one (m n : Nat) (f : Nat → Nat → ℝ) (e : Nat) (he : e < m) (j : Nat) :
    committeePpmi m n f {e} j = positivePmi (f e j) (∑ k ∈ Finset.range n, f e k) (∑ i ∈ Finset.range m, f i j)
      (∑ i ∈ Finset.range m, ∑ k ∈ Finset.range n, f i k) := by
  have h1 : ∀ k, meanFreq f {e} k = f e k := by intro k; simp [meanFreq]
  have h2 : ∀ k, f e k + restFreq m f {e} k = ∑ i ∈ Finset.range m, f i k := by
    intro k
    unfold restFreq
    rw [← Finset.sum_sdiff (s₁ := {e}) (s₂ := Finset.range m) (by simpa using he), add_comm]
    simp
  unfold committeePpmi
  simp only [h1, h2]
  rw [Finset.sum_comm]

/-- C79, partial: the vector of a one-element committee has at context `j` the ppmi of the element with the
context, as `compute_association` calculates it, unless the expected frequency is exactly 1.
Missing: that case (`C79_false`). -/
theorem C79_partial (m n : Nat) (f : Nat → Nat → ℝ) (hf : ∀ i j, 0 ≤ f i j) (e : Nat) (he : e < m) (j : Nat)
    (hj : j < n) (hN : ∑ i ∈ Finset.range m, ∑ k ∈ Finset.range n, f i k ≠ 0)
    (hE : (∑ k ∈ Finset.range n, f e k) * (∑ i ∈ Finset.range m, f i j)
      ≠ ∑ i ∈ Finset.range m, ∑ k ∈ Finset.range n, f i k) :
    ∃ v, committeeVector m n f [e] = .ok v ∧ ∃ x, v[j]? = some x ∧
      Assoc.calcPpmi (tableOf m n f e j) = .ok x := by
  have hfin : ([e] : List Nat).toFinset = {e} := rfl
  have h1 : ∀ k, meanFreq f {e} k = f e k := by intro k; simp [meanFreq]
  have h2 : ∀ k, f e k + restFreq m f {e} k = ∑ i ∈ Finset.range m, f i k := by
    intro k
    unfold restFreq
    rw [← Finset.sum_sdiff (s₁ := {e}) (s₂ := Finset.range m) (by simpa using he), add_comm]
    simp
  have hN' : ∑ k ∈ Finset.range n, (meanFreq f {e} k + restFreq m f {e} k) ≠ 0 := by
    simp only [h1, h2]
    rw [Finset.sum_comm]
    exact hN
  refine ⟨_, C77_vector m n f hf [e] (by simp) (by simp) (by simpa using he) (by rw [hfin]; exact hN'),
    committeePpmi m n f {e} j, by simp [hj], ?_⟩
  rw [committeePpmi_one m n f e he j]
  have hNn : 0 ≤ ∑ i ∈ Finset.range m, ∑ k ∈ Finset.range n, f i k :=
    Finset.sum_nonneg (fun i _ => Finset.sum_nonneg (fun k _ => hf i k))
  have hOR : f e j ≤ ∑ k ∈ Finset.range n, f e k :=
    Finset.single_le_sum (f := fun k => f e k) (fun k _ => hf e k) (Finset.mem_range.2 hj)
  have hOC : f e j ≤ ∑ i ∈ Finset.range m, f i j :=
    Finset.single_le_sum (f := fun i => f i j) (fun i _ => hf i j) (Finset.mem_range.2 he)
  have hO := hf e j
  unfold Assoc.calcPpmi Assoc.calcPmi tableOf positivePmi
  simp only
  generalize f e j = O at *
  generalize ∑ k ∈ Finset.range n, f e k = R at *
  generalize ∑ i ∈ Finset.range m, f i j = C at *
  generalize ∑ i ∈ Finset.range m, ∑ k ∈ Finset.range n, f i k = N at *
  have e1 : O + (C - O) + (R - O) + (N - C - R + O) = N := by ring
  have e2 : O + (R - O) = R := by ring
  have e3 : O + (C - O) = C := by ring
  rw [e1, e2, e3]
  have hNpos : 0 < N := lt_of_le_of_ne hNn (Ne.symm hN)
  have hE1 : R * C / N ≠ 1 := by
    intro h
    rw [div_eq_iff hN] at h
    exact hE (by linarith)
  simp only [Assoc.pyDiv, if_neg hN, bind, Except.bind]
  by_cases hz : O = 0
  · have ha : Assoc.adjustVal (R * C / N) ≠ 0 := by
      unfold Assoc.adjustVal Assoc.tiny Assoc.nearOne
      split_ifs with h1
      · norm_num
      · exact h1
    have ht : ¬ Assoc.tiny ≤ 0 := by unfold Assoc.tiny; norm_num
    have htl : Real.log Assoc.tiny < 0 := Real.log_neg (by unfold Assoc.tiny; norm_num) (by unfold Assoc.tiny; norm_num)
    have hq : Assoc.adjustVal 0 = Assoc.tiny := by unfold Assoc.adjustVal; simp
    simp only [hz, if_true, if_neg ha, zero_div, hq, Assoc.pyLog, if_neg ht, htl]
  · have hOp : 0 < O := lt_of_le_of_ne hO (Ne.symm hz)
    have hEp : 0 < R * C / N := div_pos (mul_pos (by linarith) (by linarith)) hNpos
    have ha : Assoc.adjustVal (R * C / N) = R * C / N := by
      unfold Assoc.adjustVal
      rw [if_neg hEp.ne', if_neg hE1]
    have hR : 0 < R := by linarith
    have hC : 0 < C := by linarith
    have hx : O / (R * C / N) = O * N / (R * C) := by field_simp
    have hxp : 0 < O * N / (R * C) := by positivity
    simp only [ha, if_neg hEp.ne', if_neg hz, hx]
    by_cases h1 : O * N / (R * C) = 1
    · have hq : Assoc.adjustVal 1 = Assoc.nearOne := by unfold Assoc.adjustVal; simp
      have hnl : Real.log Assoc.nearOne < 0 :=
        Real.log_neg (by unfold Assoc.nearOne; norm_num) (by unfold Assoc.nearOne; norm_num)
      have hnp : ¬ Assoc.nearOne ≤ 0 := by unfold Assoc.nearOne; norm_num
      simp only [h1, hq, Assoc.pyLog, if_neg hnp, hnl, if_true, Real.log_one, max_self]
    · have hq : Assoc.adjustVal (O * N / (R * C)) = O * N / (R * C) := by
        unfold Assoc.adjustVal
        rw [if_neg hxp.ne', if_neg h1]
      simp only [hq, Assoc.pyLog, not_le.2 hxp, if_false]
      congr 1
      split
      · next hlt => exact (max_eq_left hlt.le).symm
      · next hge => exact (max_eq_right (not_lt.1 hge)).symm

/-- The matrix with the rows `(2, 0)` and `(0, 2)`. -/
def exFreq (i j : Nat) : ℝ := if i = j ∧ i < 2 then 2 else 0

/-- C79 is false when the expected frequency is 1, here for the first row and column of `exFreq`: the committee
vector has log 2, the association matrix a larger value. -/
theorem C79_false :
    ∃ v x y, committeeVector 2 2 exFreq [0] = .ok v ∧ v[0]? = some x ∧
      Assoc.calcPpmi (tableOf 2 2 exFreq 0 0) = .ok y ∧ x = Real.log 2 ∧ x < y := by
  have e0 : ([0] : List Nat).toFinset = {0} := rfl
  have hM : ∀ j, meanFreq exFreq {0} j = exFreq 0 j := by intro j; simp [meanFreq]
  have e2 : Finset.range 2 \ {0} = {1} := by decide
  have hR : ∀ j, restFreq 2 exFreq {0} j = exFreq 1 j := by intro j; unfold restFreq; rw [e2]; simp
  have f00 : exFreq 0 0 = 2 := by simp [exFreq]
  have f01 : exFreq 0 1 = 0 := by simp [exFreq]
  have f10 : exFreq 1 0 = 0 := by simp [exFreq]
  have f11 : exFreq 1 1 = 2 := by simp [exFreq]
  have hl : (0 : ℝ) ≤ Real.log 2 := Real.log_nonneg (by norm_num)
  have hq : Assoc.adjustVal (2 / Assoc.nearOne) = 2 / Assoc.nearOne := by
    unfold Assoc.adjustVal Assoc.nearOne
    norm_num
  have hlt : Real.log 2 < Real.log (2 / Assoc.nearOne) :=
    Real.log_lt_log (by norm_num) (by unfold Assoc.nearOne; norm_num)
  refine ⟨_, committeePpmi 2 2 exFreq {0} 0, Real.log (2 / Assoc.nearOne),
    C77_vector 2 2 exFreq (fun i j => by unfold exFreq; split_ifs <;> norm_num) [0] (by simp) (by simp) (by simp)
      ?_, by simp, ?_, ?_, ?_⟩
  · rw [e0]
    simp only [hM, hR, Finset.sum_range_succ, Finset.sum_range_zero, f00, f01, f10, f11]
    norm_num
  · unfold Assoc.calcPpmi Assoc.calcPmi tableOf
    have h1 : Assoc.adjustVal 1 = Assoc.nearOne := by unfold Assoc.adjustVal; simp
    have h2 : Assoc.nearOne ≠ 0 := by unfold Assoc.nearOne; norm_num
    have h3 : ¬ 2 / Assoc.nearOne ≤ 0 := by unfold Assoc.nearOne; norm_num
    have h5 : ¬ Real.log (2 / Assoc.nearOne) < 0 := by linarith
    have e5 : (2 : ℝ) + (2 - 2) + (2 - 2) + (4 - 2 - 2 + 2) = 4 := by norm_num
    simp only [Finset.sum_range_succ, Finset.sum_range_zero, f00, f01, f10, f11]
    norm_num [Assoc.pyDiv, bind, Except.bind, h1, h2, hq, Assoc.pyLog, h3, h5]
  · unfold committeePpmi positivePmi
    simp only [hM, hR, Finset.sum_range_succ, Finset.sum_range_zero, f00, f01, f10, f11]
    norm_num
    exact hl
  · refine lt_of_eq_of_lt ?_ hlt
    unfold committeePpmi positivePmi
    simp only [hM, hR, Finset.sum_range_succ, Finset.sum_range_zero, f00, f01, f10, f11]
    norm_num
    exact hl

end

end Verif.Cbc
