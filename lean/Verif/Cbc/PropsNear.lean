import Verif.Cbc.PropsVector
import Verif.Cbc.PropsStep1
import Verif.Assoc.PropsTextbook

/-!
# C73 and C79 where they fail
-/

namespace Verif.Cbc
open Verif.Py

theorem tableOf_nonNeg (m n : Nat) (f : Nat → Nat → ℝ) (hf : ∀ i j, 0 ≤ f i j) {e j : Nat} (he : e < m) (hj : j < n) :
    Assoc.NonNeg (tableOf m n f e j) := by
  have hOR : f e j ≤ ∑ k ∈ Finset.range n, f e k :=
    Finset.single_le_sum (f := fun k => f e k) (fun k _ => hf e k) (Finset.mem_range.2 hj)
  have hOC : f e j ≤ ∑ i ∈ Finset.range m, f i j :=
    Finset.single_le_sum (f := fun i => f i j) (fun i _ => hf i j) (Finset.mem_range.2 he)
  have hN : (∑ k ∈ Finset.range n, f e k) + ((∑ i ∈ Finset.range m, f i j) - f e j) ≤
      ∑ i ∈ Finset.range m, ∑ k ∈ Finset.range n, f i k := by
    have h1 := Finset.add_sum_erase (Finset.range m) (fun i => ∑ k ∈ Finset.range n, f i k) (Finset.mem_range.2 he)
    have h2 := Finset.add_sum_erase (Finset.range m) (fun i => f i j) (Finset.mem_range.2 he)
    have h3 : ∑ i ∈ (Finset.range m).erase e, f i j ≤ ∑ i ∈ (Finset.range m).erase e, ∑ k ∈ Finset.range n, f i k :=
      Finset.sum_le_sum (fun i _ => Finset.single_le_sum (f := fun k => f i k) (fun k _ => hf i k) (Finset.mem_range.2 hj))
    linarith
  refine ⟨hf e j, ?_, ?_, ?_⟩ <;> simp only [tableOf] <;> linarith

/-- C79, what remains when the expected frequency is 1: the two values never differ by more than the replacement of 1 by
0.9999999999 allows, and contexts without the element have 0 in both. -/
theorem C79_near (m n : Nat) (f : Nat → Nat → ℝ) (hf : ∀ i j, 0 ≤ f i j) (e : Nat) (he : e < m) (j : Nat)
    (hj : j < n) (hN : ∑ i ∈ Finset.range m, ∑ k ∈ Finset.range n, f i k ≠ 0) :
    ∃ v, committeeVector m n f [e] = .ok v ∧ ∃ x y, v[j]? = some x ∧
      Assoc.calcPpmi (tableOf m n f e j) = .ok y ∧ |y - x| ≤ 1.0000000002 / 10 ^ 10 ∧ (f e j = 0 → x = 0 ∧ y = 0) := by
  have hfin : ([e] : List Nat).toFinset = {e} := rfl
  have h1 : ∀ k, meanFreq f {e} k = f e k := by intro k; simp [meanFreq]
  have h2 : ∀ k, f e k + restFreq m f {e} k = ∑ i ∈ Finset.range m, f i k := by
    intro k
    unfold restFreq
    rw [← Finset.sum_sdiff (s₁ := {e}) (s₂ := Finset.range m) (by simpa using he), add_comm]
    simp
  have hN' : ∑ k ∈ Finset.range n, (meanFreq f {e} k + restFreq m f {e} k) ≠ 0 := by
    simp only [h1, h2]
    rw [Finset.sum_comm]
    exact hN
  have hnn := tableOf_nonNeg m n f hf he hj
  have hNn : 0 ≤ ∑ i ∈ Finset.range m, ∑ k ∈ Finset.range n, f i k :=
    Finset.sum_nonneg (fun i _ => Finset.sum_nonneg (fun k _ => hf i k))
  have htot : Assoc.total (tableOf m n f e j) = ∑ i ∈ Finset.range m, ∑ k ∈ Finset.range n, f i k := by
    simp only [Assoc.total, tableOf]; ring
  have hNpos : 0 < Assoc.total (tableOf m n f e j) := by rw [htot]; exact lt_of_le_of_ne hNn (Ne.symm hN)
  refine ⟨_, C77_vector m n f hf [e] (by simp) (by simp) (by simpa using he) (by rw [hfin]; exact hN'),
    committeePpmi m n f {e} j, ?_⟩
  have hget : ((List.range n).map (committeePpmi m n f ([e] : List Nat).toFinset))[j]? = some (committeePpmi m n f {e} j) := by
    simp [hj]
  by_cases hz : f e j = 0
  · have hp := Assoc.C64_pmi_zero hnn hNpos (show (tableOf m n f e j).o11 = 0 from hz)
    have htl : Real.log Assoc.tiny < 0 := Real.log_neg (by unfold Assoc.tiny; norm_num) (by unfold Assoc.tiny; norm_num)
    have hx : committeePpmi m n f {e} j = 0 := by
      rw [committeePpmi_one m n f e he j]
      unfold positivePmi
      rw [if_pos hz]
    refine ⟨0, hget, ?_, by rw [hx]; norm_num, fun _ => ⟨hx, rfl⟩⟩
    unfold Assoc.calcPpmi
    rw [hp]
    simp only [bind, Except.bind, htl, if_true]
  · have hO : 0 < f e j := lt_of_le_of_ne (hf e j) (Ne.symm hz)
    obtain ⟨v, hv, hd⟩ := Assoc.C64_pmi_near hnn (show 0 < (tableOf m n f e j).o11 from hO)
    have hx : committeePpmi m n f {e} j = max 0 (Real.log ((tableOf m n f e j).o11 /
        Assoc.expd (tableOf m n f e j) (Assoc.rowA (tableOf m n f e j)) (Assoc.colB (tableOf m n f e j)))) := by
      rw [committeePpmi_one m n f e he j]
      unfold positivePmi
      rw [if_neg hz]
      have e1 : Assoc.rowA (tableOf m n f e j) = ∑ k ∈ Finset.range n, f e k := by simp only [Assoc.rowA, tableOf]; ring
      have e2 : Assoc.colB (tableOf m n f e j) = ∑ i ∈ Finset.range m, f i j := by simp only [Assoc.colB, tableOf]; ring
      have e3 : (tableOf m n f e j).o11 = f e j := rfl
      unfold Assoc.expd
      rw [e1, e2, e3, htot, div_div_eq_mul_div]
    refine ⟨max 0 v, hget, ?_, ?_, fun h => absurd h hz⟩
    · unfold Assoc.calcPpmi
      rw [hv]
      simp only [bind, Except.bind]
      congr 1
      split
      · next hlt => exact (max_eq_left hlt.le).symm
      · next hge => exact (max_eq_right (not_lt.1 hge)).symm
    · rw [hx]
      rw [max_comm 0 v, max_comm 0 (Real.log _)]
      refine le_trans (abs_max_sub_max_le_abs _ _ _) ?_
      · refine le_trans hd ?_
        unfold Assoc.slip Assoc.tiny
        norm_num

variable {K : Type} [Field K] [LinearOrder K]

/-- C73, the other case: if no cluster of several elements has a positive score, the "best" cluster is an empty one with score 0. -/
theorem C73_none (root : Nat → K) (clusters : List (List Nat)) (simmx : List K) (metric : String)
    (f : Option (Nat → K → K)) (r all : List (K × List Nat))
    (h : scoreCluster root clusters simmx metric true f = .ok r)
    (hall : scoreCluster root clusters simmx metric false f = .ok all)
    (hneg : ∀ p ∈ all, p.2.length ≠ 1 → p.1 ≤ 0) : r = [(0, [])] := by
  unfold scoreCluster at h hall
  cases ha : clusters.mapM (fun ids => do return (ids, ← avgsimOf simmx ids)) with
  | error e => rw [ha] at h; simp [bind, Except.bind] at h
  | ok avgs =>
    rw [ha] at h hall
    simp only [bind, Except.bind] at h hall
    split at h
    · exact (nomatch h)
    · next st hst =>
      rw [hst] at hall
      simp only [Bool.false_eq_true, if_false, if_true, pure, Except.pure] at h hall
      have e1 := (Except.ok.inj h).symm
      have e2 := (Except.ok.inj hall).symm
      subst e1 e2
      obtain ⟨scored, i1, i2, i3, i4, i5, i6⟩ := scoreLoop_spec avgs (mapM_avg ha).2 ([], none, 0) st hst
      simp only [List.nil_append] at i3
      rw [i3] at hneg
      rcases i6 with he | ⟨p, hp, hl, hlt, he⟩
      · rw [he]; rfl
      · exact absurd hlt (not_lt.2 (hneg p hp hl))

/-- Rows `(2, 0)` and `(0, 2)`: the expected frequency of the first cell is 1. -/
example : ∀ i j, 0 ≤ exFreq i j := by
  intro i j
  unfold exFreq
  split_ifs <;> norm_num

end Verif.Cbc
