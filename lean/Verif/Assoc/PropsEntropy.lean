import Verif.Assoc.PropsMerged

/-! # Property theorem C259 (mutual information is at most the entropy of the words, and of the collocates) -/

set_option linter.unusedSectionVars false

namespace Verif.Assoc
open Verif.Py Verif.Matrix

variable {κ : Type} [LinearOrder κ]

/-- The entropy of frequencies that add up to `n`, times `n`. -/
noncomputable def spread (n : ℝ) (fs : List ℝ) : ℝ := (fs.map (fun f => f * Real.log (n / f))).sum

/-- A share is at most what it would be if the collocate occurred with this word only. -/
theorem share_le {n r c x : ℝ} (hn : 0 < n) (hx : 0 ≤ x) (hr : x ≤ r) (hc : x ≤ c) :
    share n r c x ≤ x * Real.log (n / r) ∧ (share n r c x = x * Real.log (n / r) ↔ x = 0 ∨ x = c) := by
  unfold share
  rcases lt_or_eq_of_le hx with hp | hz
  · have hr' : 0 < r := lt_of_lt_of_le hp hr
    have hc' : 0 < c := lt_of_lt_of_le hp hc
    have hq : x * n / (r * c) ≤ n / r := by
      rw [div_le_div_iff₀ (by positivity) hr']
      have := mul_le_mul_of_nonneg_left hc (mul_pos hn hr').le
      nlinarith
    refine ⟨mul_le_mul_of_nonneg_left (Real.log_le_log (by positivity) hq) hx, fun h => Or.inr ?_, fun h => ?_⟩
    · have h1 := mul_left_cancel₀ hp.ne' h
      have h2 := Real.log_injOn_pos (Set.mem_Ioi.2 (by positivity)) (Set.mem_Ioi.2 (by positivity)) h1
      rw [div_eq_div_iff (by positivity) hr'.ne'] at h2
      have h3 : (n * r) * x = (n * r) * c := by linarith
      exact mul_left_cancel₀ (mul_pos hn hr').ne' h3
    · rcases h with h | h
      · exact absurd h hp.ne'
      · subst h
        congr 2
        field_simp
  · subst hz
    simp

/-- **C259**: the mutual information is at most the entropy of the row frequencies, and reaches it exactly if every
collocate occurs with one word only; it is at most the entropy of the column frequencies, and reaches it exactly if every
word occurs with one collocate only. -/
theorem C259_bound {m : Mtx κ ℝ} (hm : Valid m) {s : Sp ℝ} (hs : m.body = .sp s) {nfreq cfreq : Dict κ ℝ}
    (hf : Marginals m nfreq cfreq) (hN : 0 < nfreq.values.sum) (h0 : ∀ r ∈ m.rows, ∀ c ∈ m.cols, 0 ≤ entry m r c) :
    ∃ u, computePpmi m (some nfreq) cfreq false = .ok u ∧
      cells m (fun r c => entry m r c * entry u r c) ≤
        spread nfreq.values.sum (m.rows.map (fun r => (m.cols.map (fun c => entry m r c)).sum)) ∧
      (cells m (fun r c => entry m r c * entry u r c) =
        spread nfreq.values.sum (m.rows.map (fun r => (m.cols.map (fun c => entry m r c)).sum)) ↔
          ∀ r ∈ m.rows, ∀ c ∈ m.cols, entry m r c = 0 ∨ entry m r c = (m.rows.map (fun r' => entry m r' c)).sum) ∧
      cells m (fun r c => entry m r c * entry u r c) ≤
        spread nfreq.values.sum (m.cols.map (fun c => (m.rows.map (fun r => entry m r c)).sum)) ∧
      (cells m (fun r c => entry m r c * entry u r c) =
        spread nfreq.values.sum (m.cols.map (fun c => (m.rows.map (fun r => entry m r c)).sum)) ↔
          ∀ r ∈ m.rows, ∀ c ∈ m.cols, entry m r c = 0 ∨ entry m r c = (m.cols.map (fun c' => entry m r c')).sum) := by
  let R : κ → ℝ := fun r => (m.cols.map (fun c => entry m r c)).sum
  let C : κ → ℝ := fun c => (m.rows.map (fun r => entry m r c)).sum
  have hle := le_marginals h0
  obtain ⟨u, hu, _, _, hcell⟩ := ppmi_cells hm hs R C hf.row hf.col hN hle false
  refine ⟨u, hu, ?_⟩
  rw [cells_share hcell]
  generalize nfreq.values.sum = N at hN
  have two : ∀ (g h : κ → κ → ℝ), (∀ r ∈ m.rows, ∀ c ∈ m.cols, g r c ≤ h r c) →
      cells m g ≤ cells m h ∧ (cells m g = cells m h ↔ ∀ r ∈ m.rows, ∀ c ∈ m.cols, g r c = h r c) := by
    intro g h hgh
    have inner := fun r hr => sums_le m.cols (g r) (h r) (hgh r hr)
    obtain ⟨o1, o2⟩ := sums_le m.rows (fun r => (m.cols.map (fun c => g r c)).sum) (fun r => (m.cols.map (fun c => h r c)).sum) (fun r hr => (inner r hr).1)
    exact ⟨o1, o2.trans ⟨fun e r hr => (inner r hr).2.1 (e r hr), fun e r hr => (inner r hr).2.2 (e r hr)⟩⟩
  have e1 : spread N (m.rows.map R) = cells m (fun r c => entry m r c * Real.log (N / R r)) := by
    unfold spread cells
    rw [List.map_map]
    refine congrArg List.sum (List.map_congr_left fun r _ => ?_)
    rw [List.sum_map_mul_right]
    rfl
  have e2 : spread N (m.cols.map C) = cells m (fun r c => entry m r c * Real.log (N / C c)) := by
    unfold spread cells
    rw [info_swap m.rows m.cols (fun r c => entry m r c * Real.log (N / C c)), List.map_map]
    refine congrArg List.sum (List.map_congr_left fun c _ => ?_)
    rw [List.sum_map_mul_right]
    rfl
  have k1 := fun r hr c hc => share_le (n := N) hN (hle r hr c hc).1 (hle r hr c hc).2.1 (hle r hr c hc).2.2
  have k2 : ∀ r ∈ m.rows, ∀ c ∈ m.cols, share N (R r) (C c) (entry m r c) ≤ entry m r c * Real.log (N / C c) ∧
      (share N (R r) (C c) (entry m r c) = entry m r c * Real.log (N / C c) ↔ entry m r c = 0 ∨ entry m r c = R r) := by
    intro r hr c hc
    rw [share_comm]
    exact share_le hN (hle r hr c hc).1 (hle r hr c hc).2.2 (hle r hr c hc).2.1
  obtain ⟨a1, a2⟩ := two (fun r c => share N (R r) (C c) (entry m r c)) (fun r c => entry m r c * Real.log (N / R r)) (fun r hr c hc => (k1 r hr c hc).1)
  obtain ⟨b1, b2⟩ := two (fun r c => share N (R r) (C c) (entry m r c)) (fun r c => entry m r c * Real.log (N / C c)) (fun r hr c hc => (k2 r hr c hc).1)
  rw [← e1] at a1 a2
  rw [← e2] at b1 b2
  exact ⟨a1, a2.trans ⟨fun h r hr c hc => (k1 r hr c hc).2.1 (h r hr c hc), fun h r hr c hc => (k1 r hr c hc).2.2 (h r hr c hc)⟩,
    b1, b2.trans ⟨fun h r hr c hc => (k2 r hr c hc).2.1 (h r hr c hc), fun h r hr c hc => (k2 r hr c hc).2.2 (h r hr c hc)⟩⟩

/-- In the matrix of C257, context 6 occurs with both words, so the bound is not reached. -/
example : ∃ u, computePpmi infoMtx (some [(1, 4), (2, 2)]) [(5, 3), (6, 3)] false = .ok u ∧
    cells infoMtx (fun r c => entry infoMtx r c * entry u r c) < spread 6 [4, 2] := by
  obtain ⟨a, b, c, d⟩ := infoMtx_entries
  have hr : infoMtx.rows = [1, 2] := rfl
  have hc : infoMtx.cols = [5, 6] := rfl
  have hn : (Dict.values [(1, (4 : ℝ)), (2, 2)] : List ℝ).sum = 6 := by simp [Dict.values]; norm_num
  obtain ⟨u, h1, h2, h3, _⟩ := C259_bound infoMtx_valid rfl infoMtx_marginals (by rw [hn]; norm_num)
    (by simp [hr, hc, a, b, c, d])
  have hl : (infoMtx.rows.map (fun r => (infoMtx.cols.map (fun c => entry infoMtx r c)).sum)) = [4, 2] := by
    simp [hr, hc, a, b, c, d]; norm_num
  rw [hn, hl] at h2 h3
  refine ⟨u, h1, lt_of_le_of_ne h2 fun h => ?_⟩
  have := h3.1 h 2 (by simp [hr]) 6 (by simp [hc])
  simp [hr, b, d] at this

end Verif.Assoc
