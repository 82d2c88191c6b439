import Verif.Assoc.PropsMerged

/-! # Property theorem C262 (what is added by cutting off negative values) -/

set_option linter.unusedSectionVars false

namespace Verif.Assoc
open Verif.Py Verif.Matrix

variable {κ : Type} [LinearOrder κ]

/-- **C262**: with `positive=True` the weighted sum is at least that with `positive=False`, and the same exactly if no pair that
occurs is rarer than expected by chance. -/
theorem C262_cut {m : Mtx κ ℝ} (hm : Valid m) {s : Sp ℝ} (hs : m.body = .sp s) {nfreq cfreq : Dict κ ℝ}
    (hf : Marginals m nfreq cfreq) (hN : 0 < nfreq.values.sum) (h0 : ∀ r ∈ m.rows, ∀ c ∈ m.cols, 0 ≤ entry m r c) :
    ∃ u v, computePpmi m (some nfreq) cfreq false = .ok u ∧ computePpmi m (some nfreq) cfreq true = .ok v ∧
      (∀ r ∈ m.rows, ∀ c ∈ m.cols, entry v r c = max 0 (entry u r c)) ∧
      cells m (fun r c => entry m r c * entry u r c) ≤ cells m (fun r c => entry m r c * entry v r c) ∧
      (cells m (fun r c => entry m r c * entry u r c) = cells m (fun r c => entry m r c * entry v r c) ↔
        ∀ r ∈ m.rows, ∀ c ∈ m.cols, entry m r c ≠ 0 →
          (m.cols.map (fun c' => entry m r c')).sum * (m.rows.map (fun r' => entry m r' c)).sum ≤ entry m r c * cells m (entry m)) := by
  let R : κ → ℝ := fun r => (m.cols.map (fun c => entry m r c)).sum
  let C : κ → ℝ := fun c => (m.rows.map (fun r => entry m r c)).sum
  have hle := le_marginals h0
  obtain ⟨u, hu, _, _, hcu⟩ := ppmi_cells hm hs R C hf.row hf.col hN hle false
  obtain ⟨v, hv, _, _, hcv⟩ := ppmi_cells hm hs R C hf.row hf.col hN hle true
  have hNc : nfreq.values.sum = cells m (entry m) := hf.all
  have hmax : ∀ r ∈ m.rows, ∀ c ∈ m.cols, entry v r c = max 0 (entry u r c) := by
    intro r hr c hc
    rw [hcu r hr c hc, hcv r hr c hc]
    by_cases hz : entry m r c = 0
    · simp [hz]
    · simp [hz]
  refine ⟨u, v, hu, hv, hmax, ?_⟩
  have hcell : ∀ r ∈ m.rows, ∀ c ∈ m.cols, entry m r c * entry u r c ≤ entry m r c * entry v r c ∧
      (entry m r c * entry u r c = entry m r c * entry v r c ↔ (entry m r c ≠ 0 → R r * C c ≤ entry m r c * cells m (entry m))) := by
    intro r hr c hc
    rw [hmax r hr c hc]
    obtain ⟨a0, a1, a2⟩ := hle r hr c hc
    refine ⟨mul_le_mul_of_nonneg_left (le_max_right _ _) a0, ?_⟩
    rcases lt_or_eq_of_le a0 with hp | hz
    · have hR : 0 < R r := lt_of_lt_of_le hp a1
      have hC : 0 < C c := lt_of_lt_of_le hp a2
      have hval : entry u r c = Real.log (entry m r c * nfreq.values.sum / (R r * C c)) := by
        rw [hcu r hr c hc, if_neg hp.ne']; simp
      have hsign : 0 ≤ entry u r c ↔ R r * C c ≤ entry m r c * cells m (entry m) := by
        rw [hval, Real.log_nonneg_iff (by positivity), le_div_iff₀ (by positivity), one_mul, hNc]
      constructor
      · intro h _
        have h1 := mul_left_cancel₀ hp.ne' h
        exact hsign.1 (by rw [h1]; exact le_max_left _ _)
      · intro h
        rw [max_eq_right (hsign.2 (h hp.ne'))]
    · simp [← hz]
  have inner := fun r hr => sums_le m.cols (fun c => entry m r c * entry u r c) (fun c => entry m r c * entry v r c) (fun c hc => (hcell r hr c hc).1)
  obtain ⟨o1, o2⟩ := sums_le m.rows (fun r => (m.cols.map (fun c => entry m r c * entry u r c)).sum)
    (fun r => (m.cols.map (fun c => entry m r c * entry v r c)).sum) (fun r hr => (inner r hr).1)
  refine ⟨o1, o2.trans ⟨fun h r hr c hc => (hcell r hr c hc).2.1 ((inner r hr).2.1 (h r hr) c hc),
    fun h r hr => (inner r hr).2.2 fun c hc => (hcell r hr c hc).2.2 (h r hr c hc)⟩⟩

/-- In the matrix of C257, word 1 occurs with context 6 more rarely than expected. -/
example : ∃ u v, computePpmi infoMtx (some [(1, 4), (2, 2)]) [(5, 3), (6, 3)] false = .ok u ∧
    computePpmi infoMtx (some [(1, 4), (2, 2)]) [(5, 3), (6, 3)] true = .ok v ∧
    cells infoMtx (fun r c => entry infoMtx r c * entry u r c) < cells infoMtx (fun r c => entry infoMtx r c * entry v r c) := by
  obtain ⟨a, b, c, d⟩ := infoMtx_entries
  have hr : infoMtx.rows = [1, 2] := rfl
  have hc : infoMtx.cols = [5, 6] := rfl
  obtain ⟨u, v, h1, h2, _, h3, h4⟩ := C262_cut infoMtx_valid rfl infoMtx_marginals (by simp [Dict.values]; norm_num)
    (by simp [hr, hc, a, b, c, d])
  refine ⟨u, v, h1, h2, lt_of_le_of_ne h3 fun h => ?_⟩
  have := h4.1 h 1 (by simp [hr]) 6 (by simp [hc]) (by rw [b]; norm_num)
  simp [cells, hr, hc, a, b, c, d] at this
  norm_num at this

end Verif.Assoc
