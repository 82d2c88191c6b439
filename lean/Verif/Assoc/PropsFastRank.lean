import Verif.Assoc.PropsFast

/-! # Property theorems C265 (which values of `compute_ppmi` are larger, and how large they can be) -/

set_option linter.unusedSectionVars false

namespace Verif.Assoc
open Verif.Py Verif.Matrix

variable {κ : Type} [LinearOrder κ]

/-- Of two pairs that occur, the one that occurs more often in relation to the product of the frequencies has the larger value;
the size of the corpus does not matter for this. -/
theorem C265_rank {m : Mtx κ ℝ} (hm : Valid m) {s : Sp ℝ} (hs : m.body = .sp s) {nfreq cfreq : Dict κ ℝ} {R C : κ → ℝ}
    (hf : Fits m nfreq cfreq R C) :
    ∃ u, computePpmi m (some nfreq) cfreq false = .ok u ∧ ∀ r ∈ m.rows, ∀ c ∈ m.cols, ∀ r' ∈ m.rows, ∀ c' ∈ m.cols,
      entry m r c ≠ 0 → entry m r' c' ≠ 0 →
      (entry u r c < entry u r' c' ↔ entry m r c * (R r' * C c') < entry m r' c' * (R r * C c)) := by
  obtain ⟨u, hu, _, _, hv⟩ := ppmi_cells hm hs R C hf.row hf.col hf.total hf.cell false
  refine ⟨u, hu, fun r hr c hc r' hr' c' hc' h h' => ?_⟩
  have hN := hf.total
  obtain ⟨a0, a1, a2⟩ := hf.cell r hr c hc
  obtain ⟨b0, b1, b2⟩ := hf.cell r' hr' c' hc'
  have hp : 0 < entry m r c := lt_of_le_of_ne a0 (Ne.symm h)
  have hp' : 0 < entry m r' c' := lt_of_le_of_ne b0 (Ne.symm h')
  have d : 0 < R r * C c := mul_pos (hp.trans_le a1) (hp.trans_le a2)
  have d' : 0 < R r' * C c' := mul_pos (hp'.trans_le b1) (hp'.trans_le b2)
  rw [hv r hr c hc, hv r' hr' c' hc', if_neg h, if_neg h']
  simp only [Bool.false_eq_true, if_false]
  rw [Real.log_lt_log_iff (div_pos (mul_pos hp hN) d) (div_pos (mul_pos hp' hN) d'), div_lt_div_iff₀ d d']
  constructor
  · intro hl
    by_contra hn
    nlinarith [mul_le_mul_of_nonneg_right (not_lt.1 hn) hN.le]
  · intro hl
    nlinarith [mul_lt_mul_of_pos_right hl hN]

/-- No value exceeds the logarithm of the size of the corpus divided by the larger of the two frequencies, and a pair has this
value exactly if the rarer of the two never occurs without the other one. -/
theorem C265_bound {m : Mtx κ ℝ} (hm : Valid m) {s : Sp ℝ} (hs : m.body = .sp s) {nfreq cfreq : Dict κ ℝ} {R C : κ → ℝ}
    (hf : Fits m nfreq cfreq R C) :
    ∃ u, computePpmi m (some nfreq) cfreq false = .ok u ∧ ∀ r ∈ m.rows, ∀ c ∈ m.cols, entry m r c ≠ 0 →
      entry u r c ≤ Real.log (nfreq.values.sum / max (R r) (C c)) ∧
      (entry u r c = Real.log (nfreq.values.sum / max (R r) (C c)) ↔ entry m r c = min (R r) (C c)) := by
  obtain ⟨u, hu, _, _, hv⟩ := ppmi_cells hm hs R C hf.row hf.col hf.total hf.cell false
  refine ⟨u, hu, fun r hr c hc h => ?_⟩
  have hN := hf.total
  obtain ⟨a0, a1, a2⟩ := hf.cell r hr c hc
  have hp : 0 < entry m r c := lt_of_le_of_ne a0 (Ne.symm h)
  have hR := hp.trans_le a1
  have hC := hp.trans_le a2
  have hmax : 0 < max (R r) (C c) := lt_max_of_lt_left hR
  have hmin : 0 < min (R r) (C c) := lt_min hR hC
  have e : nfreq.values.sum / max (R r) (C c) = min (R r) (C c) * nfreq.values.sum / (R r * C c) := by
    rw [← min_mul_max (R r) (C c), mul_div_mul_left _ _ hmin.ne']
  have d : 0 < R r * C c := mul_pos hR hC
  rw [hv r hr c hc, if_neg h, e]
  simp only [Bool.false_eq_true, if_false]
  constructor
  · apply Real.log_le_log (div_pos (mul_pos hp hN) d)
    exact div_le_div_of_nonneg_right (mul_le_mul_of_nonneg_right (le_min a1 a2) hN.le) d.le
  · constructor
    · intro hl
      have := Real.log_injOn_pos (Set.mem_Ioi.2 (div_pos (mul_pos hp hN) d)) (Set.mem_Ioi.2 (div_pos (mul_pos hmin hN) d)) hl
      rw [div_left_inj' d.ne'] at this
      exact mul_right_cancel₀ hN.ne' this
    · intro hl
      rw [← hl]

/-! ## Examples -/

/-- Word 1 occurs 4 times and word 2 8 times, context 5 5 times and context 6 10 times: the pairs 1, 5 and 2, 6 have the same value. -/
example : ∃ u, computePpmi fastMtx (some [(1, 4), (2, 8), (9, 28)]) [(5, 5), (6, 10)] false = .ok u ∧ ¬ entry u 1 5 < entry u 2 6 := by
  obtain ⟨u, h1, h2⟩ := C265_rank fastMtx_valid rfl fastMtx_fits
  obtain ⟨a, b, c, d⟩ := fastMtx_entries
  refine ⟨u, h1, fun hl => ?_⟩
  have := (h2 1 (by simp [fastMtx]) 5 (by simp [fastMtx]) 2 (by simp [fastMtx]) 6 (by simp [fastMtx]) (by rw [a]; norm_num)
    (by rw [d]; norm_num)).1 hl
  rw [a, d] at this
  norm_num at this

example : ∃ u, computePpmi fastMtx (some [(1, 4), (2, 8), (9, 28)]) [(5, 5), (6, 10)] false = .ok u ∧ entry u 1 5 < Real.log (40 / 5) := by
  obtain ⟨u, h1, h2⟩ := C265_bound fastMtx_valid rfl fastMtx_fits
  obtain ⟨a, b, c, d⟩ := fastMtx_entries
  obtain ⟨h3, h4⟩ := h2 1 (by simp [fastMtx]) 5 (by simp [fastMtx]) (by rw [a]; norm_num)
  have e : (Dict.values [(1, (4:ℝ)), (2, 8), (9, 28)]).sum = 40 := by simp [Dict.values]; norm_num
  have e2 : max ((4:ℝ) * ((1:Nat):ℝ)) (5 * (((5:Nat):ℝ) - 4)) = 5 := by norm_num
  rw [e, e2] at h3 h4
  refine ⟨u, h1, lt_of_le_of_ne h3 fun hq => ?_⟩
  have := h4.1 hq
  rw [a] at this
  norm_num at this

end Verif.Assoc
