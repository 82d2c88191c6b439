import Verif.Assoc.PropsFast

/-! # Property theorems C267 (which words get a vector of zeros) -/

set_option linter.unusedSectionVars false

namespace Verif.Assoc
open Verif.Py Verif.Matrix

variable {κ : Type} [LinearOrder κ]

theorem sum_sides {α : Type} : ∀ (l : List α) (g h : α → ℝ), (∀ a ∈ l, g a ≤ h a) → (l.map g).sum = (l.map h).sum → ∀ a ∈ l, g a = h a := by
  have le : ∀ (l : List α) (g h : α → ℝ), (∀ a ∈ l, g a ≤ h a) → (l.map g).sum ≤ (l.map h).sum :=
    fun l g h hl => List.sum_le_sum hl
  intro l
  induction l with
  | nil => intro g h _ _ a ha; exact (nomatch ha)
  | cons b l ih =>
    intro g h hl he a ha
    simp only [List.map_cons, List.sum_cons] at he
    have h1 := hl b (by simp)
    have h2 := le l g h (fun a ha => hl a (by simp [ha]))
    rcases List.mem_cons.1 ha with rfl | ha
    · linarith
    · exact ih g h (fun a ha => hl a (by simp [ha])) (by linarith) a ha

theorem fits_of_marginals {m : Mtx κ ℝ} {nfreq cfreq : Dict κ ℝ} (hf : Marginals m nfreq cfreq) (hN : 0 < nfreq.values.sum)
    (h0 : ∀ r ∈ m.rows, ∀ c ∈ m.cols, 0 ≤ entry m r c) :
    Fits m nfreq cfreq (fun r => (m.cols.map (fun c => entry m r c)).sum) (fun c => (m.rows.map (fun r => entry m r c)).sum) :=
  ⟨hf.row, hf.col, hN, le_marginals h0⟩

/-- With the row and column sums as frequencies, a word has no positive value exactly if it occurs with every collocate exactly as
often as expected by chance; otherwise there is a collocate with a positive value. -/
theorem C267_word {m : Mtx κ ℝ} (hm : Valid m) {s : Sp ℝ} (hs : m.body = .sp s) {nfreq cfreq : Dict κ ℝ}
    (hf : Marginals m nfreq cfreq) (hN : 0 < nfreq.values.sum) (h0 : ∀ r ∈ m.rows, ∀ c ∈ m.cols, 0 ≤ entry m r c) (positive : Bool) :
    ∃ u, computePpmi m (some nfreq) cfreq positive = .ok u ∧ ∀ r ∈ m.rows,
      ((∃ c ∈ m.cols, 0 < entry u r c) ↔ ∃ c ∈ m.cols, entry m r c * cells m (entry m) ≠
        (m.cols.map (fun c' => entry m r c')).sum * (m.rows.map (fun r' => entry m r' c)).sum) := by
  obtain ⟨u, hu, hsign⟩ := C263_sign hm hs (fits_of_marginals hf hN h0) positive
  refine ⟨u, hu, fun r hr => ?_⟩
  have hall : nfreq.values.sum = cells m (entry m) := hf.all
  rw [hall] at hsign
  constructor
  · rintro ⟨c, hc, h⟩
    exact ⟨c, hc, ((hsign r hr c hc).1.1 h).ne'⟩
  · rintro ⟨c, hc, h⟩
    by_contra hn
    push Not at hn
    refine h (sum_sides m.cols (fun c => entry m r c * cells m (entry m))
      (fun c => (m.cols.map (fun c' => entry m r c')).sum * (m.rows.map (fun r' => entry m r' c)).sum) ?_ ?_ c hc)
    · intro c hc
      exact not_lt.1 fun hl => not_lt.2 (hn c hc) ((hsign r hr c hc).1.2 hl)
    · rw [List.sum_map_mul_right, List.sum_map_mul_left]
      congr 1
      exact info_swap m.rows m.cols (entry m)

/-- The same for collocates. -/
theorem C267_collocate {m : Mtx κ ℝ} (hm : Valid m) {s : Sp ℝ} (hs : m.body = .sp s) {nfreq cfreq : Dict κ ℝ}
    (hf : Marginals m nfreq cfreq) (hN : 0 < nfreq.values.sum) (h0 : ∀ r ∈ m.rows, ∀ c ∈ m.cols, 0 ≤ entry m r c) (positive : Bool) :
    ∃ u, computePpmi m (some nfreq) cfreq positive = .ok u ∧ ∀ c ∈ m.cols,
      ((∃ r ∈ m.rows, 0 < entry u r c) ↔ ∃ r ∈ m.rows, entry m r c * cells m (entry m) ≠
        (m.cols.map (fun c' => entry m r c')).sum * (m.rows.map (fun r' => entry m r' c)).sum) := by
  obtain ⟨u, hu, hsign⟩ := C263_sign hm hs (fits_of_marginals hf hN h0) positive
  refine ⟨u, hu, fun c hc => ?_⟩
  have hall : nfreq.values.sum = cells m (entry m) := hf.all
  rw [hall] at hsign
  constructor
  · rintro ⟨r, hr, h⟩
    exact ⟨r, hr, ((hsign r hr c hc).1.1 h).ne'⟩
  · rintro ⟨r, hr, h⟩
    by_contra hn
    push Not at hn
    refine h (sum_sides m.rows (fun r => entry m r c * cells m (entry m))
      (fun r => (m.cols.map (fun c' => entry m r c')).sum * (m.rows.map (fun r' => entry m r' c)).sum) ?_ ?_ r hr)
    · intro r hr
      exact not_lt.1 fun hl => not_lt.2 (hn r hr) ((hsign r hr c hc).1.2 hl)
    · rw [List.sum_map_mul_right, List.sum_map_mul_right, mul_comm]
      rfl

/-! ## Examples -/

/-- Word 2 never occurs with context 5, so there must be another one that it prefers. -/
example : ∃ u, computePpmi infoMtx (some [(1, 4), (2, 2)]) [(5, 3), (6, 3)] true = .ok u ∧ ∃ c ∈ infoMtx.cols, 0 < entry u 2 c := by
  obtain ⟨a, b, c, d⟩ := infoMtx_entries
  have hr : infoMtx.rows = [1, 2] := rfl
  have hc : infoMtx.cols = [5, 6] := rfl
  obtain ⟨u, h1, h2⟩ := C267_word infoMtx_valid rfl infoMtx_marginals (by simp [Dict.values]; norm_num) (by simp [hr, hc, a, b, c, d]) true
  refine ⟨u, h1, (h2 2 (by simp [hr])).2 ⟨5, by simp [hc], ?_⟩⟩
  simp [hr, hc, a, c, d]

example : ∃ u, computePpmi infoMtx (some [(1, 4), (2, 2)]) [(5, 3), (6, 3)] true = .ok u ∧ ∃ r ∈ infoMtx.rows, 0 < entry u r 5 := by
  obtain ⟨a, b, c, d⟩ := infoMtx_entries
  have hr : infoMtx.rows = [1, 2] := rfl
  have hc : infoMtx.cols = [5, 6] := rfl
  obtain ⟨u, h1, h2⟩ := C267_collocate infoMtx_valid rfl infoMtx_marginals (by simp [Dict.values]; norm_num) (by simp [hr, hc, a, b, c, d]) true
  refine ⟨u, h1, (h2 5 (by simp [hc])).2 ⟨2, by simp [hr], ?_⟩⟩
  simp [hr, hc, a, c, d]

end Verif.Assoc
