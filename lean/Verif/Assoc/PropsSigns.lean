import Verif.Assoc.PropsNamed

/-! # Property theorems C225 (the measures agree on what attracts) and C226 (how the measures are related) -/

set_option linter.unusedSectionVars false

namespace Verif.Assoc
open Verif.Py Verif.Matrix

variable {κ : Type} [LinearOrder κ]

/-! ## C225 -/

/-- The measures that distinguish attraction (positive) from repulsion. -/
def signed : List String := ["pmi", "ppmi", "zscore", "deltap", "deltapColl", "logratio"]

/-- The claim: two signed measures give the same cells a positive value. -/
def C225_claim (m : Mtx κ ℝ) (nfreq cfreq : Dict κ ℝ) (N : Option ℝ) : Prop :=
  ∀ a ∈ signed, ∀ b ∈ signed, ∀ u w, computeAssociation m nfreq cfreq N a = .ok u → computeAssociation m nfreq cfreq N b = .ok w →
    ∀ r c x y, storedEntry u r c = some x → storedEntry w r c = some y → (0 < x ↔ 0 < y)

theorem attraction_iff {t : Table} (h : Margins t) : expected t < t.o11 ↔ t.o21 * t.o12 < t.o11 * t.o22 := by
  have hn := h.total_pos
  unfold expected
  rw [div_lt_iff₀ hn]
  unfold total
  constructor <;> intro hh <;> nlinarith

theorem deltap_pos {t : Table} (h : Margins t) {v : ℝ} (hv : calcDeltap t = .ok v) : 0 < v ↔ expected t < t.o11 := by
  rw [(C64_deltap h).1] at hv
  cases hv
  have r1 := h.r1; have r2 := h.r2
  rw [attraction_iff h, sub_pos]
  unfold rowA rowNA
  rw [div_lt_div_iff₀ r2 r1]
  constructor <;> intro hh <;> nlinarith

theorem deltapColl_pos {t : Table} (h : Margins t) {v : ℝ} (hv : calcDeltapColl t = .ok v) : 0 < v ↔ expected t < t.o11 := by
  rw [(C64_deltap h).2] at hv
  cases hv
  have c1 := h.c1; have c2 := h.c2
  rw [attraction_iff h, sub_pos]
  unfold colB colNB
  rw [div_lt_div_iff₀ c2 c1]
  constructor <;> intro hh <;> nlinarith

theorem logRatio_pos {t : Table} (h : Margins t) (h21 : 0 < t.o21) {v : ℝ} (hv : calcLogRatio t = .ok v) :
    0 < v ↔ expected t < t.o11 := by
  have r1 := h.r1; have r2 := h.r2
  have hq : 0 ≤ t.o11 / (t.o11 + t.o12) / (t.o21 / (t.o21 + t.o22)) := by have := h.h11; positivity
  unfold calcLogRatio at hv
  rw [if_neg (ne_of_gt h21), pyDiv_ok (ne_of_gt r1), pyDiv_ok (ne_of_gt r2)] at hv
  simp only [bind, Except.bind] at hv
  rw [pyDiv_ok (by positivity)] at hv
  simp only at hv
  rw [pyLog_ok (adjustVal_pos hq)] at hv
  cases hv
  rw [log_adjust_pos hq, attraction_iff h, one_lt_div (by positivity), div_lt_div_iff₀ r2 r1]
  constructor <;> intro hh <;> nlinarith

theorem pmi_pos {t : Table} (h : Margins t) (hE : expected t ≠ 1) {v : ℝ} (hv : calcPmi t = .ok v) : 0 < v ↔ expected t < t.o11 := by
  have hp : calcPpmi t = .ok (max 0 v) := by
    rw [C30_ppmi_is_positive_part, hv]
    rfl
  rw [← C30_positive_partial h.toNonNeg h.total_pos hE hp, lt_max_iff]
  simp

/-- **C225**, for one table: a signed measure is positive exactly if the observed frequency exceeds the expected one. -/
theorem C225_table_partial {t : Table} (h : Margins t) {meas : String} (hs : meas ∈ signed) (hE : meas = "pmi" ∨ meas = "ppmi" → expected t ≠ 1)
    (hl : meas = "logratio" → 0 < t.o21) {μ : Meas} (hμ : parseMeas meas = some μ) {v : ℝ} (hv : μ.func t = .ok v) :
    0 < v ↔ expected t < t.o11 := by
  simp only [signed, List.mem_cons, List.not_mem_nil, or_false] at hs
  rcases hs with rfl | rfl | rfl | rfl | rfl | rfl <;> simp [parseMeas] at hμ <;> subst hμ
  · exact pmi_pos h (hE (.inl rfl)) hv
  · exact C30_positive_partial h.toNonNeg h.total_pos (hE (.inr rfl)) hv
  · obtain ⟨w, hw, h1, _⟩ := C32_zscore h.toNonNeg h.r1 h.c1
    have : calcZscore t = .ok v := hv
    rw [hw] at this
    cases this
    exact h1
  · exact deltap_pos h hv
  · exact deltapColl_pos h hv
  · exact logRatio_pos h (hl rfl) hv

/-- **C225 (partial).**  The full claim is `C225_claim`; it is false (`C225_false_exclusive`, `C225_false_one`).  In the result of
`compute_association` with a signed measure, the value of a pair is positive exactly if the pair is more frequent than expected, provided
the expected frequency is not exactly 1 (`pmi`, `ppmi`) and the collocate occurs with other targets too (`logratio`). -/
theorem C225_partial {m u : Mtx κ ℝ} (hm : Valid m) {nfreq cfreq : Dict κ ℝ} {N : Option ℝ} {n : ℝ}
    (hn : IsTotal nfreq cfreq N n) {meas : String} (hs : meas ∈ signed) (h : computeAssociation m nfreq cfreq N meas = .ok u)
    {r c : κ} {x fr fc : ℝ} (hx : storedEntry m r c = some x) (hr : nfreq.get? r = some fr) (hc : cfreq.get? c = some fc)
    (hpos : 0 < x) (h12 : x ≤ fr) (h21 : x ≤ fc) (hr2 : fr < n) (hc2 : fc < n) (h22 : fr + fc ≤ n + x)
    (hE : meas = "pmi" ∨ meas = "ppmi" → fr * fc / n ≠ 1) (hl : meas = "logratio" → x < fc) :
    ∃ v, storedEntry u r c = some v ∧ (0 < v ↔ fr * fc / n < x) := by
  obtain ⟨_, _, _, _, μ, hμ, hcell⟩ := C34_cells hm hn h
  obtain ⟨fr', fc', v, h1, h2, hv, hst⟩ := (hcell r c).2 x hx
  rw [hr] at h1; rw [hc] at h2
  cases h1; cases h2
  have hM : Margins ⟨x, fc - x, fr - x, n - (fr - x) - (fc - x) - x⟩ := by
    refine ⟨⟨?_, ?_, ?_, ?_⟩, ?_, ?_, ?_, ?_⟩ <;> simp only <;> linarith
  have he : expected ⟨x, fc - x, fr - x, n - (fr - x) - (fc - x) - x⟩ = fr * fc / n := by
    unfold expected total
    simp only
    congr 1 <;> ring
  refine ⟨v, hst, ?_⟩
  have := C225_table_partial hM hs (fun hh => he ▸ hE hh) (fun hh => by have := hl hh; simp only; linarith) hμ hv
  rwa [he] at this

/-- **C225 is false**: a collocate that occurs with the target only has the largest possible Delta P of its row, but a negative log ratio. -/
theorem C225_false_exclusive {t : Table} (h : Margins t) (h11 : 0 < t.o11) (h21 : t.o21 = 0) :
    (∃ v, calcLogRatio t = .ok v ∧ v < 0) ∧ (∃ v, calcZscore t = .ok v ∧ 0 < v) ∧ (∃ v, calcDeltapColl t = .ok v ∧ 0 < v) := by
  have h22 : 0 < t.o22 := by have := h.r2; rw [h21] at this; linarith
  have ha : expected t < t.o11 := (attraction_iff h).2 (by rw [h21, zero_mul]; positivity)
  obtain ⟨v, hv, _, hneg⟩ := C64_false_logratio h21
  obtain ⟨w, hw, h1, _⟩ := C32_zscore h.toNonNeg h.r1 h.c1
  exact ⟨⟨v, hv, hneg⟩, ⟨w, hw, h1.2 ha⟩, ⟨_, (C64_deltap h).2, (deltapColl_pos h (C64_deltap h).2).2 ha⟩⟩

/-- **C225 is false**: with four equal frequencies of 1 nothing is attracted, but `pmi` is positive. -/
theorem C225_false_one : ∃ t v w, Margins t ∧ calcPmi t = .ok v ∧ calcZscore t = .ok w ∧ 0 < v ∧ w = 0 := by
  have hM : Margins ⟨1, 1, 1, 1⟩ := by refine ⟨⟨?_, ?_, ?_, ?_⟩, ?_, ?_, ?_, ?_⟩ <;> norm_num
  have he : expected ⟨1, 1, 1, 1⟩ = 1 := by unfold expected total; norm_num
  obtain ⟨p, hp, hpp⟩ := C30_defined hM.toNonNeg hM.total_pos
  obtain ⟨w, hw, _, _, h0⟩ := C32_zscore hM.toNonNeg hM.r1 hM.c1
  refine ⟨_, p, w, hM, hp, hw, ?_, h0.2 he.symm⟩
  have := (C30_positive_exact hM.toNonNeg hM.total_pos hpp).2 (by
    rw [he]; unfold adjustVal; rw [if_neg one_ne_zero, if_pos rfl]; exact nearOne_lt_one)
  simpa using this

/-- The claim fails for a matrix: a collocate of frequency 2 that occurs twice with a target of frequency 4, in 20. -/
theorem C225_false : ¬ C225_claim sampleFreq [(7, 4)] [(3, 5), (4, 2)] (some 20) := by
  intro h
  have hM : Margins ⟨2, 2 - 2, 4 - 2, 20 - (4 - 2) - (2 - 2) - 2⟩ := by refine ⟨⟨?_, ?_, ?_, ?_⟩, ?_, ?_, ?_, ?_⟩ <;> norm_num
  obtain ⟨⟨v, hv, hvneg⟩, ⟨w, hw, hwpos⟩, _⟩ := C225_false_exclusive hM (by norm_num) (by norm_num)
  have htot : IsTotal [((7 : Nat), (4 : ℝ))] [(3, 5), (4, 2)] (some 20) 20 := Or.inl ⟨rfl, by norm_num⟩
  have hstored : storedEntry sampleFreq 7 4 = some 2 := by
    rw [storedEntry_of (s := ⟨.csr, 1, 2, [((0, 1), 2)]⟩) (i := 0) (j := 1) sampleFreq_valid.rows sampleFreq_valid.cols rfl rfl rfl]
    simp [Sp.stored, Dict.get?_cons]
  have run : ∀ (meas : String) (μ : Meas) (z : ℝ), parseMeas meas = some μ → μ.func ⟨2, 2 - 2, 4 - 2, 20 - (4 - 2) - (2 - 2) - 2⟩ = .ok z →
      ∃ u, computeAssociation sampleFreq [(7, 4)] [(3, 5), (4, 2)] (some 20) meas = .ok u ∧ storedEntry u 7 4 = some z := by
    intro meas μ z hμ hz
    obtain ⟨u, hu⟩ := C34_defined sampleFreq_valid rfl (nfreq := [(7, 4)]) (cfreq := [(3, 5), (4, 2)]) htot (meas := meas) (μ := μ) hμ
      (by simp [sampleFreq, Dict.keys]) (by simp [sampleFreq, Dict.keys]) (by
        intro r c x fr fc h hr hc
        obtain ⟨rfl, rfl, rfl⟩ := sampleFreq_stored r c x h
        simp [Dict.get?_cons] at hr hc
        subst hr; subst hc
        exact ⟨z, hz⟩)
    obtain ⟨_, _, _, _, μ', hμ', hcell⟩ := C34_cells sampleFreq_valid htot hu
    obtain ⟨fr, fc, v, h1, h2, hv, hst⟩ := (hcell 7 4).2 2 hstored
    rw [hμ] at hμ'
    cases hμ'
    simp [Dict.get?_cons] at h1 h2
    subst h1; subst h2
    rw [hz] at hv
    cases hv
    exact ⟨u, hu, hst⟩
  obtain ⟨u, hu, hsu⟩ := run "logratio" .logratio v (by simp [parseMeas]) hv
  obtain ⟨u', hu', hsu'⟩ := run "zscore" .zscore w (by simp [parseMeas]) hw
  have := (h "logratio" (by simp [signed]) "zscore" (by simp [signed]) u u' hu hu' 7 4 v w hsu hsu').2 hwpos
  linarith

/-! ## C226 -/

/-- **C226**: chi-square is the total times both Delta P. -/
theorem C226_chisq {t : Table} (h : Margins t) : ∃ a b, calcDeltap t = .ok a ∧ calcDeltapColl t = .ok b ∧
    calcChisq t = .ok (total t * a * b) := by
  refine ⟨_, _, (C64_deltap h).1, (C64_deltap h).2, ?_⟩
  have r1 := h.r1; have c1 := h.c1; have r2 := h.r2; have c2 := h.c2
  have hd : 0 < (t.o11 + t.o21) * (t.o11 + t.o12) * (t.o21 + t.o22) * (t.o12 + t.o22) := by positivity
  unfold calcChisq
  rw [pyDiv_ok (ne_of_gt hd)]
  congr 1
  unfold total rowA rowNA colB colNB
  have e1 := ne_of_gt r1; have e2 := ne_of_gt r2; have e3 := ne_of_gt c1; have e4 := ne_of_gt c2
  field_simp
  ring

/-- **C226**: the square of the z-score is at most chi-square, and both are 0 together. -/
theorem C226_zscore {t : Table} (h : Margins t) : ∃ z q, calcZscore t = .ok z ∧ calcChisq t = .ok q ∧ z ^ 2 ≤ q ∧ (z = 0 ↔ q = 0) := by
  obtain ⟨q, hq, _, hq0⟩ := C32_chisq h
  obtain ⟨z, hz, _, _, hz0⟩ := C32_zscore h.toNonNeg h.r1 h.c1
  refine ⟨z, q, hz, hq, ?_, hz0.trans hq0.symm⟩
  have r1 := h.r1; have c1 := h.c1; have r2 := h.r2; have c2 := h.c2; have hn := h.total_pos
  rw [C64_chisq h] at hq
  cases hq
  rw [C64_zscore h.toNonNeg h.r1 h.c1] at hz
  cases hz
  have he : 0 < expd t (rowA t) (colB t) := by unfold expd rowA colB; positivity
  rw [div_pow, Real.sq_sqrt he.le]
  unfold pearson overCells
  have a : 0 ≤ (t.o12 - expd t (rowA t) (colNB t)) ^ 2 / expd t (rowA t) (colNB t) := by unfold expd rowA colNB; positivity
  have b : 0 ≤ (t.o21 - expd t (rowNA t) (colB t)) ^ 2 / expd t (rowNA t) (colB t) := by unfold expd rowNA colB; positivity
  have d : 0 ≤ (t.o22 - expd t (rowNA t) (colNB t)) ^ 2 / expd t (rowNA t) (colNB t) := by unfold expd rowNA colNB; positivity
  linarith

/-- **C226**: Dice of a pair that occurs is positive and at most 1, and it is 1 iff target and collocate occur with each other only. -/
theorem C226_dice {t : Table} (h : NonNeg t) (h11 : 0 < t.o11) : ∃ v, calcDice t = .ok v ∧ 0 < v ∧ v ≤ 1 ∧ (v = 1 ↔ t.o12 = 0 ∧ t.o21 = 0) := by
  have h12 := h.h12; have h21 := h.h21
  have hp : 0 < t.o11 + t.o12 + (t.o11 + t.o21) := by linarith
  refine ⟨_, pyDiv_ok (ne_of_gt hp), by positivity, by rw [div_le_one hp]; linarith, ?_⟩
  rw [div_eq_one_iff_eq (ne_of_gt hp)]
  constructor
  · intro hh
    constructor <;> linarith
  · rintro ⟨e1, e2⟩
    rw [e1, e2]
    ring

/-- A table with positive margins that meets the hypotheses: 2 of 6 and 8 of 20. -/
example : Margins ⟨2, 6, 4, 8⟩ ∧ expected ⟨2, 6, 4, 8⟩ ≠ 1 ∧ ¬ expected ⟨2, 6, 4, 8⟩ < 2 ∧ expected ⟨4, 2, 2, 12⟩ < 4 := by
  refine ⟨?_, ?_, ?_, ?_⟩
  · refine ⟨⟨?_, ?_, ?_, ?_⟩, ?_, ?_, ?_, ?_⟩ <;> norm_num
  all_goals unfold expected total; norm_num

end Verif.Assoc
