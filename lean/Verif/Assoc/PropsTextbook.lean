import Verif.Assoc.PropsMeasures

set_option linter.unusedSectionVars false

/-!
# C64: the association measures against the formulas of the handbook

The specification below gives the usual formulas in terms of observed and expected frequencies of the four cells.  The
code uses other expressions (products of margins, binomial likelihoods), and replaces 0 and 1 before taking logarithms.
-/

namespace Verif.Assoc

/-! ## Specification -/

/-- Expected frequency of a cell with row sum `r` and column sum `c`. -/
noncomputable def expd (t : Table) (r c : ℝ) : ℝ := r * c / total t

/-- Row and column sums. -/
def rowA (t : Table) : ℝ := t.o11 + t.o12
def rowNA (t : Table) : ℝ := t.o21 + t.o22
def colB (t : Table) : ℝ := t.o11 + t.o21
def colNB (t : Table) : ℝ := t.o12 + t.o22

/-- Sum over the four cells of a function of the observed and the expected frequency. -/
noncomputable def overCells (t : Table) (f : ℝ → ℝ → ℝ) : ℝ :=
  f t.o11 (expd t (rowA t) (colB t)) + f t.o12 (expd t (rowA t) (colNB t)) +
  f t.o21 (expd t (rowNA t) (colB t)) + f t.o22 (expd t (rowNA t) (colNB t))

/-- Pearson's statistic. -/
noncomputable def pearson (t : Table) : ℝ := overCells t (fun o e => (o - e) ^ 2 / e)

/-- The likelihood ratio statistic; a cell with observed frequency 0 adds 0. -/
noncomputable def gStat (t : Table) : ℝ := 2 * overCells t (fun o e => if o = 0 then 0 else o * Real.log (o / e))

/-! ## Proofs -/

/-- **C64**, chi-square: the code computes Pearson's statistic. -/
theorem C64_chisq {t : Table} (h : Margins t) : calcChisq t = .ok (pearson t) := by
  have r1 := h.r1; have c1 := h.c1; have r2 := h.r2; have c2 := h.c2; have hn := h.total_pos
  have hd : 0 < (t.o11 + t.o21) * (t.o11 + t.o12) * (t.o21 + t.o22) * (t.o12 + t.o22) := by positivity
  unfold calcChisq
  rw [pyDiv_ok (ne_of_gt hd)]
  unfold pearson overCells expd rowA rowNA colB colNB
  have hn' : t.o11 + t.o21 + t.o12 + t.o22 = total t := rfl
  rw [hn']
  have hN : total t = (t.o11 + t.o12) + (t.o21 + t.o22) := by unfold total; ring
  have d1 : ∀ {r c : ℝ}, 0 < r → 0 < c → ∀ o : ℝ, (o - r * c / total t) ^ 2 / (r * c / total t) = (o * total t - r * c) ^ 2 / (total t * (r * c)) := by
    intro r c hr hc o
    field_simp
  simp only
  rw [d1 r1 c1, d1 r1 c2, d1 r2 c1, d1 r2 c2]
  have e1 : t.o11 * total t - (t.o11 + t.o12) * (t.o11 + t.o21) = t.o11 * t.o22 - t.o21 * t.o12 := by unfold total; ring
  have e2 : t.o12 * total t - (t.o11 + t.o12) * (t.o12 + t.o22) = -(t.o11 * t.o22 - t.o21 * t.o12) := by unfold total; ring
  have e3 : t.o21 * total t - (t.o21 + t.o22) * (t.o11 + t.o21) = -(t.o11 * t.o22 - t.o21 * t.o12) := by unfold total; ring
  have e4 : t.o22 * total t - (t.o21 + t.o22) * (t.o12 + t.o22) = t.o11 * t.o22 - t.o21 * t.o12 := by unfold total; ring
  rw [e1, e2, e3, e4, neg_sq]
  generalize t.o11 * t.o22 - t.o21 * t.o12 = D
  have hC : total t = (t.o11 + t.o21) + (t.o12 + t.o22) := by unfold total; ring
  generalize total t = N at *
  generalize t.o11 + t.o12 = R1 at *
  generalize t.o21 + t.o22 = R2 at *
  generalize t.o11 + t.o21 = C1 at *
  generalize t.o12 + t.o22 = C2 at *
  congr 1
  have hNe : N ≠ 0 := ne_of_gt hn
  have a1 := ne_of_gt r1; have a2 := ne_of_gt r2; have a3 := ne_of_gt c1; have a4 := ne_of_gt c2
  have : N * D ^ 2 / (C1 * R1 * R2 * C2) = (R1 + R2) * (C1 + C2) * D ^ 2 / (N * (C1 * R1 * R2 * C2)) := by
    rw [← hN, ← hC]; field_simp
  rw [this]
  field_simp
  ring

/-- **C64**, z-score: observed minus expected over the root of the expected frequency. -/
theorem C64_zscore {t : Table} (h : NonNeg t) (hr : 0 < rowA t) (hc : 0 < colB t) :
    calcZscore t = .ok ((t.o11 - expd t (rowA t) (colB t)) / Real.sqrt (expd t (rowA t) (colB t))) := by
  have hn : 0 < total t := by have := h.h21; have := h.h22; unfold rowA at hr; unfold total; linarith
  have he : 0 < expd t (rowA t) (colB t) := by unfold expd; positivity
  unfold calcZscore
  simp only
  have e : (t.o11 + t.o21) * (t.o11 + t.o12) / (t.o11 + t.o21 + t.o12 + t.o22) = expd t (rowA t) (colB t) := by
    unfold expd rowA colB total; rw [mul_comm]
  have hn' : t.o11 + t.o21 + t.o12 + t.o22 ≠ 0 := ne_of_gt hn
  rw [pyDiv_ok hn', e]
  simp only [bind, Except.bind, pySqrt]
  rw [if_neg (not_lt.2 he.le)]
  simp only
  rw [pyDiv_ok (ne_of_gt (Real.sqrt_pos.2 he))]

/-- **C64**, Dice: twice the joint frequency over the sum of the two frequencies. -/
theorem C64_dice {t : Table} (h : 0 < rowA t + colB t) : calcDice t = .ok (2 * t.o11 / (rowA t + colB t)) :=
  pyDiv_ok (ne_of_gt h)

/-- **C64**, delta P: a difference of two relative frequencies, by rows and by columns. -/
theorem C64_deltap {t : Table} (h : Margins t) :
    calcDeltap t = .ok (t.o11 / rowA t - t.o21 / rowNA t) ∧ calcDeltapColl t = .ok (t.o11 / colB t - t.o12 / colNB t) := by
  have r1 := ne_of_gt h.r1; have c1 := ne_of_gt h.c1; have r2 := ne_of_gt h.r2; have c2 := ne_of_gt h.c2
  unfold calcDeltap calcDeltapColl
  rw [pyDiv_ok r1, pyDiv_ok r2, pyDiv_ok c1, pyDiv_ok c2]
  exact ⟨rfl, rfl⟩

/-- The slip due to replacing 1 by `nearOne`. -/
noncomputable def slip : ℝ := 1.0000000002 * tiny

theorem slip_pos : 0 < slip := by unfold slip tiny; norm_num

theorem log_nearOne : -slip ≤ Real.log nearOne ∧ Real.log nearOne < 0 := by
  constructor
  · have h := Real.one_sub_inv_le_log_of_pos nearOne_pos
    refine le_trans ?_ h
    unfold slip tiny nearOne
    norm_num
  · exact Real.log_neg nearOne_pos nearOne_lt_one

theorem log_adjust {v : ℝ} (hv : 0 < v) : Real.log v - slip ≤ Real.log (adjustVal v) ∧ Real.log (adjustVal v) ≤ Real.log v := by
  unfold adjustVal
  rw [if_neg (ne_of_gt hv)]
  split
  · next h1 =>
    subst h1
    rw [Real.log_one]
    have := log_nearOne
    constructor <;> linarith [this.1, this.2]
  · exact ⟨by linarith [slip_pos], le_refl _⟩

/-- **C64**, PMI: for a pair that occurs, the code gives the logarithm of observed over expected up to 1.0000000002·10⁻¹⁰
on either side. -/
theorem C64_pmi_near {t : Table} (h : NonNeg t) (h11 : 0 < t.o11) :
    ∃ v, calcPmi t = .ok v ∧ |v - Real.log (t.o11 / expd t (rowA t) (colB t))| ≤ slip := by
  have hr : 0 < t.o11 + t.o12 := by linarith [h.h12]
  have hc : 0 < t.o11 + t.o21 := by linarith [h.h21]
  have hn : 0 < total t := by have := h.h21; have := h.h22; unfold total; linarith
  refine ⟨_, calcPmi_eq h hn, ?_⟩
  have he : expected t = expd t (rowA t) (colB t) := rfl
  rw [← he]
  have hE : 0 < expected t := by unfold expected; positivity
  have hA := adjustVal_pos hE.le
  have h1 := log_adjust (v := t.o11 / adjustVal (expected t)) (by positivity)
  have h2 := log_adjust hE
  rw [Real.log_div (ne_of_gt h11) (ne_of_gt hA)] at h1
  rw [Real.log_div (ne_of_gt h11) (ne_of_gt hE), abs_le]
  constructor <;> linarith [h1.1, h1.2, h2.1, h2.2]

/-- **C64**, PMI: exact unless the expected frequency is 1 or equals the observed one. -/
theorem C64_pmi_partial {t : Table} (h : NonNeg t) (h11 : 0 < t.o11) (hE1 : expd t (rowA t) (colB t) ≠ 1)
    (hO : t.o11 ≠ expd t (rowA t) (colB t)) : calcPmi t = .ok (Real.log (t.o11 / expd t (rowA t) (colB t))) := by
  have hr : 0 < t.o11 + t.o12 := by linarith [h.h12]
  have hc : 0 < t.o11 + t.o21 := by linarith [h.h21]
  have hn : 0 < total t := by have := h.h21; have := h.h22; unfold total; linarith
  have hE : 0 < expected t := by unfold expected; positivity
  have he : expected t = expd t (rowA t) (colB t) := rfl
  rw [← he] at hE1 hO ⊢
  rw [calcPmi_eq h hn, adjustVal_of (ne_of_gt hE) hE1, adjustVal_of (by positivity) (by rwa [Ne, div_eq_one_iff_eq (ne_of_gt hE)])]

/-- **C64**, PMI of a pair that never occurs: not minus infinity but the logarithm of 10⁻¹⁰, whatever the expected
frequency. -/
theorem C64_pmi_zero {t : Table} (h : NonNeg t) (hn : 0 < total t) (h11 : t.o11 = 0) : calcPmi t = .ok (Real.log tiny) := by
  rw [calcPmi_eq h hn, h11, zero_div]
  unfold adjustVal
  rw [if_pos rfl]

/-- **C64**, log ratio: the logarithm of the ratio of the two relative frequencies, up to 1.0000000002·10⁻¹⁰ below. -/
theorem C64_logratio_near {t : Table} (h : NonNeg t) (h11 : 0 < t.o11) (h21 : 0 < t.o21) :
    ∃ v, calcLogRatio t = .ok v ∧ Real.log (t.o11 / rowA t / (t.o21 / rowNA t)) - slip ≤ v ∧
      v ≤ Real.log (t.o11 / rowA t / (t.o21 / rowNA t)) := by
  have hr : 0 < t.o11 + t.o12 := by linarith [h.h12]
  have hr2 : 0 < t.o21 + t.o22 := by linarith [h.h22]
  have hq : 0 < t.o11 / (t.o11 + t.o12) / (t.o21 / (t.o21 + t.o22)) := by positivity
  refine ⟨Real.log (adjustVal (t.o11 / rowA t / (t.o21 / rowNA t))), ?_, log_adjust hq⟩
  unfold calcLogRatio rowA rowNA
  rw [if_neg (ne_of_gt h21), pyDiv_ok (ne_of_gt hr), pyDiv_ok (ne_of_gt hr2)]
  simp only [bind, Except.bind]
  rw [pyDiv_ok (by positivity)]
  simp only
  rw [pyLog_ok (adjustVal_pos hq.le)]

/-- **C64** fails for the log ratio of an exclusive collocate: whatever the frequencies, the result is a negative number
next to zero, as if the word were equally frequent on both sides. -/
theorem C64_false_logratio {t : Table} (h21 : t.o21 = 0) : ∃ v, calcLogRatio t = .ok v ∧ -slip ≤ v ∧ v < 0 := by
  refine ⟨Real.log nearOne, ?_, log_nearOne⟩
  unfold calcLogRatio
  rw [if_pos h21]
  have : adjustVal 1 = nearOne := by unfold adjustVal; rw [if_neg one_ne_zero, if_pos rfl]
  simp only [bind, Except.bind, this]
  rw [pyLog_ok nearOne_pos]

/-! ### Likelihood ratio -/

/-- One term of the statistic. -/
noncomputable def gTerm (o e : ℝ) : ℝ := if o = 0 then 0 else o * Real.log (o / e)

theorem one_sub_tiny : 1 - tiny = nearOne := by unfold tiny nearOne; rfl

/-- One column of the table, with the adjusted proportion. -/
theorem column_near {a b p : ℝ} (ha : 0 ≤ a) (hb : 0 ≤ b) (hc : 0 < a + b) (_hp : 0 < p) (_hp1 : p < 1) {r1 r2 N : ℝ}
    (hr1 : 0 < r1) (hr2 : 0 < r2) (hN : r1 + r2 = N) (hpe : p = r1 / N) :
    gTerm a (r1 * (a + b) / N) + gTerm b (r2 * (a + b) / N) - (a + b) * slip ≤
      a * Real.log (adjustVal (a / (a + b))) + b * Real.log (1 - adjustVal (a / (a + b))) - a * Real.log p - b * Real.log (1 - p) ∧
    a * Real.log (adjustVal (a / (a + b))) + b * Real.log (1 - adjustVal (a / (a + b))) - a * Real.log p - b * Real.log (1 - p) ≤
      gTerm a (r1 * (a + b) / N) + gTerm b (r2 * (a + b) / N) := by
  have hNpos : 0 < N := by linarith
  have hq : 1 - p = r2 / N := by rw [hpe, ← hN]; field_simp; ring
  have hl := log_nearOne
  have hs := slip_pos
  have split : ∀ {o r : ℝ}, 0 < o → 0 < r → gTerm o (r * (a + b) / N) = o * Real.log (o / (a + b)) - o * Real.log (r / N) := by
    intro o r ho hr
    unfold gTerm
    rw [if_neg (ne_of_gt ho)]
    have : o / (r * (a + b) / N) = o / (a + b) / (r / N) := by field_simp
    rw [this, Real.log_div (by positivity) (by positivity)]
    ring
  have gz : ∀ e, gTerm 0 e = 0 := fun e => if_pos rfl
  rcases ha.eq_or_lt with ha0 | ha0
  · subst ha0
    have hb0 : 0 < b := by linarith
    have hz : adjustVal (0 / (0 + b)) = tiny := by unfold adjustVal; rw [zero_div, if_pos rfl]
    rw [hz, one_sub_tiny, gz, split hb0 hr2, hq]
    have : b / (0 + b) = 1 := by field_simp; ring
    rw [this, Real.log_one]
    constructor <;> nlinarith [hl.1, hl.2]
  · rcases hb.eq_or_lt with hb0 | hb0
    · subst hb0
      have hone : a / (a + 0) = 1 := by field_simp; ring
      have hz : adjustVal (a / (a + 0)) = nearOne := by unfold adjustVal; rw [hone, if_neg one_ne_zero, if_pos rfl]
      rw [hz, gz, split ha0 hr1, hone, Real.log_one, hpe]
      constructor <;> nlinarith [hl.1, hl.2]
    · have hlt : a / (a + b) < 1 := by rw [div_lt_one hc]; linarith
      have hz : adjustVal (a / (a + b)) = a / (a + b) := adjustVal_of (by positivity) (ne_of_lt hlt)
      have h1 : 1 - a / (a + b) = b / (a + b) := by field_simp; ring
      rw [hz, h1, split ha0 hr1, split hb0 hr2, hq, hpe]
      constructor <;> nlinarith [mul_pos hc hs]

/-- **C64**, log-likelihood: for tables with positive margins the code gives the likelihood ratio statistic, up to
2.0000000004·10⁻¹⁰ per token below. -/
theorem C64_llr_near {t : Table} (h : Margins t) :
    ∃ v, calcLik t = .ok v ∧ gStat t - 2 * total t * slip ≤ v ∧ v ≤ gStat t := by
  have r1 := h.r1; have c1 := h.c1; have r2 := h.r2; have c2 := h.c2; have hn := h.total_pos
  have hN : (t.o11 + t.o12) + (t.o21 + t.o22) = total t := by unfold total; ring
  refine ⟨_, calcLik_eq h.toNonNeg c1 c2, ?_⟩
  have hp : 0 < (t.o11 + t.o12) / total t := by positivity
  have hp1 : (t.o11 + t.o12) / total t < 1 := by rw [div_lt_one hn]; linarith
  rw [adjustVal_of (ne_of_gt hp) (ne_of_lt hp1)]
  have k1 := column_near h.h11 h.h21 c1 hp hp1 r1 r2 hN rfl
  have k2 := column_near h.h12 h.h22 c2 hp hp1 r1 r2 hN rfl
  have hg : gStat t = 2 * (gTerm t.o11 ((t.o11 + t.o12) * (t.o11 + t.o21) / total t) + gTerm t.o12 ((t.o11 + t.o12) * (t.o12 + t.o22) / total t) +
      gTerm t.o21 ((t.o21 + t.o22) * (t.o11 + t.o21) / total t) + gTerm t.o22 ((t.o21 + t.o22) * (t.o12 + t.o22) / total t)) := rfl
  have ht : total t * slip = (t.o11 + t.o21) * slip + (t.o12 + t.o22) * slip := by unfold total; ring
  rw [hg]
  constructor
  · nlinarith [k1.1, k2.1]
  · nlinarith [k1.2, k2.2]

/-- **C64**, log-likelihood: exact when all four cells are positive. -/
theorem C64_llr_partial {t : Table} (h11 : 0 < t.o11) (h21 : 0 < t.o21) (h12 : 0 < t.o12) (h22 : 0 < t.o22) :
    calcLik t = .ok (gStat t) := by
  have hn : 0 < total t := by unfold total; linarith
  rw [calcLik_interior h11 h21 h12 h22]
  congr 1
  unfold gStat overCells expd rowA rowNA colB colNB
  simp only [if_neg (ne_of_gt h11), if_neg (ne_of_gt h21), if_neg (ne_of_gt h12), if_neg (ne_of_gt h22)]
  have sp : ∀ {o r c : ℝ}, 0 < o → 0 < r → 0 < c → Real.log (o / (r * c / total t)) =
      Real.log o - Real.log r - Real.log c + Real.log (total t) := by
    intro o r c ho hr hc
    rw [Real.log_div (ne_of_gt ho) (by positivity), Real.log_div (by positivity) (ne_of_gt hn), Real.log_mul (ne_of_gt hr) (ne_of_gt hc)]
    ring
  rw [sp h11 (by linarith) (by linarith), sp h12 (by linarith) (by linarith), sp h21 (by linarith) (by linarith),
    sp h22 (by linarith) (by linarith)]
  unfold total
  ring

/-- Non-vacuity for C64: the table 10, 20, 30, 40 has positive cells and margins, its expected frequency is 12. -/
example : Margins ⟨10, 20, 30, 40⟩ ∧ expd ⟨10, 20, 30, 40⟩ (rowA ⟨10, 20, 30, 40⟩) (colB ⟨10, 20, 30, 40⟩) = 12 ∧
    calcChisq ⟨10, 20, 30, 40⟩ = .ok (100 * 200 ^ 2 / (30 * 40 * 60 * 70)) := by
  refine ⟨⟨⟨by norm_num, by norm_num, by norm_num, by norm_num⟩, by norm_num, by norm_num, by norm_num, by norm_num⟩, ?_, ?_⟩
  · unfold expd rowA colB total; norm_num
  · unfold calcChisq; rw [pyDiv_ok (by norm_num)]; norm_num

end Verif.Assoc
