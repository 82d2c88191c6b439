import Verif.Assoc.PropsSigns
import Verif.Assoc.PropsSums

/-! # Property theorems C241 (how large association scores can become) -/

set_option linter.unusedSectionVars false

namespace Verif.Assoc
open Verif.Py Verif.Matrix

variable {κ : Type} [LinearOrder κ]

/-! ### One table -/

theorem chisq_value {t : Table} (h : Margins t) : calcChisq t = .ok (total t * ((t.o11 * t.o22 - t.o12 * t.o21) ^ 2 /
    ((t.o11 + t.o12) * (t.o21 + t.o22) * ((t.o11 + t.o21) * (t.o12 + t.o22))))) := by
  have r1 := h.r1; have c1 := h.c1; have r2 := h.r2; have c2 := h.c2
  have hd : 0 < (t.o11 + t.o21) * (t.o11 + t.o12) * (t.o21 + t.o22) * (t.o12 + t.o22) := by positivity
  unfold calcChisq
  rw [pyDiv_ok (ne_of_gt hd)]
  congr 1
  unfold total
  rw [mul_div_assoc']
  congr 1 <;> ring

/-- **C241**, chi-square: at most the total frequency, which it reaches exactly if target and collocate never occur apart or
never together (and everything else with one of them). -/
theorem C241_chisq {t : Table} (h : Margins t) : ∃ v, calcChisq t = .ok v ∧ v ≤ total t ∧
    (v = total t ↔ (t.o12 = 0 ∧ t.o21 = 0) ∨ (t.o11 = 0 ∧ t.o22 = 0)) := by
  have r1 := h.r1; have c1 := h.c1; have r2 := h.r2; have c2 := h.c2; have hn := h.total_pos
  have a := h.h11; have b := h.h12; have c := h.h21; have d := h.h22
  refine ⟨_, chisq_value h, ?_, ?_⟩
  · have hd : 0 < (t.o11 + t.o12) * (t.o21 + t.o22) * ((t.o11 + t.o21) * (t.o12 + t.o22)) := by positivity
    refine mul_le_of_le_one_right hn.le ?_
    rw [div_le_one hd]
    have e1 : t.o11 * t.o22 + t.o12 * t.o21 ≤ (t.o11 + t.o12) * (t.o21 + t.o22) := by nlinarith [mul_nonneg a c, mul_nonneg b d]
    have e2 : t.o11 * t.o22 + t.o12 * t.o21 ≤ (t.o11 + t.o21) * (t.o12 + t.o22) := by nlinarith [mul_nonneg a b, mul_nonneg c d]
    have e3 : 0 ≤ t.o11 * t.o22 + t.o12 * t.o21 := by positivity
    calc (t.o11 * t.o22 - t.o12 * t.o21) ^ 2 ≤ (t.o11 * t.o22 + t.o12 * t.o21) * (t.o11 * t.o22 + t.o12 * t.o21) := by
          nlinarith [mul_nonneg (mul_nonneg a d) (mul_nonneg b c)]
      _ ≤ _ := mul_le_mul e1 e2 e3 (by positivity)
  · have hd : 0 < (t.o11 + t.o12) * (t.o21 + t.o22) * ((t.o11 + t.o21) * (t.o12 + t.o22)) := by positivity
    rw [mul_eq_left₀ (ne_of_gt hn), div_eq_one_iff_eq (ne_of_gt hd)]
    constructor
    · intro e
      have p1 := mul_nonneg a c; have p2 := mul_nonneg b d; have p3 := mul_nonneg a b; have p4 := mul_nonneg c d
      have p5 := mul_nonneg a d; have p6 := mul_nonneg b c
      have key : (t.o11 * t.o22 + t.o12 * t.o21 + (t.o11 * t.o21 + t.o12 * t.o22)) * (t.o11 * t.o22 + t.o12 * t.o21 + (t.o11 * t.o12 + t.o21 * t.o22)) =
          (t.o11 * t.o22 - t.o12 * t.o21) ^ 2 := by rw [e]; ring
      have hS : 0 < t.o11 * t.o22 + t.o12 * t.o21 := by
        by_contra hneg
        have z1 : t.o11 * t.o22 = 0 := by nlinarith
        have z2 : t.o12 * t.o21 = 0 := by nlinarith
        rw [z1, z2] at e
        have : (0 : ℝ) = (t.o11 + t.o12) * (t.o21 + t.o22) * ((t.o11 + t.o21) * (t.o12 + t.o22)) := by rw [← e]; ring
        linarith
      have q1 : t.o11 * t.o21 + t.o12 * t.o22 = 0 := by nlinarith [mul_nonneg p5 p6, mul_pos hS hS]
      have q2 : t.o11 * t.o12 + t.o21 * t.o22 = 0 := by nlinarith [mul_nonneg p5 p6, mul_pos hS hS]
      have y1 : t.o11 * t.o21 = 0 := by linarith
      have y2 : t.o12 * t.o22 = 0 := by linarith
      have y3 : t.o11 * t.o12 = 0 := by linarith
      rcases mul_eq_zero.1 y1 with z | z
      · right
        refine ⟨z, ?_⟩
        rcases mul_eq_zero.1 y2 with w | w
        · rw [z, w] at r1; simp at r1
        · exact w
      · rcases mul_eq_zero.1 y3 with w | w
        · rw [z, w] at c1; simp at c1
        · exact Or.inl ⟨w, z⟩
    · rintro (⟨e1, e2⟩ | ⟨e1, e2⟩) <;> rw [e1, e2] <;> ring

/-- **C241**, z-score: at most the square root of the total frequency. -/
theorem C241_zscore {t : Table} (h : Margins t) : ∃ z, calcZscore t = .ok z ∧ z ≤ Real.sqrt (total t) := by
  obtain ⟨z, q, hz, hq, hzq, -⟩ := C226_zscore h
  obtain ⟨v, hv, hle, -⟩ := C241_chisq h
  rw [hq] at hv
  cases hv
  exact ⟨z, hz, Real.le_sqrt_of_sq_le (hzq.trans hle)⟩

theorem gTerm_le {o r c n : ℝ} (ho : 0 ≤ o) (hoc : o ≤ c) (hr : 0 < r) (hn : 0 < n) :
    (if o = 0 then 0 else o * Real.log (o / (r * c / n))) ≤ o * Real.log (n / r) := by
  split
  · next e => rw [e, zero_mul]
  · next e =>
    have hp : 0 < o := lt_of_le_of_ne ho (Ne.symm e)
    have hc : 0 < c := lt_of_lt_of_le hp hoc
    refine mul_le_mul_of_nonneg_left (Real.log_le_log (by positivity) ?_) ho
    rw [div_div_eq_mul_div, div_le_div_iff₀ (by positivity) hr]
    nlinarith [mul_nonneg (mul_nonneg hn.le hr.le) (sub_nonneg.2 hoc)]

theorem gStat_le {t : Table} (h : Margins t) : gStat t ≤ 2 * total t * Real.log 2 := by
  have r1 := h.r1; have c1 := h.c1; have r2 := h.r2; have c2 := h.c2; have hn := h.total_pos
  have a := h.h11; have b := h.h12; have c := h.h21; have d := h.h22
  unfold gStat overCells expd
  have k1 := gTerm_le (o := t.o11) (r := rowA t) (c := colB t) a (by unfold colB; linarith) r1 hn
  have k2 := gTerm_le (o := t.o12) (r := rowA t) (c := colNB t) b (by unfold colNB; linarith) r1 hn
  have k3 := gTerm_le (o := t.o21) (r := rowNA t) (c := colB t) c (by unfold colB; linarith) r2 hn
  have k4 := gTerm_le (o := t.o22) (r := rowNA t) (c := colNB t) d (by unfold colNB; linarith) r2 hn
  have hs := shannon_le (values := [rowA t / total t, rowNA t / total t])
    (by
      intro v hv
      simp only [List.mem_cons, List.not_mem_nil, or_false] at hv
      rcases hv with rfl | rfl
      · exact div_nonneg r1.le hn.le
      · exact div_nonneg r2.le hn.le)
    (by
      simp only [List.sum_cons, List.sum_nil, add_zero]
      rw [← add_div, div_eq_one_iff_eq (ne_of_gt hn)]
      unfold rowA rowNA total
      ring)
  unfold shannon at hs
  simp only [List.map_cons, List.map_nil, List.sum_cons, List.sum_nil, add_zero, List.length_cons, List.length_nil] at hs
  norm_num at hs
  have l1 : Real.log (total t / rowA t) = -Real.log (rowA t / total t) := by rw [← Real.log_inv, inv_div]
  have l2 : Real.log (total t / rowNA t) = -Real.log (rowNA t / total t) := by rw [← Real.log_inv, inv_div]
  rw [l1] at k1 k2
  rw [l2] at k3 k4
  have m1 : rowA t = total t * (rowA t / total t) := by field_simp
  have m2 : rowNA t = total t * (rowNA t / total t) := by field_simp
  have key : -(rowA t * Real.log (rowA t / total t)) - rowNA t * Real.log (rowNA t / total t) ≤ total t * Real.log 2 := by
    calc -(rowA t * Real.log (rowA t / total t)) - rowNA t * Real.log (rowNA t / total t)
        = total t * (-(rowNA t / total t * Real.log (rowNA t / total t)) + -(rowA t / total t * Real.log (rowA t / total t))) := by
          field_simp
          ring
      _ ≤ total t * Real.log 2 := by
          refine mul_le_mul_of_nonneg_left ?_ hn.le
          linarith
  have s1 : rowA t * Real.log (rowA t / total t) = t.o11 * Real.log (rowA t / total t) + t.o12 * Real.log (rowA t / total t) := by
    rw [← add_mul]; rfl
  have s2 : rowNA t * Real.log (rowNA t / total t) = t.o21 * Real.log (rowNA t / total t) + t.o22 * Real.log (rowNA t / total t) := by
    rw [← add_mul]; rfl
  beta_reduce
  linarith

/-- **C241**, log-likelihood: at most 2 ln 2 times the total frequency. -/
theorem C241_lik {t : Table} (h : Margins t) : ∃ v, calcLik t = .ok v ∧ v ≤ 2 * total t * Real.log 2 := by
  obtain ⟨v, hv, -, hle⟩ := C64_llr_near h
  exact ⟨v, hv, hle.trans (gStat_le h)⟩

theorem ratio_le {t : Table} (h : Margins t) (h11 : 0 < t.o11) :
    t.o11 / expd t (rowA t) (colB t) ≤ total t / max (rowA t) (colB t) ∧
    (t.o11 / expd t (rowA t) (colB t) = total t / max (rowA t) (colB t) ↔ t.o11 = min (rowA t) (colB t)) := by
  have hr : 0 < rowA t := h.r1
  have hc : 0 < colB t := h.c1
  have hn := h.total_pos
  have hm : rowA t * colB t = max (rowA t) (colB t) * min (rowA t) (colB t) := (max_mul_min (rowA t) (colB t)).symm
  have hmax : 0 < max (rowA t) (colB t) := lt_max_of_lt_left hr
  have hmin : 0 < min (rowA t) (colB t) := lt_min hr hc
  have hle : t.o11 ≤ min (rowA t) (colB t) := by
    refine le_min ?_ ?_
    · have := h.h12; unfold rowA; linarith
    · have := h.h21; unfold colB; linarith
  have e : t.o11 / expd t (rowA t) (colB t) = total t / max (rowA t) (colB t) * (t.o11 / min (rowA t) (colB t)) := by
    unfold expd
    rw [hm]
    field_simp
  have hq : 0 < total t / max (rowA t) (colB t) := by positivity
  rw [e]
  constructor
  · exact mul_le_of_le_one_right hq.le ((div_le_one hmin).2 hle)
  · rw [mul_eq_left₀ (ne_of_gt hq), div_eq_one_iff_eq (ne_of_gt hmin)]

theorem log_largest {t : Table} (h : Margins t) : 0 < Real.log (total t / max (rowA t) (colB t)) := by
  have hr : 0 < rowA t := h.r1
  have hc : 0 < colB t := h.c1
  have r2 := h.r2; have c2 := h.c2
  refine Real.log_pos ?_
  rw [lt_div_iff₀ (lt_max_of_lt_left hr), one_mul]
  refine max_lt ?_ ?_
  · unfold rowA total; linarith
  · unfold colB total; linarith

theorem tiny_log : Real.log tiny < 0 := by
  refine Real.log_neg ?_ ?_ <;> unfold tiny <;> norm_num

/-- **C241**, PMI: at most the logarithm of the total frequency over the frequency of the more frequent word (up to
1.0000000002·10⁻¹⁰ above). -/
theorem C241_pmi {t : Table} (h : Margins t) : ∃ v, calcPmi t = .ok v ∧ v ≤ Real.log (total t / max (rowA t) (colB t)) + slip := by
  have hL := log_largest h
  rcases eq_or_lt_of_le h.h11 with h0 | h11
  · refine ⟨_, C64_pmi_zero h.toNonNeg h.total_pos h0.symm, ?_⟩
    have := tiny_log
    have := slip_pos
    linarith
  · obtain ⟨v, hv, hn⟩ := C64_pmi_near h.toNonNeg h11
    refine ⟨v, hv, ?_⟩
    have hE : 0 < expd t (rowA t) (colB t) := by
      have r1 : 0 < rowA t := h.r1; have c1 : 0 < colB t := h.c1; have := h.total_pos; unfold expd; positivity
    have := Real.log_le_log (by positivity) (ratio_le h h11).1
    have := (abs_le.1 hn).2
    linarith

/-- **C241**, PMI: apart from the two special cases of the code, the bound holds exactly, and it is reached exactly if the rarer word
occurs with the other one only. -/
theorem C241_pmi_reached {t : Table} (h : Margins t) (h11 : 0 < t.o11) (hE1 : expd t (rowA t) (colB t) ≠ 1)
    (hO : t.o11 ≠ expd t (rowA t) (colB t)) : ∃ v, calcPmi t = .ok v ∧ v ≤ Real.log (total t / max (rowA t) (colB t)) ∧
      (v = Real.log (total t / max (rowA t) (colB t)) ↔ t.o11 = min (rowA t) (colB t)) := by
  have hE : 0 < expd t (rowA t) (colB t) := by
    have r1 : 0 < rowA t := h.r1; have c1 : 0 < colB t := h.c1; have := h.total_pos; unfold expd; positivity
  have hm : 0 < total t / max (rowA t) (colB t) := div_pos h.total_pos (lt_max_of_lt_left h.r1)
  refine ⟨_, C64_pmi_partial h.toNonNeg h11 hE1 hO, Real.log_le_log (by positivity) (ratio_le h h11).1, ?_⟩
  rw [← (ratio_le h h11).2]
  constructor
  · intro e
    exact Real.log_injOn_pos (Set.mem_Ioi.2 (by positivity)) (Set.mem_Ioi.2 hm) e
  · intro e
    rw [e]

/-! ## C241 -/

/-- The largest score of a pair of words of frequency `fr` and `fc` in a corpus of `n`. -/
noncomputable def largest (meas : String) (fr fc n : ℝ) : Option ℝ :=
  if meas = "pmi" ∨ meas = "ppmi" then some (Real.log (n / max fr fc) + slip)
  else if meas = "chisq" then some n
  else if meas = "zscore" then some (Real.sqrt n)
  else if meas = "lik" ∨ meas = "llik" then some (2 * n * Real.log 2)
  else if meas = "dice" ∨ meas = "deltap" ∨ meas = "deltapColl" then some 1
  else none

/-- **C241**: no score in the result of `compute_association` is above the largest one of its measure. -/
theorem C241_matrix {m u : Mtx κ ℝ} (hm : Valid m) {nfreq cfreq : Dict κ ℝ} {N : Option ℝ} {n : ℝ}
    (hn : IsTotal nfreq cfreq N n) {meas : String} (h : computeAssociation m nfreq cfreq N meas = .ok u)
    {r c : κ} {x fr fc : ℝ} (hx : storedEntry m r c = some x) (hr : nfreq.get? r = some fr) (hc : cfreq.get? c = some fc)
    (hpos : 0 < x) (h12 : x ≤ fr) (h21 : x ≤ fc) (hr2 : fr < n) (hc2 : fc < n) (h22 : fr + fc ≤ n + x) {b : ℝ}
    (hb : largest meas fr fc n = some b) : ∃ v, storedEntry u r c = some v ∧ v ≤ b := by
  obtain ⟨_, _, _, _, μ, hμ, hcell⟩ := C34_cells hm hn h
  obtain ⟨fr', fc', v, h1, h2, hv, hst⟩ := (hcell r c).2 x hx
  rw [hr] at h1; rw [hc] at h2
  cases h1; cases h2
  have hM : Margins ⟨x, fc - x, fr - x, n - (fr - x) - (fc - x) - x⟩ := by
    refine ⟨⟨?_, ?_, ?_, ?_⟩, ?_, ?_, ?_, ?_⟩ <;> simp only <;> linarith
  have eN : total ⟨x, fc - x, fr - x, n - (fr - x) - (fc - x) - x⟩ = n := by unfold total; ring
  have eR : rowA ⟨x, fc - x, fr - x, n - (fr - x) - (fc - x) - x⟩ = fr := by unfold rowA; ring
  have eC : colB ⟨x, fc - x, fr - x, n - (fr - x) - (fc - x) - x⟩ = fc := by unfold colB; ring
  refine ⟨v, hst, ?_⟩
  change μ.func ⟨x, fc - x, fr - x, n - (fr - x) - (fc - x) - x⟩ = .ok v at hv
  have pm : ∀ {w}, calcPmi ⟨x, fc - x, fr - x, n - (fr - x) - (fc - x) - x⟩ = .ok w → w ≤ Real.log (n / max fr fc) + slip := by
    intro w hw
    obtain ⟨w', hw', hle⟩ := C241_pmi hM
    rw [hw] at hw'
    cases hw'
    rwa [eN, eR, eC] at hle
  unfold largest at hb
  split_ifs at hb with k1 k2 k3 k4 k5
  · cases hb
    rcases k1 with rfl | rfl <;> simp [parseMeas] at hμ <;> subst hμ
    · exact pm hv
    · obtain ⟨p, hp, hpp⟩ := C30_defined hM.toNonNeg hM.total_pos
      have hv' : calcPpmi ⟨x, fc - x, fr - x, n - (fr - x) - (fc - x) - x⟩ = .ok v := hv
      rw [hpp] at hv'
      cases hv'
      refine max_le ?_ (pm hp)
      have := log_largest hM
      rw [eN, eR, eC] at this
      have := slip_pos
      linarith
  · cases hb
    subst k2
    simp [parseMeas] at hμ
    subst hμ
    obtain ⟨w, hw, hle, -⟩ := C241_chisq hM
    have hv' : calcChisq ⟨x, fc - x, fr - x, n - (fr - x) - (fc - x) - x⟩ = .ok v := hv
    rw [hw] at hv'
    cases hv'
    rwa [eN] at hle
  · cases hb
    subst k3
    simp [parseMeas] at hμ
    subst hμ
    obtain ⟨w, hw, hle⟩ := C241_zscore hM
    have hv' : calcZscore ⟨x, fc - x, fr - x, n - (fr - x) - (fc - x) - x⟩ = .ok v := hv
    rw [hw] at hv'
    cases hv'
    rwa [eN] at hle
  · cases hb
    have hv' : calcLik ⟨x, fc - x, fr - x, n - (fr - x) - (fc - x) - x⟩ = .ok v := by
      rcases k4 with rfl | rfl <;> simp [parseMeas] at hμ <;> subst hμ <;> exact hv
    obtain ⟨w, hw, hle⟩ := C241_lik hM
    rw [hw] at hv'
    cases hv'
    rwa [eN] at hle
  · cases hb
    rcases k5 with rfl | rfl | rfl <;> simp [parseMeas] at hμ <;> subst hμ
    · exact ((C32_dice hM.toNonNeg).1 v hv).2
    · exact ((C32_deltap hM.toNonNeg).1 v hv).2
    · exact ((C32_deltap hM.toNonNeg).2 v hv).2

/-- Two words that occur with each other only, 5 times in 20: chi-square is 20. -/
example : Margins ⟨5, 0, 0, 15⟩ ∧ calcChisq ⟨5, 0, 0, 15⟩ = .ok 20 := by
  have hM : Margins ⟨5, 0, 0, 15⟩ := by refine ⟨⟨?_, ?_, ?_, ?_⟩, ?_, ?_, ?_, ?_⟩ <;> norm_num
  refine ⟨hM, ?_⟩
  obtain ⟨v, hv, -, h⟩ := C241_chisq hM
  rw [hv, h.2 (Or.inl ⟨rfl, rfl⟩)]
  norm_num [total]

/-- A cell of frequency 2 of words of frequency 4 and 5 in 20 meets the hypotheses, for every measure with a largest score. -/
example : (0 : ℝ) < 2 ∧ (2 : ℝ) ≤ 4 ∧ (2 : ℝ) ≤ 5 ∧ (4 : ℝ) < 20 ∧ (5 : ℝ) < 20 ∧ (4 : ℝ) + 5 ≤ 20 + 2 ∧ largest "chisq" 4 5 20 = some 20 := by
  refine ⟨by norm_num, by norm_num, by norm_num, by norm_num, by norm_num, by norm_num, ?_⟩
  simp [largest]

end Verif.Assoc
