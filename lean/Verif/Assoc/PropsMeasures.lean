import Verif.Assoc.Measures
import Mathlib.Tactic.Ring
import Mathlib.Tactic.FieldSimp
import Mathlib.Tactic.Linarith
import Mathlib.Tactic.Positivity
import Mathlib.Tactic.NormNum

/-! # Property theorems C30-C33 (association measures) -/

set_option linter.unusedSectionVars false

namespace Verif.Assoc
open Classical

/-! ### Specification -/

/-- No negative count. -/
structure NonNeg (t : Table) : Prop where
  h11 : 0 ≤ t.o11
  h21 : 0 ≤ t.o21
  h12 : 0 ≤ t.o12
  h22 : 0 ≤ t.o22

/-- Total of a table. -/
def total (t : Table) : ℝ := t.o11 + t.o21 + t.o12 + t.o22

/-- Expected frequency of the pair under independence. -/
noncomputable def expected (t : Table) : ℝ := (t.o11 + t.o12) * (t.o11 + t.o21) / total t

/-- The table with target and collocate exchanged. -/
def swap (t : Table) : Table := ⟨t.o11, t.o12, t.o21, t.o22⟩

theorem tiny_pos : 0 < tiny := by unfold tiny; norm_num
theorem tiny_lt_one : tiny < 1 := by unfold tiny; norm_num
theorem nearOne_pos : 0 < nearOne := by unfold nearOne; norm_num
theorem nearOne_lt_one : nearOne < 1 := by unfold nearOne; norm_num

theorem pyDiv_ok {x y : ℝ} (h : y ≠ 0) : pyDiv x y = .ok (x / y) := by unfold pyDiv; rw [if_neg h]
theorem pyLog_ok {x : ℝ} (h : 0 < x) : pyLog x = .ok (Real.log x) := by unfold pyLog; rw [if_neg (not_le.2 h)]

theorem adjustVal_pos {v : ℝ} (h : 0 ≤ v) : 0 < adjustVal v := by
  unfold adjustVal
  split
  · exact tiny_pos
  · split
    · exact nearOne_pos
    · next h0 _ => exact lt_of_le_of_ne h (Ne.symm h0)

theorem adjustVal_of {v : ℝ} (h0 : v ≠ 0) (h1 : v ≠ 1) : adjustVal v = v := by unfold adjustVal; rw [if_neg h0, if_neg h1]

/-- PMI as computed, for non-negative tables with a positive total. -/
theorem calcPmi_eq {t : Table} (h : NonNeg t) (hn : 0 < total t) :
    calcPmi t = .ok (Real.log (adjustVal (t.o11 / adjustVal (expected t)))) := by
  have he : 0 ≤ expected t := by
    unfold expected
    have := h.h11; have := h.h12; have := h.h21
    positivity
  unfold calcPmi
  have hn' : t.o11 + t.o21 + t.o12 + t.o22 ≠ 0 := ne_of_gt hn
  have ee : (t.o11 + t.o12) * (t.o11 + t.o21) / (t.o11 + t.o21 + t.o12 + t.o22) = expected t := rfl
  simp only [pyDiv_ok hn', bind, Except.bind]
  rw [ee, pyDiv_ok (ne_of_gt (adjustVal_pos he))]
  simp only
  exact pyLog_ok (adjustVal_pos (div_nonneg h.h11 (le_of_lt (adjustVal_pos he))))

/-! ## C30 -/

/-- **C30**: the ppmi value is `max(0, pmi)`, and one is defined iff the other is, with the same exception. -/
theorem C30_ppmi_is_positive_part (t : Table) : calcPpmi t = (calcPmi t).map (max 0) := by
  unfold calcPpmi
  cases calcPmi t with
  | error e => rfl
  | ok v =>
    simp only [bind, Except.bind, Except.map]
    congr 1
    split
    · next h => exact (max_eq_left (le_of_lt h)).symm
    · next h => exact (max_eq_right (not_lt.1 h)).symm

/-- **C30**: ppmi is never negative. -/
theorem C30_nonneg (t : Table) (v : ℝ) (h : calcPpmi t = .ok v) : 0 ≤ v := by
  rw [C30_ppmi_is_positive_part] at h
  cases hp : calcPmi t with
  | error e => rw [hp] at h; cases h
  | ok w => rw [hp] at h; cases h; exact le_max_left _ _

/-- **C30**: both are defined for every table of non-negative counts with a positive total. -/
theorem C30_defined {t : Table} (h : NonNeg t) (hn : 0 < total t) : ∃ p, calcPmi t = .ok p ∧ calcPpmi t = .ok (max 0 p) := by
  refine ⟨_, calcPmi_eq h hn, ?_⟩
  rw [C30_ppmi_is_positive_part, calcPmi_eq h hn]
  rfl

theorem log_adjust_pos {q : ℝ} (hq : 0 ≤ q) : 0 < Real.log (adjustVal q) ↔ 1 < q := by
  unfold adjustVal
  split
  · next h => subst h; exact ⟨fun h => absurd h (not_lt.2 (Real.log_nonpos tiny_pos.le tiny_lt_one.le)), fun h => absurd h (by norm_num)⟩
  · split
    · next h => subst h; exact ⟨fun h => absurd h (not_lt.2 (Real.log_nonpos nearOne_pos.le nearOne_lt_one.le)), fun h => absurd h (lt_irrefl _)⟩
    · exact Real.log_pos_iff hq

/-- What positivity of ppmi means for the code: the observed frequency exceeds the *adjusted* expected one. -/
theorem C30_positive_exact {t : Table} (h : NonNeg t) (hn : 0 < total t) {v : ℝ} (hv : calcPpmi t = .ok v) :
    0 < v ↔ adjustVal (expected t) < t.o11 := by
  have he : 0 ≤ expected t := by
    unfold expected
    have := h.h11; have := h.h12; have := h.h21
    positivity
  rw [C30_ppmi_is_positive_part, calcPmi_eq h hn] at hv
  cases hv
  have ha := adjustVal_pos he
  rw [lt_max_iff, log_adjust_pos (div_nonneg h.h11 ha.le), lt_div_iff₀ ha, one_mul]
  simp

/-- **C30 (partial)**: the full claim is false for an expected frequency of exactly 1 (`C30_false`).  For every other
table of non-negative counts ppmi is positive iff the observed frequency exceeds the expected one. -/
theorem C30_positive_partial {t : Table} (h : NonNeg t) (hn : 0 < total t) (h1 : expected t ≠ 1) {v : ℝ}
    (hv : calcPpmi t = .ok v) : 0 < v ↔ expected t < t.o11 := by
  rw [C30_positive_exact h hn hv]
  by_cases h0 : expected t = 0
  · have : t.o11 = 0 := by
      unfold expected at h0
      rcases div_eq_zero_iff.1 h0 with h0 | h0
      · have a := h.h11; have b := h.h12; have c := h.h21
        rcases mul_eq_zero.1 h0 with h0 | h0 <;> linarith
      · exact absurd h0 (ne_of_gt hn)
    rw [this, h0]
    exact ⟨fun h => absurd h (not_lt.2 (adjustVal_pos le_rfl).le), fun h => absurd h (lt_irrefl _)⟩
  · rw [adjustVal_of h0 h1]

/-- **C30 is false**: all four counts 1; the observed frequency equals the expected one, ppmi is positive. -/
theorem C30_false : ∃ t v, NonNeg t ∧ calcPpmi t = .ok v ∧ t.o11 = expected t ∧ 0 < v := by
  have hN : NonNeg ⟨1, 1, 1, 1⟩ := ⟨by norm_num, by norm_num, by norm_num, by norm_num⟩
  have hn : 0 < total ⟨1, 1, 1, 1⟩ := by unfold total; norm_num
  have he : expected ⟨1, 1, 1, 1⟩ = 1 := by unfold expected total; norm_num
  obtain ⟨p, _, hp⟩ := C30_defined hN hn
  refine ⟨⟨1, 1, 1, 1⟩, _, hN, hp, he.symm, ?_⟩
  rw [C30_positive_exact hN hn hp, he]
  unfold adjustVal
  rw [if_neg one_ne_zero, if_pos rfl]
  exact nearOne_lt_one

/-- Non-vacuity for C30: a table with expected frequency 9/8 and observed 2. -/
example : NonNeg ⟨2, 1, 1, 4⟩ ∧ 0 < total ⟨2, 1, 1, 4⟩ ∧ expected ⟨2, 1, 1, 4⟩ ≠ 1 ∧ expected ⟨2, 1, 1, 4⟩ < 2 := by
  refine ⟨⟨?_, ?_, ?_, ?_⟩, ?_, ?_, ?_⟩ <;> norm_num [total, expected]

/-! ## C31 -/

theorem cellTable_margins (x r c n : ℝ) : (cellTable x r c n).o11 = x ∧
    (cellTable x r c n).o11 + (cellTable x r c n).o12 = r ∧ (cellTable x r c n).o11 + (cellTable x r c n).o21 = c ∧
    total (cellTable x r c n) = n := by
  unfold cellTable total
  refine ⟨rfl, ?_, ?_, ?_⟩ <;> simp only <;> ring

theorem calcPmi_cell {x r c n : ℝ} (hx : 0 < x) (hr : 0 < r) (hc : 0 < c) (hn : 0 < n) :
    calcPmi (cellTable x r c n) = .ok (Real.log (adjustVal (x / adjustVal (r * c / n)))) := by
  obtain ⟨m1, m2, m3, m4⟩ := cellTable_margins x r c n
  have he : 0 ≤ r * c / n := by positivity
  unfold calcPmi
  unfold total at m4
  rw [m4, m2, m3, m1]
  simp only [pyDiv_ok (ne_of_gt hn), bind, Except.bind]
  rw [pyDiv_ok (ne_of_gt (adjustVal_pos he))]
  simp only
  exact pyLog_ok (adjustVal_pos (div_nonneg hx.le (le_of_lt (adjustVal_pos he))))

theorem ppmiCell_eq {x r c n : ℝ} (hx : 0 < x) (hr : 0 < r) (hc : 0 < c) (hn : 0 < n) (positive : Bool) :
    ppmiCell positive x r c n = .ok (if positive then max 0 (Real.log (x * n / (r * c))) else Real.log (x * n / (r * c))) := by
  have hrc : 0 < r * c := mul_pos hr hc
  have hq : 0 < x * n / (r * c) := by positivity
  unfold ppmiCell
  simp only [if_pos hrc, if_pos (ne_of_gt hq), pyLog_ok hq, bind, Except.bind]
  congr 1
  cases positive with
  | false => simp
  | true =>
    simp only [if_true]
    split
    · next h => exact (max_eq_left (le_of_lt h)).symm
    · next h => exact (max_eq_right (not_lt.1 h)).symm

/-- **C31 (partial)**: for the same frequency, marginals and total, all positive, the two ppmi values are equal unless
the expected frequency is exactly 1 (`C31_false`; the totals themselves may differ, see `C31_false_totals`). -/
theorem C31_agree_partial {x r c n : ℝ} (hx : 0 < x) (hr : 0 < r) (hc : 0 < c) (hn : 0 < n) (h1 : r * c / n ≠ 1) :
    ppmiCell true x r c n = calcPpmi (cellTable x r c n) := by
  have he : 0 < r * c / n := by positivity
  have e : x * n / (r * c) = x / (r * c / n) := by field_simp
  rw [ppmiCell_eq hx hr hc hn, C30_ppmi_is_positive_part, calcPmi_cell hx hr hc hn, adjustVal_of (ne_of_gt he) h1]
  simp only [if_true, Except.map, e]
  congr 1
  by_cases hq : x / (r * c / n) = 1
  · rw [hq]
    unfold adjustVal
    rw [if_neg one_ne_zero, if_pos rfl, Real.log_one, max_self]
    exact (max_eq_left (Real.log_nonpos nearOne_pos.le nearOne_lt_one.le)).symm
  · rw [adjustVal_of (ne_of_gt (by positivity)) hq]

/-- The same for plain pmi (`positive=False`), where the observed frequency must also differ from the expected one. -/
theorem C31_agree_pmi_partial {x r c n : ℝ} (hx : 0 < x) (hr : 0 < r) (hc : 0 < c) (hn : 0 < n) (h1 : r * c / n ≠ 1)
    (h2 : x ≠ r * c / n) : ppmiCell false x r c n = calcPmi (cellTable x r c n) := by
  have he : 0 < r * c / n := by positivity
  have e : x * n / (r * c) = x / (r * c / n) := by field_simp
  rw [ppmiCell_eq hx hr hc hn, calcPmi_cell hx hr hc hn, adjustVal_of (ne_of_gt he) h1,
    adjustVal_of (ne_of_gt (by positivity)) (fun h => h2 ((div_eq_one_iff_eq (ne_of_gt he)).1 h))]
  simp [e]

/-- **C31 is false** at an expected frequency of 1: one implementation gives 0, the other a positive value. -/
theorem C31_false : ∃ x r c n v : ℝ, 0 < x ∧ 0 < r ∧ 0 < c ∧ 0 < n ∧ ppmiCell true x r c n = .ok 0 ∧
    calcPpmi (cellTable x r c n) = .ok v ∧ 0 < v := by
  refine ⟨1, 2, 2, 4, max 0 (Real.log (adjustVal (1 / adjustVal (2 * 2 / 4)))), by norm_num, by norm_num, by norm_num, by norm_num, ?_, ?_, ?_⟩
  · rw [ppmiCell_eq (by norm_num) (by norm_num) (by norm_num) (by norm_num)]
    norm_num
  · rw [C30_ppmi_is_positive_part, calcPmi_cell (by norm_num) (by norm_num) (by norm_num) (by norm_num)]
    rfl
  · have e : (2 * 2 / 4 : ℝ) = 1 := by norm_num
    have a : adjustVal 1 = nearOne := by unfold adjustVal; rw [if_neg one_ne_zero, if_pos rfl]
    rw [e, a, lt_max_iff]
    right
    rw [log_adjust_pos (by have := nearOne_pos; positivity), lt_div_iff₀ nearOne_pos, one_mul]
    exact nearOne_lt_one

example : (0 : ℝ) < 2 ∧ (3 * 3 / 8 : ℝ) ≠ 1 ∧ (2 : ℝ) ≠ 3 * 3 / 8 := by norm_num

/-! ## C32 -/

/-- **C32**, Dice: in [0, 1] whenever defined, and defined unless the target and the collocate never occur. -/
theorem C32_dice {t : Table} (h : NonNeg t) :
    (∀ v, calcDice t = .ok v → 0 ≤ v ∧ v ≤ 1) ∧ ((∃ v, calcDice t = .ok v) ↔ 0 < t.o11 + t.o12 + t.o21) := by
  have a := h.h11; have b := h.h12; have c := h.h21
  unfold calcDice pyDiv
  constructor
  · intro v hv
    split at hv
    · cases hv
    · next hne =>
      cases hv
      have hpos : 0 < t.o11 + t.o12 + (t.o11 + t.o21) := lt_of_le_of_ne (by linarith) (Ne.symm hne)
      exact ⟨by positivity, by rw [div_le_one hpos]; linarith⟩
  · constructor
    · rintro ⟨v, hv⟩
      by_contra hc
      have : t.o11 + t.o12 + (t.o11 + t.o21) = 0 := by linarith
      rw [if_pos this] at hv
      cases hv
    · intro hp
      exact ⟨_, if_neg (by linarith)⟩

/-- **C32**, Delta P in both directions: in [-1, 1] whenever defined. -/
theorem C32_deltap {t : Table} (h : NonNeg t) :
    (∀ v, calcDeltap t = .ok v → -1 ≤ v ∧ v ≤ 1) ∧ (∀ v, calcDeltapColl t = .ok v → -1 ≤ v ∧ v ≤ 1) := by
  have key : ∀ x y z w : ℝ, 0 ≤ x → 0 ≤ y → 0 ≤ z → 0 ≤ w → ∀ v, (do
      let a ← pyDiv x (x + y)
      let b ← pyDiv z (z + w)
      .ok (a - b) : Except Err ℝ) = .ok v → -1 ≤ v ∧ v ≤ 1 := by
    intro x y z w hx hy hz hw v hv
    unfold pyDiv at hv
    split at hv
    · cases hv
    · next h1 =>
      simp only [bind, Except.bind] at hv
      split at hv
      · cases hv
      · next heq =>
        split at heq
        · cases heq
        · next h2 =>
          cases heq
          cases hv
          have p1 : 0 < x + y := lt_of_le_of_ne (by linarith) (Ne.symm h1)
          have p2 : 0 < z + w := lt_of_le_of_ne (by linarith) (Ne.symm h2)
          have a1 : x / (x + y) ≤ 1 := by rw [div_le_one p1]; linarith
          have a0 : 0 ≤ x / (x + y) := by positivity
          have b1 : z / (z + w) ≤ 1 := by rw [div_le_one p2]; linarith
          have b0 : 0 ≤ z / (z + w) := by positivity
          constructor <;> linarith
  exact ⟨key _ _ _ _ h.h11 h.h12 h.h21 h.h22, key _ _ _ _ h.h11 h.h21 h.h12 h.h22⟩

/-- Tables all of whose margins are positive. -/
structure Margins (t : Table) : Prop extends NonNeg t where
  r1 : 0 < t.o11 + t.o12
  c1 : 0 < t.o11 + t.o21
  r2 : 0 < t.o21 + t.o22
  c2 : 0 < t.o12 + t.o22

theorem Margins.total_pos {t : Table} (h : Margins t) : 0 < total t := by
  have := h.r1; have := h.h21; have := h.h22; unfold total; linarith

/-- **C32**, chi-square: defined for positive margins, non-negative, and zero iff the observed frequency is the expected
one. -/
theorem C32_chisq {t : Table} (h : Margins t) : ∃ v, calcChisq t = .ok v ∧ 0 ≤ v ∧ (v = 0 ↔ t.o11 = expected t) := by
  have r1 := h.r1; have c1 := h.c1; have r2 := h.r2; have c2 := h.c2; have hn := h.total_pos
  have hd : 0 < (t.o11 + t.o21) * (t.o11 + t.o12) * (t.o21 + t.o22) * (t.o12 + t.o22) := by positivity
  refine ⟨_, pyDiv_ok (ne_of_gt hd), ?_, ?_⟩
  · unfold total at hn; positivity
  · have hn' : t.o11 + t.o21 + t.o12 + t.o22 ≠ 0 := ne_of_gt hn
    rw [div_eq_zero_iff, or_iff_left (ne_of_gt hd), mul_eq_zero, or_iff_right hn', sq_eq_zero_iff]
    unfold expected
    rw [eq_div_iff (ne_of_gt hn)]
    unfold total
    constructor <;> intro hh <;> nlinarith

/-- **C32**, z-score: defined for a positive target and collocate margin, with the sign of observed minus expected. -/
theorem C32_zscore {t : Table} (h : NonNeg t) (hr : 0 < t.o11 + t.o12) (hc : 0 < t.o11 + t.o21) :
    ∃ v, calcZscore t = .ok v ∧ (0 < v ↔ expected t < t.o11) ∧ (v < 0 ↔ t.o11 < expected t) ∧
      (v = 0 ↔ t.o11 = expected t) := by
  have hn : 0 < total t := by have := h.h21; have := h.h22; unfold total; linarith
  have he : 0 < expected t := by unfold expected; positivity
  have ee : (t.o11 + t.o21) * (t.o11 + t.o12) / total t = expected t := by unfold expected; ring
  have hs : 0 < Real.sqrt (expected t) := Real.sqrt_pos.2 he
  refine ⟨(t.o11 - expected t) / Real.sqrt (expected t), ?_, ?_, ?_, ?_⟩
  · unfold calcZscore
    have hn' : t.o11 + t.o21 + t.o12 + t.o22 ≠ 0 := ne_of_gt hn
    simp only [pyDiv_ok hn', bind, Except.bind]
    have : (t.o11 + t.o21) * (t.o11 + t.o12) / (t.o11 + t.o21 + t.o12 + t.o22) = expected t := ee
    rw [this]
    unfold pySqrt
    rw [if_neg (not_lt.2 he.le)]
    exact pyDiv_ok (ne_of_gt hs)
  · rw [lt_div_iff₀ hs, zero_mul, sub_pos]
  · rw [div_lt_iff₀ hs, zero_mul, sub_neg]
  · rw [div_eq_zero_iff, or_iff_left (ne_of_gt hs), sub_eq_zero]

/-- Gibbs' inequality for two cells: the relative frequencies fit best. -/
theorem gibbs {a b p : ℝ} (ha : 0 < a) (hb : 0 < b) (hp : 0 < p) (hp1 : p < 1) :
    a * Real.log p + b * Real.log (1 - p) ≤ a * Real.log (a / (a + b)) + b * Real.log (1 - a / (a + b)) := by
  have hn : 0 < a + b := by linarith
  have e : 1 - a / (a + b) = b / (a + b) := by field_simp; ring
  rw [e]
  have hq : 0 < 1 - p := by linarith
  have h1 : Real.log (p / (a / (a + b))) ≤ p / (a / (a + b)) - 1 := Real.log_le_sub_one_of_pos (by positivity)
  have h2 : Real.log ((1 - p) / (b / (a + b))) ≤ (1 - p) / (b / (a + b)) - 1 := Real.log_le_sub_one_of_pos (by positivity)
  rw [Real.log_div (ne_of_gt hp) (by positivity)] at h1
  rw [Real.log_div (ne_of_gt hq) (by positivity)] at h2
  have k1 : a * (p / (a / (a + b)) - 1) = p * (a + b) - a := by field_simp
  have k2 : b * ((1 - p) / (b / (a + b)) - 1) = (1 - p) * (a + b) - b := by field_simp
  have m1 := mul_le_mul_of_nonneg_left h1 ha.le
  have m2 := mul_le_mul_of_nonneg_left h2 hb.le
  rw [k1] at m1
  rw [k2] at m2
  nlinarith

/-- The fit of one column with the adjusted relative frequency: at most `a + b` times 1.0000000002e-10 worse than any
other probability. -/
theorem column_fit {a b p : ℝ} (ha : 0 ≤ a) (hb : 0 ≤ b) (hn : 0 < a + b) (hp : 0 < p) (hp1 : p < 1) :
    a * Real.log p + b * Real.log (1 - p) - (a + b) * (1.0000000002 * tiny) ≤
      a * Real.log (adjustVal (a / (a + b))) + b * Real.log (1 - adjustVal (a / (a + b))) := by
  have hq : 0 < 1 - p := by linarith
  have hl : Real.log nearOne ≥ -(1.0000000002 * tiny) := by
    have h1 : Real.log (nearOne⁻¹) ≤ nearOne⁻¹ - 1 := Real.log_le_sub_one_of_pos (by have := nearOne_pos; positivity)
    rw [Real.log_inv] at h1
    have h2 : nearOne⁻¹ - 1 ≤ 1.0000000002 * tiny := by unfold nearOne tiny; norm_num
    linarith
  have lp : Real.log p ≤ 0 := Real.log_nonpos hp.le hp1.le
  have lq : Real.log (1 - p) ≤ 0 := Real.log_nonpos hq.le (by linarith)
  have ht : 0 ≤ 1.0000000002 * tiny := by have := tiny_pos; positivity
  rcases ha.eq_or_lt with rfl | ha'
  · have e : (0 : ℝ) / (0 + b) = 0 := by simp
    have e1 : (1 : ℝ) - tiny = nearOne := rfl
    rw [e]
    unfold adjustVal
    rw [if_pos rfl, e1]
    have := mul_le_mul_of_nonneg_left hl hb
    have := mul_nonpos_of_nonneg_of_nonpos hb lq
    nlinarith
  · rcases hb.eq_or_lt with rfl | hb'
    · have e : a / (a + 0) = 1 := by rw [add_zero]; exact div_self (ne_of_gt ha')
      rw [e]
      unfold adjustVal
      rw [if_neg one_ne_zero, if_pos rfl]
      have := mul_le_mul_of_nonneg_left hl ha
      have := mul_nonpos_of_nonneg_of_nonpos ha lp
      nlinarith
    · have g := gibbs ha' hb' hp hp1
      have h0 : a / (a + b) ≠ 0 := ne_of_gt (by positivity)
      have h1 : a / (a + b) ≠ 1 := by
        intro h
        rw [div_eq_one_iff_eq (ne_of_gt hn)] at h
        linarith
      rw [adjustVal_of h0 h1]
      nlinarith

theorem adjustVal_lt_one {v : ℝ} (h1 : v ≤ 1) : adjustVal v < 1 := by
  unfold adjustVal
  split
  · exact tiny_lt_one
  · split
    · exact nearOne_lt_one
    · next h => exact lt_of_le_of_ne h1 h

/-- The log-likelihood ratio is defined for positive collocate margins. -/
theorem calcLik_eq {t : Table} (h : NonNeg t) (c1 : 0 < t.o11 + t.o21) (c2 : 0 < t.o12 + t.o22) :
    calcLik t = .ok (2 * (t.o11 * Real.log (adjustVal (t.o11 / (t.o11 + t.o21))) +
      t.o21 * Real.log (1 - adjustVal (t.o11 / (t.o11 + t.o21))) + t.o12 * Real.log (adjustVal (t.o12 / (t.o12 + t.o22))) +
      t.o22 * Real.log (1 - adjustVal (t.o12 / (t.o12 + t.o22))) -
      t.o11 * Real.log (adjustVal ((t.o11 + t.o12) / total t)) - t.o21 * Real.log (1 - adjustVal ((t.o11 + t.o12) / total t)) -
      t.o12 * Real.log (adjustVal ((t.o11 + t.o12) / total t)) - t.o22 * Real.log (1 - adjustVal ((t.o11 + t.o12) / total t)))) := by
  have a := h.h11; have b := h.h21; have c := h.h12; have d := h.h22
  have hn : 0 < total t := by unfold total; linarith
  have en : t.o11 + t.o12 + t.o21 + t.o22 = total t := by unfold total; ring
  have g1 : 0 ≤ t.o11 / (t.o11 + t.o21) ∧ t.o11 / (t.o11 + t.o21) ≤ 1 := ⟨by positivity, by rw [div_le_one c1]; linarith⟩
  have g2 : 0 ≤ t.o12 / (t.o12 + t.o22) ∧ t.o12 / (t.o12 + t.o22) ≤ 1 := ⟨by positivity, by rw [div_le_one c2]; linarith⟩
  have g : 0 ≤ (t.o11 + t.o12) / total t ∧ (t.o11 + t.o12) / total t ≤ 1 :=
    ⟨by positivity, by rw [div_le_one hn]; unfold total; linarith⟩
  unfold calcLik
  rw [en]
  simp only [pyDiv_ok (ne_of_gt c1), pyDiv_ok (ne_of_gt c2), pyDiv_ok (ne_of_gt hn), pyLog_ok (adjustVal_pos g1.1),
    pyLog_ok (adjustVal_pos g2.1), pyLog_ok (adjustVal_pos g.1), pyLog_ok (sub_pos.2 (adjustVal_lt_one g1.2)),
    pyLog_ok (sub_pos.2 (adjustVal_lt_one g2.2)), pyLog_ok (sub_pos.2 (adjustVal_lt_one g.2)), bind, Except.bind]

/-- **C32**, log-likelihood ratio, for all tables with positive collocate margins: never below
`-2.0000000004e-10` times the total. -/
theorem C32_llr_bound {t : Table} (h : NonNeg t) (c1 : 0 < t.o11 + t.o21) (c2 : 0 < t.o12 + t.o22) :
    ∃ v, calcLik t = .ok v ∧ -(total t * (2.0000000004 / 10 ^ 10)) ≤ v := by
  refine ⟨_, calcLik_eq h c1 c2, ?_⟩
  have a := h.h11; have b := h.h21; have c := h.h12; have d := h.h22
  have hn : 0 < total t := by unfold total; linarith
  have g : 0 ≤ (t.o11 + t.o12) / total t ∧ (t.o11 + t.o12) / total t ≤ 1 :=
    ⟨by positivity, by rw [div_le_one hn]; unfold total; linarith⟩
  have f1 := column_fit a b c1 (adjustVal_pos g.1) (adjustVal_lt_one g.2)
  have f2 := column_fit c d c2 (adjustVal_pos g.1) (adjustVal_lt_one g.2)
  have e : total t * (2.0000000004 / 10 ^ 10) =
      2 * ((t.o11 + t.o21) * (1.0000000002 * tiny) + (t.o12 + t.o22) * (1.0000000002 * tiny)) := by
    unfold total tiny; ring
  rw [e]
  linarith

/-- **C32 (partial)**, log-likelihood ratio: non-negative for tables without a zero cell. -/
theorem C32_llr_nonneg_partial {t : Table} (h11 : 0 < t.o11) (h21 : 0 < t.o21) (h12 : 0 < t.o12) (h22 : 0 < t.o22) :
    ∃ v, calcLik t = .ok v ∧ 0 ≤ v := by
  have c1 : 0 < t.o11 + t.o21 := by linarith
  have c2 : 0 < t.o12 + t.o22 := by linarith
  refine ⟨_, calcLik_eq ⟨h11.le, h21.le, h12.le, h22.le⟩ c1 c2, ?_⟩
  have hn : 0 < total t := by unfold total; linarith
  have hp : 0 < (t.o11 + t.o12) / total t := by positivity
  have hp1 : (t.o11 + t.o12) / total t < 1 := by rw [div_lt_one hn]; unfold total; linarith
  have f1 := gibbs h11 h21 hp hp1
  have f2 := gibbs h12 h22 hp hp1
  have k : ∀ x y : ℝ, 0 < x → 0 < y → adjustVal (x / (x + y)) = x / (x + y) := by
    intro x y hx hy
    refine adjustVal_of (ne_of_gt (by positivity)) (fun h => ?_)
    rw [div_eq_one_iff_eq (by linarith)] at h
    linarith
  rw [k _ _ h11 h21, k _ _ h12 h22, adjustVal_of (ne_of_gt hp) (ne_of_lt hp1)]
  linarith

/-- **C32 is false** for the log-likelihood ratio: 1, 0, 10^11, 1 gives a negative value. -/
theorem C32_false_llr : ∃ t v, Margins t ∧ calcLik t = .ok v ∧ v < 0 := by
  have hN : NonNeg ⟨1, 0, 10 ^ 11, 1⟩ := ⟨by norm_num, by norm_num, by norm_num, by norm_num⟩
  refine ⟨⟨1, 0, 10 ^ 11, 1⟩, _, ⟨hN, by norm_num, by norm_num, by norm_num, by norm_num⟩,
    calcLik_eq hN (by norm_num) (by norm_num), ?_⟩
  have e1 : (1 : ℝ) / (1 + 0) = 1 := by norm_num
  have et : total ⟨1, 0, 10 ^ 11, 1⟩ = 10 ^ 11 + 2 := by unfold total; norm_num
  have a1 : adjustVal (1 : ℝ) = nearOne := by unfold adjustVal; rw [if_neg one_ne_zero, if_pos rfl]
  have a2 : adjustVal ((10 : ℝ) ^ 11 / (10 ^ 11 + 1)) = 10 ^ 11 / (10 ^ 11 + 1) :=
    adjustVal_of (by norm_num) (by norm_num)
  have a3 : adjustVal (((1 : ℝ) + 10 ^ 11) / (10 ^ 11 + 2)) = (1 + 10 ^ 11) / (10 ^ 11 + 2) :=
    adjustVal_of (by norm_num) (by norm_num)
  simp only [e1, et, a1, a2, a3]
  have h1 : Real.log nearOne ≤ -(1 / 10 ^ 10) := by
    have := Real.log_le_sub_one_of_pos nearOne_pos
    unfold nearOne at this ⊢
    linarith
  have h2 : Real.log ((10 : ℝ) ^ 11 / (10 ^ 11 + 1)) ≤ 10 ^ 11 / (10 ^ 11 + 1) - 1 := Real.log_le_sub_one_of_pos (by norm_num)
  have p2 : (1 : ℝ) - 10 ^ 11 / (10 ^ 11 + 1) = 1 / (10 ^ 11 + 1) := by norm_num
  have p3 : (1 : ℝ) - (1 + 10 ^ 11) / (10 ^ 11 + 2) = 1 / (10 ^ 11 + 2) := by norm_num
  rw [p2, p3]
  have l2 : Real.log ((1 : ℝ) / (10 ^ 11 + 1)) = -Real.log (10 ^ 11 + 1) := by rw [one_div, Real.log_inv]
  have l3 : Real.log ((1 : ℝ) / (10 ^ 11 + 2)) = -Real.log (10 ^ 11 + 2) := by rw [one_div, Real.log_inv]
  have l4 : Real.log (((1 : ℝ) + 10 ^ 11) / (10 ^ 11 + 2)) = Real.log (10 ^ 11 + 1) - Real.log (10 ^ 11 + 2) := by
    rw [Real.log_div (by norm_num) (by norm_num), add_comm (1 : ℝ)]
  have h3 : Real.log (((10 : ℝ) ^ 11 + 2) / (10 ^ 11 + 1)) ≤ (10 ^ 11 + 2) / (10 ^ 11 + 1) - 1 := Real.log_le_sub_one_of_pos (by norm_num)
  rw [Real.log_div (by norm_num) (by norm_num)] at h3
  rw [l2, l3, l4]
  norm_num at h1 h2 h3 ⊢
  linarith

/-- **C32**, undefined cases: with a zero collocate margin the log-likelihood ratio, with any zero margin the
chi-square, raise `ZeroDivisionError`. -/
theorem C32_zero_margin {t : Table} :
    ((t.o11 + t.o21 = 0 ∨ t.o12 + t.o22 = 0) → calcLik t = .error .zeroDivision) ∧
    ((t.o11 + t.o21 = 0 ∨ t.o12 + t.o22 = 0 ∨ t.o11 + t.o12 = 0 ∨ t.o21 + t.o22 = 0) → calcChisq t = .error .zeroDivision) := by
  constructor
  · rintro (h | h)
    · unfold calcLik pyDiv
      rw [if_pos h]
      rfl
    · unfold calcLik
      by_cases h1 : t.o11 + t.o21 = 0
      · unfold pyDiv; rw [if_pos h1]; rfl
      · simp only [pyDiv_ok h1, bind, Except.bind]
        unfold pyDiv
        rw [if_pos h]
  · intro h
    unfold calcChisq pyDiv
    rw [if_pos]
    rcases h with h | h | h | h <;> simp [h]

/-- Non-vacuity for C32. -/
example : Margins ⟨2, 1, 1, 4⟩ := by
  refine ⟨⟨?_, ?_, ?_, ?_⟩, ?_, ?_, ?_, ?_⟩ <;> norm_num

/-! ## C33 -/

/-- **C33** for PMI, PPMI, chi-square, z-score and Dice: exchanging target and collocate changes neither the value nor
the exception, whatever the numbers. -/
theorem C33_symmetric (t : Table) : calcPmi (swap t) = calcPmi t ∧ calcPpmi (swap t) = calcPpmi t ∧
    calcChisq (swap t) = calcChisq t ∧ calcZscore (swap t) = calcZscore t ∧ calcDice (swap t) = calcDice t := by
  have h1 : calcPmi (swap t) = calcPmi t := by
    unfold calcPmi swap
    simp only
    rw [show t.o11 + t.o12 + t.o21 + t.o22 = t.o11 + t.o21 + t.o12 + t.o22 by ring,
      show (t.o11 + t.o21) * (t.o11 + t.o12) = (t.o11 + t.o12) * (t.o11 + t.o21) by ring]
  refine ⟨h1, ?_, ?_, ?_, ?_⟩
  · unfold calcPpmi; rw [h1]
  · unfold calcChisq swap
    simp only
    congr 1 <;> ring
  · unfold calcZscore swap
    simp only
    rw [show t.o11 + t.o12 + t.o21 + t.o22 = t.o11 + t.o21 + t.o12 + t.o22 by ring,
      show (t.o11 + t.o12) * (t.o11 + t.o21) = (t.o11 + t.o21) * (t.o11 + t.o12) by ring]
  · unfold calcDice swap
    simp only
    congr 1
    ring

/-- The log-likelihood ratio of a table without zero cells in symmetric form. -/
theorem calcLik_interior {t : Table} (h11 : 0 < t.o11) (h21 : 0 < t.o21) (h12 : 0 < t.o12) (h22 : 0 < t.o22) :
    calcLik t = .ok (2 * (t.o11 * Real.log t.o11 + t.o21 * Real.log t.o21 + t.o12 * Real.log t.o12 + t.o22 * Real.log t.o22
      - (t.o11 + t.o21) * Real.log (t.o11 + t.o21) - (t.o12 + t.o22) * Real.log (t.o12 + t.o22)
      - (t.o11 + t.o12) * Real.log (t.o11 + t.o12) - (t.o21 + t.o22) * Real.log (t.o21 + t.o22)
      + total t * Real.log (total t))) := by
  have c1 : 0 < t.o11 + t.o21 := by linarith
  have c2 : 0 < t.o12 + t.o22 := by linarith
  have r1 : 0 < t.o11 + t.o12 := by linarith
  have r2 : 0 < t.o21 + t.o22 := by linarith
  have hn : 0 < total t := by unfold total; linarith
  rw [calcLik_eq ⟨h11.le, h21.le, h12.le, h22.le⟩ c1 c2]
  have k : ∀ x y : ℝ, 0 < x → 0 < y → adjustVal (x / (x + y)) = x / (x + y) := by
    intro x y hx hy
    refine adjustVal_of (ne_of_gt (by positivity)) (fun h => ?_)
    rw [div_eq_one_iff_eq (by linarith)] at h
    linarith
  have en : total t = (t.o11 + t.o12) + (t.o21 + t.o22) := by unfold total; ring
  have k3 : adjustVal ((t.o11 + t.o12) / total t) = (t.o11 + t.o12) / total t := by rw [en]; exact k _ _ r1 r2
  have m : ∀ x y : ℝ, 0 < x → 0 < y → 1 - x / (x + y) = y / (x + y) := by
    intro x y hx hy
    field_simp
    ring
  have m3 : 1 - (t.o11 + t.o12) / total t = (t.o21 + t.o22) / total t := by rw [en]; exact m _ _ r1 r2
  rw [k _ _ h11 h21, k _ _ h12 h22, k3, m _ _ h11 h21, m _ _ h12 h22, m3,
    Real.log_div (ne_of_gt h11) (ne_of_gt c1), Real.log_div (ne_of_gt h21) (ne_of_gt c1),
    Real.log_div (ne_of_gt h12) (ne_of_gt c2), Real.log_div (ne_of_gt h22) (ne_of_gt c2),
    Real.log_div (ne_of_gt r1) (ne_of_gt hn), Real.log_div (ne_of_gt r2) (ne_of_gt hn)]
  congr 1
  rw [show total t * Real.log (total t) = (t.o11 + t.o21 + t.o12 + t.o22) * Real.log (total t) from rfl]
  ring

/-- **C33 (partial)** for the log-likelihood ratio: symmetric for tables without a zero cell. -/
theorem C33_llr_partial {t : Table} (h11 : 0 < t.o11) (h21 : 0 < t.o21) (h12 : 0 < t.o12) (h22 : 0 < t.o22) :
    calcLik (swap t) = calcLik t := by
  rw [calcLik_interior h11 h21 h12 h22, calcLik_interior (t := swap t) h11 h12 h21 h22]
  have : total (swap t) = total t := by unfold total swap; simp only; ring
  rw [this]
  congr 1
  unfold swap
  simp only
  ring

/-- **C33 is false** for the log-likelihood ratio: with `o21 + o22 = 0` one direction is defined, the other raises
`ZeroDivisionError`. -/
theorem C33_false_llr : ∃ t v, NonNeg t ∧ calcLik t = .ok v ∧ calcLik (swap t) = .error .zeroDivision := by
  have hN : NonNeg ⟨1, 0, 1, 0⟩ := ⟨by norm_num, by norm_num, by norm_num, by norm_num⟩
  exact ⟨⟨1, 0, 1, 0⟩, _, hN, calcLik_eq hN (by norm_num) (by norm_num), (C32_zero_margin).1 (Or.inr (by simp [swap]))⟩

/-- Also where both are defined: the table 1, 0, 1, 3 and its mirror image give different values. -/
theorem C33_false_llr_value : ∃ t v w, Margins t ∧ calcLik t = .ok v ∧ calcLik (swap t) = .ok w ∧ v ≠ w := by
  have hN : NonNeg ⟨1, 0, 1, 3⟩ := ⟨by norm_num, by norm_num, by norm_num, by norm_num⟩
  have hS : NonNeg (swap ⟨1, 0, 1, 3⟩) := ⟨by norm_num [swap], by norm_num [swap], by norm_num [swap], by norm_num [swap]⟩
  refine ⟨⟨1, 0, 1, 3⟩, _, _, ⟨hN, by norm_num, by norm_num, by norm_num, by norm_num⟩,
    calcLik_eq hN (by norm_num) (by norm_num), calcLik_eq hS (by norm_num [swap]) (by norm_num [swap]), ?_⟩
  have a0 : adjustVal (0 : ℝ) = tiny := by unfold adjustVal; rw [if_pos rfl]
  have a1 : adjustVal (1 : ℝ) = nearOne := by unfold adjustVal; rw [if_neg one_ne_zero, if_pos rfl]
  have b1 : adjustVal ((1 : ℝ) / (1 + 3)) = 1 / 4 := by rw [adjustVal_of] <;> norm_num
  have b2 : adjustVal ((1 : ℝ) / (1 + 1)) = 1 / 2 := by rw [adjustVal_of] <;> norm_num
  have b3 : adjustVal (((1 : ℝ) + 1) / 5) = 2 / 5 := by rw [adjustVal_of] <;> norm_num
  have b4 : adjustVal (((1 : ℝ) + 0) / 5) = 1 / 5 := by rw [adjustVal_of] <;> norm_num
  have t1 : total ⟨1, 0, 1, 3⟩ = 5 := by unfold total; norm_num
  have t2 : total (swap ⟨1, 0, 1, 3⟩) = 5 := by unfold total swap; norm_num
  have e1 : (1 : ℝ) / (1 + 0) = 1 := by norm_num
  have e0 : (0 : ℝ) / (0 + 3) = 0 := by norm_num
  have n1 : (1 : ℝ) - tiny = nearOne := rfl
  rw [t1, t2]
  simp only [swap, e1, e0, a0, a1, b1, b2, b3, b4, n1]
  have l4 : Real.log (1 / 4) = -(2 * Real.log 2) := by
    rw [show (1 / 4 : ℝ) = (2 ^ 2)⁻¹ by norm_num, Real.log_inv, Real.log_pow]; norm_num
  have l34 : Real.log (1 - 1 / 4) = Real.log 3 - 2 * Real.log 2 := by
    rw [show (1 - 1 / 4 : ℝ) = 3 / 2 ^ 2 by norm_num, Real.log_div (by norm_num) (by norm_num), Real.log_pow]; norm_num
  have l25 : Real.log (2 / 5) = Real.log 2 - Real.log 5 := Real.log_div (by norm_num) (by norm_num)
  have l35 : Real.log (1 - 2 / 5) = Real.log 3 - Real.log 5 := by
    rw [show (1 - 2 / 5 : ℝ) = 3 / 5 by norm_num, Real.log_div (by norm_num) (by norm_num)]
  have l2 : Real.log (1 / 2) = -Real.log 2 := by rw [one_div, Real.log_inv]
  have l22 : Real.log (1 - 1 / 2) = -Real.log 2 := by rw [show (1 - 1 / 2 : ℝ) = 2⁻¹ by norm_num, Real.log_inv]
  have l5 : Real.log (1 / 5) = -Real.log 5 := by rw [one_div, Real.log_inv]
  have l45 : Real.log (1 - 1 / 5) = 2 * Real.log 2 - Real.log 5 := by
    rw [show (1 - 1 / 5 : ℝ) = 2 ^ 2 / 5 by norm_num, Real.log_div (by norm_num) (by norm_num), Real.log_pow]; norm_num
  rw [l4, l34, l25, l35, l2, l22, l5, l45]
  have hneg : Real.log nearOne < 0 := Real.log_neg nearOne_pos nearOne_lt_one
  intro h
  linarith

end Verif.Assoc
