import Verif.Assoc.PropsWeights
import Verif.Assoc.PropsTextbook

set_option linter.unusedSectionVars false

/-!
# C34: each name of a measure gives the measure of that name
-/

namespace Verif.Assoc
open Verif.Py Verif.Matrix

variable {κ : Type} [LinearOrder κ]

/-- The formulas that the names of the measures stand for. -/
inductive Handbook (t : Table) : String → ℝ → Prop
  | pmi : Handbook t "pmi" (Real.log (t.o11 / expd t (rowA t) (colB t)))
  | ppmi : Handbook t "ppmi" (max 0 (Real.log (t.o11 / expd t (rowA t) (colB t))))
  | lik : Handbook t "lik" (gStat t)
  | llik : Handbook t "llik" (gStat t)
  | chisq : Handbook t "chisq" (pearson t)
  | zscore : Handbook t "zscore" ((t.o11 - expd t (rowA t) (colB t)) / Real.sqrt (expd t (rowA t) (colB t)))
  | dice : Handbook t "dice" (2 * t.o11 / (rowA t + colB t))
  | deltap : Handbook t "deltap" (t.o11 / rowA t - t.o21 / rowNA t)
  | deltapColl : Handbook t "deltapColl" (t.o11 / colB t - t.o12 / colNB t)
  | logratio : Handbook t "logratio" (Real.log (t.o11 / rowA t / (t.o21 / rowNA t)))

theorem bound_slip {t : Table} (h : Margins t) : slip ≤ (2 * total t + 1) * slip ∧ 0 ≤ (2 * total t + 1) * slip := by
  have h1 := h.total_pos
  have h2 := slip_pos
  constructor
  · nlinarith
  · positivity

/-- The function of a name computes the formula of that name, up to the replacement of 0 and 1 before logarithms. -/
theorem named {t : Table} (h : Margins t) (h11 : 0 < t.o11) (h21 : 0 < t.o21) {meas : String} {μ : Meas}
    (hp : parseMeas meas = some μ) {v : ℝ} (hv : μ.func t = .ok v) :
    ∃ w, Handbook t meas w ∧ |v - w| ≤ (2 * total t + 1) * slip := by
  obtain ⟨b1, b0⟩ := bound_slip h
  have exact : ∀ {w : ℝ}, v = w → |v - w| ≤ (2 * total t + 1) * slip := by
    rintro w rfl; rw [sub_self, abs_zero]; exact b0
  have lik : ∀ {v}, calcLik t = .ok v → |v - gStat t| ≤ (2 * total t + 1) * slip := by
    intro v hv
    obtain ⟨v', hv', hle, hge⟩ := C64_llr_near h
    rw [hv] at hv'
    cases hv'
    rw [abs_le]
    have := slip_pos
    constructor <;> linarith
  unfold parseMeas at hp
  split_ifs at hp with n1 n2 n3 n4 n5 n6 n7 n8 n9 n10 <;> cases hp
  · subst n1
    obtain ⟨v', hv', hle⟩ := C64_pmi_near h.toNonNeg h11
    have : calcPmi t = .ok v := hv
    rw [hv'] at this; cases this
    exact ⟨_, .pmi, hle.trans b1⟩
  · subst n2
    obtain ⟨v', hv', hle⟩ := C64_pmi_near h.toNonNeg h11
    have : calcPpmi t = .ok v := hv
    unfold calcPpmi at this
    rw [hv'] at this
    simp only [bind, Except.bind] at this
    refine ⟨_, .ppmi, le_trans ?_ (hle.trans b1)⟩
    cases this
    generalize Real.log (t.o11 / expd t (rowA t) (colB t)) = L
    have e : (if v' < 0 then (0 : ℝ) else v') = max 0 v' := by
      split_ifs with hlt
      · rw [max_eq_left (le_of_lt hlt)]
      · rw [max_eq_right (not_lt.1 hlt)]
    rw [e]
    have := abs_max_sub_max_le_max 0 v' 0 L
    simpa using this
  · subst n3
    exact ⟨_, .lik, lik hv⟩
  · subst n4
    exact ⟨_, .llik, lik hv⟩
  · subst n5
    have : calcChisq t = .ok v := hv
    rw [C64_chisq h] at this; cases this
    exact ⟨_, .chisq, exact rfl⟩
  · subst n6
    have : calcZscore t = .ok v := hv
    rw [C64_zscore h.toNonNeg h.r1 h.c1] at this; cases this
    exact ⟨_, .zscore, exact rfl⟩
  · subst n7
    have : calcDice t = .ok v := hv
    rw [C64_dice (add_pos h.r1 h.c1)] at this; cases this
    exact ⟨_, .dice, exact rfl⟩
  · subst n8
    have : calcDeltap t = .ok v := hv
    rw [(C64_deltap h).1] at this; cases this
    exact ⟨_, .deltap, exact rfl⟩
  · subst n9
    have : calcDeltapColl t = .ok v := hv
    rw [(C64_deltap h).2] at this; cases this
    exact ⟨_, .deltapColl, exact rfl⟩
  · subst n10
    obtain ⟨v', hv', hle, hge⟩ := C64_logratio_near h.toNonNeg h11 h21
    have : calcLogRatio t = .ok v := hv
    rw [hv'] at this; cases this
    refine ⟨_, .logratio, ?_⟩
    rw [abs_le]
    have := slip_pos
    constructor <;> linarith

/-- **C34**, by name: in the result of `compute_association` with the measure called `meas`, the value stored for row `r`
and column `c` is the formula of that name for the contingency table of the pair, up to `(2N+1)` times a constant below
`10⁻⁹` (frequencies 0 and 1 are replaced before logarithms are taken). -/
theorem C34_named {m u : Mtx κ ℝ} (hm : Valid m) {nfreq cfreq : Dict κ ℝ} {N : Option ℝ} {n : ℝ}
    (hn : IsTotal nfreq cfreq N n) {meas : String} (h : computeAssociation m nfreq cfreq N meas = .ok u)
    {r c : κ} {x fr fc : ℝ} (hx : storedEntry m r c = some x) (hr : nfreq.get? r = some fr) (hc : cfreq.get? c = some fc)
    (hpos : 0 < x) (h12 : x ≤ fr) (h21 : x < fc) (hr2 : fr < n) (hc2 : fc < n) (h22 : fr + fc ≤ n + x) :
    ∃ v w, storedEntry u r c = some v ∧ Handbook ⟨x, fc - x, fr - x, n - fr - fc + x⟩ meas w ∧
      |v - w| ≤ (2 * n + 1) * slip := by
  obtain ⟨_, _, _, _, μ, hμ, hcell⟩ := C34_cells hm hn h
  obtain ⟨fr', fc', v, h1, h2, hv, hs⟩ := (hcell r c).2 x hx
  rw [hr] at h1; rw [hc] at h2
  cases h1; cases h2
  have e : n - (fr - x) - (fc - x) - x = n - fr - fc + x := by ring
  rw [e] at hv
  have hM : Margins ⟨x, fc - x, fr - x, n - fr - fc + x⟩ := by
    refine ⟨⟨?_, ?_, ?_, ?_⟩, ?_, ?_, ?_, ?_⟩ <;> simp only <;> linarith
  obtain ⟨w, hw, hle⟩ := named hM hpos (by simp only; linarith) hμ hv
  refine ⟨v, w, hs, hw, ?_⟩
  have ht : total ⟨x, fc - x, fr - x, n - fr - fc + x⟩ = n := by unfold total; simp only; ring
  rwa [ht] at hle

/-- The cell of a 1 x 2 matrix, with the measure `deltap`. -/
example : ∃ v w, (∃ u, computeAssociation sampleFreq [(7, 6)] [(3, 5), (4, 8)] (some 20) "deltap" = .ok u ∧
    storedEntry u 7 4 = some v) ∧ Handbook ⟨2, 6, 4, 8⟩ "deltap" w ∧ |v - w| ≤ (2 * 20 + 1) * slip := by
  have hstored : storedEntry sampleFreq 7 4 = some 2 := by
    rw [storedEntry_of (s := ⟨.csr, 1, 2, [((0, 1), 2)]⟩) (i := 0) (j := 1) sampleFreq_valid.rows sampleFreq_valid.cols rfl rfl rfl]
    simp [Sp.stored, Dict.get?_cons]
  have htot : IsTotal [((7 : Nat), (6 : ℝ))] [(3, 5), (4, 8)] (some 20) 20 := Or.inl ⟨rfl, by norm_num⟩
  obtain ⟨u, hu⟩ := C34_defined sampleFreq_valid rfl (nfreq := [(7, 6)]) (cfreq := [(3, 5), (4, 8)]) htot (meas := "deltap") (μ := .deltap) (by simp [parseMeas])
    (by simp [sampleFreq, Dict.keys]) (by simp [sampleFreq, Dict.keys]) (by
      intro r c x fr fc h hr hc
      obtain ⟨rfl, rfl, rfl⟩ := sampleFreq_stored r c x h
      simp [Dict.get?_cons] at hr hc
      subst hr; subst hc
      refine ⟨_, (C64_deltap (t := ⟨2, 8 - 2, 6 - 2, 20 - (6 - 2) - (8 - 2) - 2⟩) ?_).1⟩
      refine ⟨⟨?_, ?_, ?_, ?_⟩, ?_, ?_, ?_, ?_⟩ <;> norm_num)
  obtain ⟨v, w, h1, h2, h3⟩ := C34_named sampleFreq_valid htot hu hstored (fr := 6) (fc := 8) (by simp [Dict.get?_cons]) (by simp [Dict.get?_cons])
    (by norm_num) (by norm_num) (by norm_num) (by norm_num) (by norm_num) (by norm_num)
  refine ⟨v, w, ⟨u, hu, h1⟩, ?_, h3⟩
  norm_num at h2
  exact h2

end Verif.Assoc
