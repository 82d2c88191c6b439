import Verif.Assoc.PropsMerged

/-! # Property theorems C263 (`compute_ppmi` has none of the exceptions of `compute_association`) -/

set_option linter.unusedSectionVars false

namespace Verif.Assoc
open Verif.Py Verif.Matrix

variable {κ : Type} [LinearOrder κ]

/-- Frequencies for all names, none below a count; the total is positive. -/
structure Fits (m : Mtx κ ℝ) (nfreq cfreq : Dict κ ℝ) (R C : κ → ℝ) : Prop where
  row : ∀ r ∈ m.rows, nfreq.get? r = some (R r)
  col : ∀ c ∈ m.cols, cfreq.get? c = some (C c)
  total : 0 < nfreq.values.sum
  cell : ∀ r ∈ m.rows, ∀ c ∈ m.cols, 0 ≤ entry m r c ∧ entry m r c ≤ R r ∧ entry m r c ≤ C c

/-- A word that is `k` times as frequent as another one, with every collocate and in all, has the same values. -/
theorem C263_distribution {m : Mtx κ ℝ} (hm : Valid m) {s : Sp ℝ} (hs : m.body = .sp s) {nfreq cfreq : Dict κ ℝ} {R C : κ → ℝ}
    (hf : Fits m nfreq cfreq R C) (positive : Bool) {a b : κ} (ha : a ∈ m.rows) (hb : b ∈ m.rows) {k : ℝ} (hk : 0 < k)
    (hR : R b = k * R a) (hx : ∀ c ∈ m.cols, entry m b c = k * entry m a c) :
    ∃ u, computePpmi m (some nfreq) cfreq positive = .ok u ∧ ∀ c ∈ m.cols, entry u b c = entry u a c := by
  obtain ⟨u, hu, _, _, hc⟩ := ppmi_cells hm hs R C hf.row hf.col hf.total hf.cell positive
  refine ⟨u, hu, fun c hcc => ?_⟩
  have hq : entry m b c * nfreq.values.sum / (R b * C c) = entry m a c * nfreq.values.sum / (R a * C c) := by
    rw [hx c hcc, hR, mul_assoc, mul_assoc, mul_div_mul_left _ _ hk.ne']
  have hz : entry m b c = 0 ↔ entry m a c = 0 := by rw [hx c hcc]; simp [hk.ne']
  rw [hc b hb c hcc, hc a ha c hcc, hq]
  by_cases h : entry m a c = 0
  · rw [if_pos h, if_pos (hz.2 h)]
  · rw [if_neg h, if_neg (fun e => h (hz.1 e))]

/-- In a corpus in which everything is `k` times as frequent, the values are the same. -/
theorem C263_size {m m' : Mtx κ ℝ} (hm : Valid m) (hm' : Valid m') {s s' : Sp ℝ} (hs : m.body = .sp s) (hs' : m'.body = .sp s')
    {nf cf nf' cf' : Dict κ ℝ} {R C : κ → ℝ} (hf : Fits m nf cf R C) (positive : Bool) {k : ℝ} (hk : 0 < k)
    (hr : m'.rows = m.rows) (hc : m'.cols = m.cols) (hx : ∀ r ∈ m.rows, ∀ c ∈ m.cols, entry m' r c = k * entry m r c)
    (hR : ∀ r ∈ m.rows, nf'.get? r = some (k * R r)) (hC : ∀ c ∈ m.cols, cf'.get? c = some (k * C c))
    (hN : nf'.values.sum = k * nf.values.sum) :
    ∃ u u', computePpmi m (some nf) cf positive = .ok u ∧ computePpmi m' (some nf') cf' positive = .ok u' ∧
      u'.rows = u.rows ∧ u'.cols = u.cols ∧ ∀ r ∈ m.rows, ∀ c ∈ m.cols, entry u' r c = entry u r c := by
  obtain ⟨u, hu, hur, huc, hv⟩ := ppmi_cells hm hs R C hf.row hf.col hf.total hf.cell positive
  obtain ⟨u', hu', hur', huc', hv'⟩ := ppmi_cells hm' hs' (fun r => k * R r) (fun c => k * C c) (by rw [hr]; exact hR) (by rw [hc]; exact hC)
    (by rw [hN]; exact mul_pos hk hf.total) (by
      intro r hrr c hcc
      rw [hr] at hrr
      rw [hc] at hcc
      obtain ⟨a0, a1, a2⟩ := hf.cell r hrr c hcc
      rw [hx r hrr c hcc]
      exact ⟨mul_nonneg hk.le a0, mul_le_mul_of_nonneg_left a1 hk.le, mul_le_mul_of_nonneg_left a2 hk.le⟩) positive
  refine ⟨u, u', hu, hu', by rw [hur, hur', hr], by rw [huc, huc', hc], fun r hrr c hcc => ?_⟩
  have hq : k * entry m r c * (k * nf.values.sum) / (k * R r * (k * C c)) = entry m r c * nf.values.sum / (R r * C c) := by
    rw [show k * entry m r c * (k * nf.values.sum) = (k * k) * (entry m r c * nf.values.sum) by ring,
      show k * R r * (k * C c) = (k * k) * (R r * C c) by ring, mul_div_mul_left _ _ (mul_pos hk hk).ne']
  rw [hv r hrr c hcc, hv' r (by rw [hr]; exact hrr) c (by rw [hc]; exact hcc), hx r hrr c hcc, hN, hq]
  by_cases h : entry m r c = 0
  · simp [h]
  · rw [if_neg h, if_neg (mul_ne_zero hk.ne' h)]

/-- A value is positive exactly if the pair is more frequent than expected, and negative (without cutting off) exactly if it
occurs, but more rarely. -/
theorem C263_sign {m : Mtx κ ℝ} (hm : Valid m) {s : Sp ℝ} (hs : m.body = .sp s) {nfreq cfreq : Dict κ ℝ} {R C : κ → ℝ}
    (hf : Fits m nfreq cfreq R C) (positive : Bool) :
    ∃ u, computePpmi m (some nfreq) cfreq positive = .ok u ∧ ∀ r ∈ m.rows, ∀ c ∈ m.cols,
      (0 < entry u r c ↔ R r * C c < entry m r c * nfreq.values.sum) ∧
      (entry u r c < 0 ↔ positive = false ∧ entry m r c ≠ 0 ∧ entry m r c * nfreq.values.sum < R r * C c) := by
  obtain ⟨u, hu, _, _, hv⟩ := ppmi_cells hm hs R C hf.row hf.col hf.total hf.cell positive
  refine ⟨u, hu, fun r hr c hc => ?_⟩
  obtain ⟨a0, a1, a2⟩ := hf.cell r hr c hc
  have hN := hf.total
  rw [hv r hr c hc]
  rcases lt_or_eq_of_le a0 with hp | hz
  · have hR : 0 < R r := lt_of_lt_of_le hp a1
    have hC : 0 < C c := lt_of_lt_of_le hp a2
    have hq : 0 < entry m r c * nfreq.values.sum / (R r * C c) := by positivity
    have h1 : 0 < Real.log (entry m r c * nfreq.values.sum / (R r * C c)) ↔ R r * C c < entry m r c * nfreq.values.sum := by
      rw [Real.log_pos_iff hq.le, lt_div_iff₀ (by positivity), one_mul]
    have h2 : Real.log (entry m r c * nfreq.values.sum / (R r * C c)) < 0 ↔ entry m r c * nfreq.values.sum < R r * C c := by
      rw [Real.log_neg_iff hq, div_lt_one (by positivity)]
    rw [if_neg hp.ne']
    cases positive with
    | false => simp [h1, h2, hp.ne']
    | true => simp [h1]
  · have : 0 ≤ R r * C c := by rw [← hz] at a1 a2; exact mul_nonneg a1 a2
    rw [← hz]
    simp [this]

/-- Word 2 is twice as frequent as word 1. -/
def fastMtx : Mtx Nat ℝ := ⟨.sp { fmt := .csr, nr := 2, nc := 2, data := [((0, 0), 1), ((0, 1), 2), ((1, 0), 2), ((1, 1), 4)] }, [1, 2], [5, 6]⟩

theorem fastMtx_entries : entry fastMtx 1 5 = 1 ∧ entry fastMtx 1 6 = 2 ∧ entry fastMtx 2 5 = 2 ∧ entry fastMtx 2 6 = 4 := by
  refine ⟨?_, ?_, ?_, ?_⟩ <;> rfl

theorem fastMtx_valid : Valid fastMtx := by
  refine ⟨rfl, rfl, by simp [fastMtx], by simp [fastMtx], ?_⟩
  intro s hs
  simp only [fastMtx, Body.sp.injEq] at hs
  subst hs
  exact ⟨by unfold Dict.WF; simp, by simp⟩

/-- The corpus has 40 words, and context 5 has an expected frequency of 1 with word 2, where `compute_association` differs. -/
theorem fastMtx_fits : Fits fastMtx [(1, 4), (2, 8), (9, 28)] [(5, 5), (6, 10)] (fun r => 4 * r) (fun c => 5 * (c - 4)) := by
  obtain ⟨a, b, c, d⟩ := fastMtx_entries
  have hr : fastMtx.rows = [1, 2] := rfl
  have hc : fastMtx.cols = [5, 6] := rfl
  constructor
  · simp [hr, Dict.get?_cons]; norm_num
  · simp [hc, Dict.get?_cons]; norm_num
  · simp [Dict.values]; norm_num
  · simp [hr, hc, a, b, c, d]; norm_num

example : ∃ u, computePpmi fastMtx (some [(1, 4), (2, 8), (9, 28)]) [(5, 5), (6, 10)] true = .ok u ∧ ∀ c ∈ fastMtx.cols, entry u 2 c = entry u 1 c := by
  obtain ⟨a, b, c, d⟩ := fastMtx_entries
  have hr : fastMtx.rows = [1, 2] := rfl
  have hc : fastMtx.cols = [5, 6] := rfl
  exact C263_distribution fastMtx_valid rfl fastMtx_fits true (by simp [hr]) (by simp [hr]) (k := 2) (by norm_num) (by norm_num)
    (by simp [hc, a, b, c, d]; norm_num)

/-- Everything three times. -/
def fastMtx3 : Mtx Nat ℝ := ⟨.sp { fmt := .csr, nr := 2, nc := 2, data := [((0, 0), 3), ((0, 1), 6), ((1, 0), 6), ((1, 1), 12)] }, [1, 2], [5, 6]⟩

theorem fastMtx3_valid : Valid fastMtx3 := by
  refine ⟨rfl, rfl, by simp [fastMtx3], by simp [fastMtx3], ?_⟩
  intro s hs
  simp only [fastMtx3, Body.sp.injEq] at hs
  subst hs
  exact ⟨by unfold Dict.WF; simp, by simp⟩

example : ∃ u u', computePpmi fastMtx (some [(1, 4), (2, 8), (9, 28)]) [(5, 5), (6, 10)] true = .ok u ∧
    computePpmi fastMtx3 (some [(1, 12), (2, 24), (9, 84)]) [(5, 15), (6, 30)] true = .ok u' ∧
    u'.rows = u.rows ∧ u'.cols = u.cols ∧ ∀ r ∈ fastMtx.rows, ∀ c ∈ fastMtx.cols, entry u' r c = entry u r c := by
  obtain ⟨a, b, c, d⟩ := fastMtx_entries
  have hr : fastMtx.rows = [1, 2] := rfl
  have hc : fastMtx.cols = [5, 6] := rfl
  have a' : entry fastMtx3 1 5 = 3 := rfl
  have b' : entry fastMtx3 1 6 = 6 := rfl
  have c' : entry fastMtx3 2 5 = 6 := rfl
  have d' : entry fastMtx3 2 6 = 12 := rfl
  exact C263_size fastMtx_valid fastMtx3_valid rfl rfl fastMtx_fits true (k := 3) (by norm_num) rfl rfl
    (by simp [hr, hc, a, b, c, d, a', b', c', d']; norm_num) (by simp [hr, Dict.get?_cons]; norm_num) (by simp [hc, Dict.get?_cons]; norm_num)
    (by simp [Dict.values]; norm_num)

/-- Word 1 and context 5: expected are 20 / 40, and there is 1. -/
example : ∃ u, computePpmi fastMtx (some [(1, 4), (2, 8), (9, 28)]) [(5, 5), (6, 10)] false = .ok u ∧ 0 < entry u 1 5 := by
  obtain ⟨u, h1, h2⟩ := C263_sign fastMtx_valid rfl fastMtx_fits false
  refine ⟨u, h1, (h2 1 (by simp [fastMtx]) 5 (by simp [fastMtx])).1.2 ?_⟩
  rw [fastMtx_entries.1]
  simp [Dict.values]; norm_num

end Verif.Assoc
