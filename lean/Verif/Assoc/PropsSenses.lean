import Verif.Assoc.PropsFast

/-! # Property theorems C266 (the values of a word that is divided into two senses) -/

set_option linter.unusedSectionVars false

namespace Verif.Assoc
open Verif.Py Verif.Matrix

variable {κ : Type} [LinearOrder κ]

theorem log_between {x y R S C N : ℝ} (hx : 0 < x) (hy : 0 < y) (hR : 0 < R) (hS : 0 < S) (hC : 0 < C) (hN : 0 < N)
    (h : x * S ≤ y * R) : Real.log (x * N / (R * C)) ≤ Real.log ((x + y) * N / ((R + S) * C)) ∧
      Real.log ((x + y) * N / ((R + S) * C)) ≤ Real.log (y * N / (S * C)) := by
  have k := mul_nonneg (mul_nonneg hN.le hC.le) (sub_nonneg.2 h)
  constructor
  · apply Real.log_le_log (by positivity)
    rw [div_le_div_iff₀ (by positivity) (by positivity)]
    nlinarith
  · apply Real.log_le_log (by positivity)
    rw [div_le_div_iff₀ (by positivity) (by positivity)]
    nlinarith

/-- The matrix `m'` has a word `w` where `m` has its senses `a` and `b`: counts and frequencies of the senses add up, and the
collocates and the size of the corpus are the same. -/
structure Senses (m m' : Mtx κ ℝ) (nf nf' : Dict κ ℝ) (R R' : κ → ℝ) (a b w : κ) : Prop where
  first : a ∈ m.rows
  second : b ∈ m.rows
  word : w ∈ m'.rows
  cols : m'.cols = m.cols
  freq : R' w = R a + R b
  count : ∀ c ∈ m.cols, entry m' w c = entry m a c + entry m b c
  size : nf'.values.sum = nf.values.sum

/-- With `positive=False`: where both senses occur, the value of the word lies between those of its senses. -/
theorem C266_between {m m' : Mtx κ ℝ} (hm : Valid m) (hm' : Valid m') {s s' : Sp ℝ} (hs : m.body = .sp s) (hs' : m'.body = .sp s')
    {nf nf' cf : Dict κ ℝ} {R R' C : κ → ℝ} (hf : Fits m nf cf R C) (hf' : Fits m' nf' cf R' C) {a b w : κ}
    (h : Senses m m' nf nf' R R' a b w) :
    ∃ u u', computePpmi m (some nf) cf false = .ok u ∧ computePpmi m' (some nf') cf false = .ok u' ∧
      ∀ c ∈ m.cols, entry m a c ≠ 0 → entry m b c ≠ 0 →
        min (entry u a c) (entry u b c) ≤ entry u' w c ∧ entry u' w c ≤ max (entry u a c) (entry u b c) := by
  obtain ⟨u, hu, _, _, hv⟩ := ppmi_cells hm hs R C hf.row hf.col hf.total hf.cell false
  obtain ⟨u', hu', _, _, hv'⟩ := ppmi_cells hm' hs' R' C hf'.row hf'.col hf'.total hf'.cell false
  refine ⟨u, u', hu, hu', fun c hc ha hb => ?_⟩
  obtain ⟨a0, a1, a2⟩ := hf.cell a h.first c hc
  obtain ⟨b0, b1, b2⟩ := hf.cell b h.second c hc
  have pa : 0 < entry m a c := lt_of_le_of_ne a0 (Ne.symm ha)
  have pb : 0 < entry m b c := lt_of_le_of_ne b0 (Ne.symm hb)
  have hw : entry m a c + entry m b c ≠ 0 := (add_pos pa pb).ne'
  rw [hv a h.first c hc, hv b h.second c hc, hv' w h.word c (h.cols ▸ hc), h.count c hc, h.size, h.freq, if_neg ha, if_neg hb, if_neg hw]
  simp only [Bool.false_eq_true, if_false]
  rcases le_total (entry m a c * R b) (entry m b c * R a) with hl | hl
  · obtain ⟨l1, l2⟩ := log_between pa pb (pa.trans_le a1) (pb.trans_le b1) (pa.trans_le a2) hf.total hl
    exact ⟨(min_le_left _ _).trans l1, l2.trans (le_max_right _ _)⟩
  · obtain ⟨l1, l2⟩ := log_between pb pa (pb.trans_le b1) (pa.trans_le a1) (pa.trans_le a2) hf.total hl
    rw [add_comm (entry m b c), add_comm (R b)] at l1 l2
    exact ⟨(min_le_right _ _).trans l1, l2.trans (le_max_left _ _)⟩

/-- With `positive=True` the value of the word always lies between those of its senses. -/
theorem C266_positive {m m' : Mtx κ ℝ} (hm : Valid m) (hm' : Valid m') {s s' : Sp ℝ} (hs : m.body = .sp s) (hs' : m'.body = .sp s')
    {nf nf' cf : Dict κ ℝ} {R R' C : κ → ℝ} (hf : Fits m nf cf R C) (hf' : Fits m' nf' cf R' C) {a b w : κ}
    (h : Senses m m' nf nf' R R' a b w) :
    ∃ u u', computePpmi m (some nf) cf true = .ok u ∧ computePpmi m' (some nf') cf true = .ok u' ∧
      ∀ c ∈ m.cols, min (entry u a c) (entry u b c) ≤ entry u' w c ∧ entry u' w c ≤ max (entry u a c) (entry u b c) := by
  obtain ⟨u, hu, _, _, hv⟩ := ppmi_cells hm hs R C hf.row hf.col hf.total hf.cell true
  obtain ⟨u', hu', _, _, hv'⟩ := ppmi_cells hm' hs' R' C hf'.row hf'.col hf'.total hf'.cell true
  refine ⟨u, u', hu, hu', fun c hc => ?_⟩
  obtain ⟨a0, a1, a2⟩ := hf.cell a h.first c hc
  obtain ⟨b0, b1, b2⟩ := hf.cell b h.second c hc
  have hN := hf.total
  rw [hv a h.first c hc, hv b h.second c hc, hv' w h.word c (h.cols ▸ hc), h.count c hc, h.size, h.freq]
  simp only [if_true]
  -- one sense alone: the word has the same count and is at least as frequent
  have one : ∀ {x R S D : ℝ}, 0 < x → 0 < R → 0 ≤ S → 0 < D →
      max 0 (Real.log (x * nf.values.sum / ((R + S) * D))) ≤ max 0 (Real.log (x * nf.values.sum / (R * D))) := by
    intro x R S D hx hR hS hD
    apply max_le_max le_rfl
    apply Real.log_le_log (by positivity)
    apply div_le_div_of_nonneg_left (by positivity) (by positivity)
    nlinarith
  rcases lt_or_eq_of_le a0 with pa | za
  · rcases lt_or_eq_of_le b0 with pb | zb
    · rw [if_neg pa.ne', if_neg pb.ne', if_neg (add_pos pa pb).ne']
      rcases le_total (entry m a c * R b) (entry m b c * R a) with hl | hl
      · obtain ⟨l1, l2⟩ := log_between pa pb (pa.trans_le a1) (pb.trans_le b1) (pa.trans_le a2) hf.total hl
        exact ⟨(min_le_left _ _).trans (max_le_max le_rfl l1), (max_le_max le_rfl l2).trans (le_max_right _ _)⟩
      · obtain ⟨l1, l2⟩ := log_between pb pa (pb.trans_le b1) (pa.trans_le a1) (pa.trans_le a2) hf.total hl
        rw [add_comm (entry m b c), add_comm (R b)] at l1 l2
        exact ⟨(min_le_right _ _).trans (max_le_max le_rfl l1), (max_le_max le_rfl l2).trans (le_max_left _ _)⟩
    · rw [← zb, add_zero, if_neg pa.ne', if_pos rfl, if_neg pa.ne']
      exact ⟨(min_le_right _ _).trans (le_max_left _ _),
        (one pa (pa.trans_le a1) (b0.trans b1) (pa.trans_le a2)).trans (le_max_left _ _)⟩
  · rcases lt_or_eq_of_le b0 with pb | zb
    · rw [← za, zero_add, if_pos rfl, if_neg pb.ne', if_neg pb.ne', add_comm (R a)]
      exact ⟨(min_le_left _ _).trans (le_max_left _ _),
        (one pb (pb.trans_le b1) (a0.trans a1) (pb.trans_le b2)).trans (le_max_right _ _)⟩
    · rw [← za, ← zb]
      simp

/-! ## Examples -/

/-- The word 7 in place of the words 1 and 2 of `fastMtx`. -/
def wordMtx : Mtx Nat ℝ := ⟨.sp { fmt := .csr, nr := 1, nc := 2, data := [((0, 0), 3), ((0, 1), 6)] }, [7], [5, 6]⟩

theorem wordMtx_valid : Valid wordMtx := by
  refine ⟨rfl, rfl, by simp [wordMtx], by simp [wordMtx], ?_⟩
  intro s hs
  simp only [wordMtx, Body.sp.injEq] at hs
  subst hs
  exact ⟨by unfold Dict.WF; simp, by simp⟩

theorem wordMtx_entries : entry wordMtx 7 5 = 3 ∧ entry wordMtx 7 6 = 6 := ⟨rfl, rfl⟩

theorem wordMtx_fits : Fits wordMtx [(7, 12), (9, 28)] [(5, 5), (6, 10)] (fun _ => 12) (fun c => 5 * (c - 4)) := by
  obtain ⟨a, b⟩ := wordMtx_entries
  have hr : wordMtx.rows = [7] := rfl
  have hc : wordMtx.cols = [5, 6] := rfl
  constructor
  · simp [hr, Dict.get?_cons]
  · simp [hc, Dict.get?_cons]; norm_num
  · simp [Dict.values]; norm_num
  · simp [hr, hc, a, b]; norm_num

theorem wordMtx_senses : Senses fastMtx wordMtx [(1, 4), (2, 8), (9, 28)] [(7, 12), (9, 28)] (fun r => 4 * r) (fun _ => 12) 1 2 7 := by
  obtain ⟨a, b, c, d⟩ := fastMtx_entries
  obtain ⟨a', b'⟩ := wordMtx_entries
  have hc : fastMtx.cols = [5, 6] := rfl
  refine ⟨by simp [fastMtx], by simp [fastMtx], by simp [wordMtx], rfl, by norm_num, ?_, by simp [Dict.values]; norm_num⟩
  simp [hc, a, b, c, d, a', b']; norm_num

example : ∃ u u', computePpmi fastMtx (some [(1, 4), (2, 8), (9, 28)]) [(5, 5), (6, 10)] true = .ok u ∧
    computePpmi wordMtx (some [(7, 12), (9, 28)]) [(5, 5), (6, 10)] true = .ok u' ∧
    ∀ c ∈ fastMtx.cols, min (entry u 1 c) (entry u 2 c) ≤ entry u' 7 c ∧ entry u' 7 c ≤ max (entry u 1 c) (entry u 2 c) :=
  C266_positive fastMtx_valid wordMtx_valid rfl rfl fastMtx_fits wordMtx_fits wordMtx_senses

example : ∃ u u', computePpmi fastMtx (some [(1, 4), (2, 8), (9, 28)]) [(5, 5), (6, 10)] false = .ok u ∧
    computePpmi wordMtx (some [(7, 12), (9, 28)]) [(5, 5), (6, 10)] false = .ok u' ∧ entry u' 7 5 ≤ max (entry u 1 5) (entry u 2 5) := by
  obtain ⟨u, u', h1, h2, h3⟩ := C266_between fastMtx_valid wordMtx_valid rfl rfl fastMtx_fits wordMtx_fits wordMtx_senses
  obtain ⟨a, b, c, d⟩ := fastMtx_entries
  exact ⟨u, u', h1, h2, (h3 5 (by simp [fastMtx]) (by rw [a]; norm_num) (by rw [c]; norm_num)).2⟩

end Verif.Assoc
