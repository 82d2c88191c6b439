import Verif.Assoc.PropsKindred
import Verif.Assoc.PropsVecLaws

/-! # Property theorem C253 (adding up or averaging the contexts of a token) -/

set_option linter.unusedSectionVars false

namespace Verif.Assoc
open Verif.Py Verif.Matrix

variable {κ : Type} [LinearOrder κ]

/-- The total weight of a token. -/
noncomputable def totalWeight (tc : Mtx κ ℝ) (t : κ) : ℝ := (tc.cols.map (fun c => entry tc t c)).sum

theorem mean_vectors {tc so : Mtx κ ℝ} (htc : Valid tc) (hso : Valid so) {t : Sp ℝ} (hl : tc.body = .sp t) (hr : IsCompressed so)
    (hset : ∀ c, c ∈ tc.cols ↔ c ∈ so.rows) {norm : Norm} (hno : norm ≠ .other) :
    ∃ u, computeTokenVectors tc so .weightedmean norm = .ok u ∧ Valid u ∧ u.rows = tc.rows ∧ u.cols = so.cols ∧
      ∀ tok ∈ tc.rows, ∀ f ∈ so.cols, entry u tok f =
        scaled norm (so.cols.map (fun f => nanToNumDiv (raw tc so tok f) (totalWeight tc tok))) (nanToNumDiv (raw tc so tok f) (totalWeight tc tok)) := by
  obtain ⟨right, h1, _, _, ⟨rs, hrs⟩, h3, h4, h5⟩ := align_ok htc hso hr hset
  have hp : product .weightedmean tc.body right = .ok ⟨tc.body.nr, right.nc,
      fun i k => nanToNumDiv (dotElem tc.body right i k) (rowTotal tc.body i)⟩ := by
    rw [hl, hrs]
    rfl
  obtain ⟨u, k1, k0, _, k2, k3, k4⟩ := vectors_ok htc hso hno h1 hp htc.nr h4
    (fun tok f => nanToNumDiv (raw tc so tok f) (totalWeight tc tok)) (by
      intro i k tok f hi hk
      simp only
      rw [dotElem_raw htc h5 hi hk]
      congr 1
      unfold rowTotal totalWeight
      congr 1
      apply map_eq_range _ _ htc.nc
      intro j c hj
      rw [entry_of htc.rows htc.cols hi hj])
  exact ⟨u, k1, k0, k2, k3, k4⟩

/-- With non-negative weights the weighted mean is a positive multiple of the sum (1 if there is no weight at all). -/
theorem mean_factor {tc so : Mtx κ ℝ} {t : κ} (hw : ∀ c, 0 ≤ entry tc t c) :
    ∃ k > 0, ∀ f, nanToNumDiv (raw tc so t f) (totalWeight tc t) = k * raw tc so t f := by
  have hnn : ∀ x ∈ tc.cols.map (fun c => entry tc t c), (0 : ℝ) ≤ x := by
    intro x hx
    obtain ⟨c, _, rfl⟩ := List.mem_map.1 hx
    exact hw c
  by_cases h0 : totalWeight tc t = 0
  · have hz : ∀ c ∈ tc.cols, entry tc t c = 0 := by
      intro c hc
      have := List.single_le_sum hnn _ (List.mem_map.2 ⟨c, hc, rfl⟩)
      unfold totalWeight at h0
      rw [h0] at this
      exact le_antisymm this (hw c)
    have hr : ∀ f, raw tc so t f = 0 := by
      intro f
      unfold raw
      refine List.sum_eq_zero fun x hx => ?_
      obtain ⟨c, hc, rfl⟩ := List.mem_map.1 hx
      rw [hz c hc, zero_mul]
    refine ⟨1, one_pos, fun f => ?_⟩
    rw [hr f, h0]
    simp [nanToNumDiv]
  · have hp : 0 < totalWeight tc t := lt_of_le_of_ne (List.sum_nonneg hnn) (Ne.symm h0)
    refine ⟨1 / totalWeight tc t, one_div_pos.2 hp, fun f => ?_⟩
    unfold nanToNumDiv
    rw [if_neg h0]
    ring

/-- Only zero vectors have norm 0. -/
theorem norm_vanish {norm : Norm} {v : List ℝ} (h : vecNorm norm v = 0) : ∀ x ∈ v, x = 0 := by
  intro x hx
  have h1 : (v.map (fun x => |x|)).sum = 0 → x = 0 := by
    intro h0
    have := List.single_le_sum (by intro y hy; obtain ⟨z, _, rfl⟩ := List.mem_map.1 hy; exact abs_nonneg z) _ (List.mem_map.2 ⟨x, hx, rfl⟩)
    rw [h0] at this
    exact abs_eq_zero.1 (le_antisymm this (abs_nonneg x))
  cases norm with
  | l2 =>
    have hnn : ∀ y ∈ v.map (fun x => x ^ 2), (0 : ℝ) ≤ y := by intro y hy; obtain ⟨z, _, rfl⟩ := List.mem_map.1 hy; exact sq_nonneg z
    have := List.single_le_sum hnn _ (List.mem_map.2 ⟨x, hx, rfl⟩)
    unfold vecNorm at h
    simp only at h
    rw [Real.sqrt_eq_zero (List.sum_nonneg hnn)] at h
    rw [h] at this
    exact pow_eq_zero_iff (two_ne_zero) |>.1 (le_antisymm this (sq_nonneg x))
  | l1 => exact h1 h
  | no => exact h1 h
  | other => exact h1 h

/-- **C253**: with non-negative weights and l1 or l2 normalisation, adding up and averaging give the same token vectors. -/
theorem C253_same {tc so : Mtx κ ℝ} (htc : Valid tc) (hso : Valid so) (hl : IsCsr tc) (hr : IsCsr so)
    (hset : ∀ c, c ∈ tc.cols ↔ c ∈ so.rows) (hw : ∀ t c, 0 ≤ entry tc t c) {norm : Norm} (hno : norm = .l1 ∨ norm = .l2) :
    ∃ u v, computeTokenVectors tc so .addition norm = .ok u ∧ computeTokenVectors tc so .weightedmean norm = .ok v ∧ SameNamed u v := by
  have hne : norm ≠ .other := by rcases hno with rfl | rfl <;> simp
  have hnn : norm ≠ .no := by rcases hno with rfl | rfl <;> simp
  obtain ⟨u, h1, _, _, h2, h3, h4⟩ := C36_addition htc hso hl hr hset hne
  obtain ⟨s, hs, _⟩ := hl
  have hc : IsCompressed so := by obtain ⟨s, hs, hf⟩ := hr; exact ⟨s, hs, by rw [hf]; simp⟩
  obtain ⟨v, k1, _, k2, k3, k4⟩ := mean_vectors htc hso hs hc hset hne
  refine ⟨u, v, h1, k1, ⟨by rw [h2, k2], by rw [h3, k3], fun t f => ?_⟩⟩
  by_cases ht : t ∈ tc.rows
  · by_cases hf : f ∈ so.cols
    · rw [h4 t ht f hf, k4 t ht f hf]
      obtain ⟨k, hk, he⟩ := mean_factor (so := so) (hw t)
      have e : so.cols.map (fun f => nanToNumDiv (raw tc so t f) (totalWeight tc t)) = (so.cols.map (raw tc so t)).map (fun x => k * x) := by
        rw [List.map_map]
        exact List.map_congr_left fun g _ => he g
      rw [e, he f]
      unfold scaled
      rw [vecNorm_scale _ hk.le]
      by_cases h0 : vecNorm norm (so.cols.map (raw tc so t)) = 0
      · have hz := norm_vanish h0 _ (List.mem_map.2 ⟨f, hf, rfl⟩)
        rw [if_pos (.inr h0), if_pos (.inr (by rw [h0, mul_zero])), hz, mul_zero]
      · rw [if_neg (by tauto), if_neg (by simp [hnn, h0, hk.ne'])]
        field_simp
    · rw [entry_col_absent _ (by rw [h3]; exact hf), entry_col_absent _ (by rw [k3]; exact hf)]
  · rw [entry_row_absent (by rw [h2]; exact ht), entry_row_absent (by rw [k2]; exact ht)]

/-- **C253**, similarities: with non-negative weights, adding up and averaging give the same cosine similarities, with whatever
normalisation. -/
theorem C253_similar {tc so : Mtx κ ℝ} (htc : Valid tc) (hso : Valid so) (hl : IsCsr tc) (hr : IsCsr so)
    (hset : ∀ c, c ∈ tc.cols ↔ c ∈ so.rows) (hw : ∀ t c, 0 ≤ entry tc t c) {norm norm' : Norm} (hno : norm ≠ .other) (hno' : norm' ≠ .other)
    (h0 : tc.rows ≠ []) (h0' : so.cols ≠ []) :
    ∃ u v su sv, computeTokenVectors tc so .addition norm = .ok u ∧ computeTokenVectors tc so .weightedmean norm' = .ok v ∧
      computeCosine u = .ok su ∧ computeCosine v = .ok sv ∧ SameNamed su sv := by
  obtain ⟨u, h1, hu, _, h2, h3, h4⟩ := C36_addition htc hso hl hr hset hno
  obtain ⟨s, hs, _⟩ := hl
  have hc : IsCompressed so := by obtain ⟨s, hs, hf⟩ := hr; exact ⟨s, hs, by rw [hf]; simp⟩
  obtain ⟨v, k1, hv, k2, k3, k4⟩ := mean_vectors htc hso hs hc hset hno'
  have fac : ∀ t, ∃ k > 0, ∀ f, entry v t f = k * entry u t f := by
    intro t
    by_cases ht : t ∈ tc.rows
    · obtain ⟨a, ha, hea⟩ := mean_factor (so := so) (hw t)
      obtain ⟨b, hb, heb⟩ := scaled_times norm (so.cols.map (raw tc so t))
      obtain ⟨d, hd, hed⟩ := scaled_times norm' (so.cols.map (fun f => nanToNumDiv (raw tc so t f) (totalWeight tc t)))
      refine ⟨d * a / b, div_pos (mul_pos hd ha) hb, fun f => ?_⟩
      by_cases hf : f ∈ so.cols
      · rw [h4 t ht f hf, k4 t ht f hf, hed, hea, heb]
        field_simp
      · rw [entry_col_absent _ (by rw [k3]; exact hf), entry_col_absent _ (by rw [h3]; exact hf), mul_zero]
    · refine ⟨1, one_pos, fun f => ?_⟩
      rw [entry_row_absent (by rw [k2]; exact ht), entry_row_absent (by rw [h2]; exact ht), mul_zero]
  choose k hk he using fac
  obtain ⟨su, sv, e1, e2, e3⟩ := C63_scale_invariant hu hv (by rw [h2]; exact h0) (by rw [h3]; exact h0') (by rw [h2, k2]) (by rw [h3, k3]) k hk he
  exact ⟨u, v, su, sv, h1, k1, e1, e2, e3⟩

/-- Token 11 has weight -1 for context 1, token 12 weight 1. -/
noncomputable def avTc : Mtx Nat ℝ := ⟨.sp ⟨.csr, 2, 1, [((0, 0), -1), ((1, 0), 1)]⟩, [11, 12], [1]⟩
/-- Context 1 has the feature 5. -/
noncomputable def avSo : Mtx Nat ℝ := ⟨.sp ⟨.csr, 1, 1, [((0, 0), 1)]⟩, [1], [5]⟩

theorem avTc_valid : Valid avTc := by
  refine ⟨rfl, rfl, by simp [avTc], by simp [avTc], ?_⟩
  intro s hs; cases hs; exact ⟨by unfold Dict.WF; decide, by decide⟩

theorem avSo_valid : Valid avSo := by
  refine ⟨rfl, rfl, by simp [avSo], by simp [avSo], ?_⟩
  intro s hs; cases hs; exact ⟨by unfold Dict.WF; decide, by decide⟩

theorem avTc_entries : entry avTc 11 1 = -1 ∧ entry avTc 12 1 = 1 := by
  have h : ∀ (i j t c : Nat), avTc.rows[i]? = some t → avTc.cols[j]? = some c → entry avTc t c = avTc.body.val i j :=
    fun i j t c hi hj => entry_of avTc_valid.rows avTc_valid.cols hi hj
  rw [h 0 0 11 1 rfl rfl, h 1 0 12 1 rfl rfl]
  simp [avTc, Body.val, Sp.val, Sp.stored, Dict.get?_cons]

theorem avSo_entries : entry avSo 1 5 = 1 := by
  rw [show entry avSo 1 5 = avSo.body.val 0 0 from entry_of (i := 0) (j := 0) avSo_valid.rows avSo_valid.cols rfl rfl]
  simp [avSo, Body.val, Sp.val, Sp.stored, Dict.get?_cons]

/-- **C253**, negative weights: without the hypothesis on the weights, the two operations can give opposite similarities. -/
theorem C253_negative : ∃ (tc so u v su sv : Mtx Nat ℝ), Valid tc ∧ Valid so ∧
    computeTokenVectors tc so .addition .l2 = .ok u ∧ computeTokenVectors tc so .weightedmean .l2 = .ok v ∧
    computeCosine u = .ok su ∧ computeCosine v = .ok sv ∧ entry su 11 12 = -1 ∧ entry sv 11 12 = 1 := by
  obtain ⟨p1, p2⟩ := avTc_entries
  have p3 := avSo_entries
  have r1 : raw avTc avSo 11 5 = -1 := by simp [raw, avTc] at *; rw [p1, p3]; norm_num
  have r2 : raw avTc avSo 12 5 = 1 := by simp [raw, avTc] at *; rw [p2, p3]; norm_num
  have w1 : totalWeight avTc 11 = -1 := by simp [totalWeight, avTc] at *; exact p1
  have w2 : totalWeight avTc 12 = 1 := by simp [totalWeight, avTc] at *; exact p2
  obtain ⟨u, h1, hu, _, h2, h3, h4⟩ := C36_addition avTc_valid avSo_valid ⟨_, rfl, rfl⟩ ⟨_, rfl, rfl⟩ (by simp [avTc, avSo]) (norm := .l2) (by simp)
  obtain ⟨v, k1, hv, k2, k3, k4⟩ := mean_vectors avTc_valid avSo_valid rfl ⟨_, rfl, by simp⟩ (by simp [avTc, avSo]) (norm := .l2) (by simp)
  obtain ⟨su, e1, _, _, _, _, _, e5⟩ := C63_cosine hu (by rw [h2]; simp [avTc]) (by rw [h3]; simp [avSo])
  obtain ⟨sv, f1, _, _, _, _, _, f5⟩ := C63_cosine hv (by rw [k2]; simp [avTc]) (by rw [k3]; simp [avSo])
  have u1 : entry u 11 5 = -1 := by
    rw [h4 11 (by simp [avTc]) 5 (by simp [avSo]), r1]; simp [scaled, vecNorm, avSo] at *; simp [r1]
  have u2 : entry u 12 5 = 1 := by
    rw [h4 12 (by simp [avTc]) 5 (by simp [avSo]), r2]; simp [scaled, vecNorm, avSo] at *; simp [r2]
  have v1 : entry v 11 5 = 1 := by
    rw [k4 11 (by simp [avTc]) 5 (by simp [avSo]), r1, w1]; simp [scaled, vecNorm, avSo, nanToNumDiv] at *; simp [r1]
  have v2 : entry v 12 5 = 1 := by
    rw [k4 12 (by simp [avTc]) 5 (by simp [avSo]), r2, w2]; simp [scaled, vecNorm, avSo, nanToNumDiv] at *; simp [r2]
  have nu : ∀ x y, namedDot u x y = entry u x 5 * entry u y 5 := by intro x y; simp [namedDot, h3, avSo]
  have nv : ∀ x y, namedDot v x y = entry v x 5 * entry v y 5 := by intro x y; simp [namedDot, k3, avSo]
  refine ⟨avTc, avSo, u, v, su, sv, avTc_valid, avSo_valid, h1, k1, e1, f1, ?_, ?_⟩
  · rw [(e5 11 (by rw [h2]; simp [avTc]) 12 (by rw [h2]; simp [avTc]) (by simp)).2 (by rw [nu, u1]; norm_num) (by rw [nu, u2]; norm_num), nu, nu, nu, u1, u2]
    norm_num
  · rw [(f5 11 (by rw [k2]; simp [avTc]) 12 (by rw [k2]; simp [avTc]) (by simp)).2 (by rw [nv, v1]; norm_num) (by rw [nv, v2]; norm_num), nv, nv, nv, v1, v2]
    norm_num

/-- Two tokens with non-negative weights, compared under both operations and different normalisations. -/
example : ∃ u v su sv, computeTokenVectors kinTc kinSo .addition .no = .ok u ∧ computeTokenVectors kinTc kinSo .weightedmean .l1 = .ok v ∧
    computeCosine u = .ok su ∧ computeCosine v = .ok sv ∧ SameNamed su sv :=
  C253_similar kinTc_valid kinSo_valid ⟨_, rfl, rfl⟩ ⟨_, rfl, rfl⟩ (by simp [kinTc, kinSo]) (entry_nonneg_of rfl (by simp)) (by simp) (by simp)
    (by simp [kinTc]) (by simp [kinSo])

example : ∃ u v, computeTokenVectors kinTc kinSo .addition .l2 = .ok u ∧ computeTokenVectors kinTc kinSo .weightedmean .l2 = .ok v ∧ SameNamed u v :=
  C253_same kinTc_valid kinSo_valid ⟨_, rfl, rfl⟩ ⟨_, rfl, rfl⟩ (by simp [kinTc, kinSo]) (entry_nonneg_of rfl (by simp)) (.inr rfl)

end Verif.Assoc
