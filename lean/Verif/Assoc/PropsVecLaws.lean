import Verif.Assoc.PropsDistance
import Verif.Assoc.PropsLaws
import Mathlib.Algebra.BigOperators.Group.List.Basic

/-! # Property theorems C155-C157 (what token vectors, similarities and distances depend on) -/

set_option linter.unusedSectionVars false

namespace Verif.Assoc
open Verif.Py Verif.Matrix

variable {κ : Type} [LinearOrder κ]

/-! ### Lemmas -/

/-- A sum over names does not depend on the names where the summand is 0. -/
theorem sum_support {α : Type} [DecidableEq α] {l l' : List α} (hl : l.Nodup) (hl' : l'.Nodup) (g : α → ℝ) (h : ∀ c, c ∉ l → g c = 0)
    (h' : ∀ c, c ∉ l' → g c = 0) : (l.map g).sum = (l'.map g).sum := by
  rw [← List.sum_toFinset g hl, ← List.sum_toFinset g hl']
  exact (Finset.sum_subset (Finset.subset_union_left (s₂ := l'.toFinset)) (fun c _ hc => h c (by simpa using hc))).trans
    (Finset.sum_subset (Finset.subset_union_right (s₁ := l.toFinset)) (fun c _ hc => h' c (by simpa using hc))).symm

theorem vecNorm_perm (norm : Norm) {v w : List ℝ} (h : v.Perm w) : vecNorm norm v = vecNorm norm w := by
  unfold vecNorm
  cases norm <;> simp only [(h.map _).sum_eq]

theorem vecNorm_scale {norm : Norm} (v : List ℝ) {k : ℝ} (hk : 0 ≤ k) : vecNorm norm (v.map (fun x => k * x)) = k * vecNorm norm v := by
  have e1 : ((v.map (fun x => k * x)).map (fun x => |x|)).sum = k * (v.map (fun x => |x|)).sum := by
    rw [List.map_map, ← List.sum_map_mul_left]
    congr 1
    apply List.map_congr_left
    intro x _
    simp [abs_mul, abs_of_nonneg hk]
  have e2 : ((v.map (fun x => k * x)).map (fun x => x ^ 2)).sum = k ^ 2 * (v.map (fun x => x ^ 2)).sum := by
    rw [List.map_map, ← List.sum_map_mul_left]
    congr 1
    apply List.map_congr_left
    intro x _
    simp [mul_pow]
  unfold vecNorm
  cases norm with
  | l2 =>
    simp only
    rw [e2, Real.sqrt_mul (sq_nonneg k), Real.sqrt_sq hk]
  | l1 => exact e1
  | no => exact e1
  | other => exact e1

/-! ## C155 -/

/-- **C155**: the vector of a token is decided by the weights of that token and by the second-order values of the contexts
that have a weight there: other tokens, contexts of weight 0 and all orders do not matter. -/
theorem C155_local {tc tc' so so' : Mtx κ ℝ} (htc : Valid tc) (htc' : Valid tc') (hso : Valid so) (hso' : Valid so')
    (hl : IsCsr tc) (hl' : IsCsr tc') (hr : IsCsr so) (hr' : IsCsr so')
    (hset : ∀ c, c ∈ tc.cols ↔ c ∈ so.rows) (hset' : ∀ c, c ∈ tc'.cols ↔ c ∈ so'.rows)
    (hcols : so'.cols.Perm so.cols) {tok : κ} (h : tok ∈ tc.rows) (h' : tok ∈ tc'.rows)
    (hw : ∀ c, entry tc' tok c = entry tc tok c) (hv : ∀ c f, entry tc tok c ≠ 0 → entry so' c f = entry so c f)
    {norm : Norm} (hno : norm ≠ .other) :
    ∃ u v, computeTokenVectors tc so .addition norm = .ok u ∧ computeTokenVectors tc' so' .addition norm = .ok v ∧
      ∀ f, entry v tok f = entry u tok f := by
  obtain ⟨u, h1, _, _, h2, h3, h4⟩ := C36_addition htc hso hl hr hset hno
  obtain ⟨v, k1, _, _, k2, k3, k4⟩ := C36_addition htc' hso' hl' hr' hset' hno
  have hraw : ∀ f, raw tc' so' tok f = raw tc so tok f := by
    intro f
    unfold raw
    have e : (fun c => entry tc' tok c * entry so' c f) = fun c => entry tc tok c * entry so c f := by
      funext c
      rw [hw]
      by_cases h0 : entry tc tok c = 0
      · rw [h0, zero_mul, zero_mul]
      · rw [hv c f h0]
    rw [e]
    refine sum_support htc'.cols htc.cols _ (fun c hc => ?_) (fun c hc => ?_)
    · rw [← hw, entry_col_absent _ hc, zero_mul]
    · rw [entry_col_absent _ hc, zero_mul]
  refine ⟨u, v, h1, k1, fun f => ?_⟩
  by_cases hf : f ∈ so.cols
  · rw [h4 tok h f hf, k4 tok h' f (hcols.mem_iff.2 hf), hraw, show raw tc' so' tok = raw tc so tok from funext hraw]
    unfold scaled
    rw [vecNorm_perm norm (hcols.map (raw tc so tok))]
  · rw [entry_col_absent (m := u) _ (by rw [h3]; exact hf),
      entry_col_absent (m := v) _ (by rw [k3]; exact fun hc => hf (hcols.mem_iff.1 hc))]

/-! ## C156 -/

/-- **C156**, sums: without normalisation, where the weights of one token are the sums of the weights of two others, its vector
is the sum of their vectors. -/
theorem C156_sum {tc so : Mtx κ ℝ} (htc : Valid tc) (hso : Valid so) (hl : IsCsr tc) (hr : IsCsr so)
    (hset : ∀ c, c ∈ tc.cols ↔ c ∈ so.rows) :
    ∃ u, computeTokenVectors tc so .addition .no = .ok u ∧ ∀ (t t1 t2 : κ) (a b : ℝ),
      (∀ c, entry tc t c = a * entry tc t1 c + b * entry tc t2 c) →
      ∀ f, entry u t f = a * entry u t1 f + b * entry u t2 f := by
  obtain ⟨u, h1, h2⟩ := C36_addition_raw htc hso hl hr hset
  refine ⟨u, h1, fun t t1 t2 a b h f => ?_⟩
  rw [h2, h2, h2, ← List.sum_map_mul_left, ← List.sum_map_mul_left, ← List.sum_map_add]
  congr 1
  apply List.map_congr_left
  intro c _
  rw [h c]
  ring

/-- **C156**, units: normalised vectors of tokens whose weights differ by a positive factor are the same. -/
theorem C156_scale {tc so : Mtx κ ℝ} (htc : Valid tc) (hso : Valid so) (hl : IsCsr tc) (hr : IsCsr so)
    (hset : ∀ c, c ∈ tc.cols ↔ c ∈ so.rows) {norm : Norm} (hno : norm = .l1 ∨ norm = .l2) :
    ∃ u, computeTokenVectors tc so .addition norm = .ok u ∧ ∀ t ∈ tc.rows, ∀ t' ∈ tc.rows, ∀ k : ℝ, 0 < k →
      (∀ c, entry tc t' c = k * entry tc t c) → ∀ f, entry u t' f = entry u t f := by
  obtain ⟨u, h1, _, _, h2, h3, h4⟩ := C36_addition htc hso hl hr hset (norm := norm) (by rcases hno with rfl | rfl <;> simp)
  refine ⟨u, h1, fun t ht t' ht' k hk he f => ?_⟩
  have hraw : ∀ f, raw tc so t' f = k * raw tc so t f := by
    intro f
    unfold raw
    rw [← List.sum_map_mul_left]
    congr 1
    apply List.map_congr_left
    intro c _
    rw [he c]
    ring
  have hn : vecNorm norm (so.cols.map (raw tc so t')) = k * vecNorm norm (so.cols.map (raw tc so t)) := by
    rw [← vecNorm_scale _ hk.le, List.map_map]
    congr 1
    exact List.map_congr_left (fun f _ => hraw f)
  by_cases hf : f ∈ so.cols
  · rw [h4 t ht f hf, h4 t' ht' f hf]
    unfold scaled
    rw [hn, hraw]
    have hnn : norm ≠ .no := by rcases hno with rfl | rfl <;> simp
    by_cases h0 : vecNorm norm (so.cols.map (raw tc so t)) = 0
    · have hz : ∀ x ∈ so.cols.map (raw tc so t), x = 0 := by
        rcases hno with rfl | rfl
        · intro x hx
          have hnn' : ∀ y ∈ (so.cols.map (raw tc so t)).map (fun x => |x|), (0 : ℝ) ≤ y := by
            intro y hy
            obtain ⟨z, _, rfl⟩ := List.mem_map.1 hy
            exact abs_nonneg z
          have := List.single_le_sum hnn' _ (List.mem_map.2 ⟨x, hx, rfl⟩)
          unfold vecNorm at h0
          simp only at h0
          rw [h0] at this
          exact abs_eq_zero.1 (le_antisymm this (abs_nonneg x))
        · intro x hx
          have hnn' : ∀ y ∈ (so.cols.map (raw tc so t)).map (fun x => x ^ 2), (0 : ℝ) ≤ y := by
            intro y hy
            obtain ⟨z, _, rfl⟩ := List.mem_map.1 hy
            exact sq_nonneg z
          have := List.single_le_sum hnn' _ (List.mem_map.2 ⟨x, hx, rfl⟩)
          unfold vecNorm at h0
          simp only at h0
          rw [Real.sqrt_eq_zero (List.sum_nonneg hnn')] at h0
          rw [h0] at this
          exact pow_eq_zero_iff (two_ne_zero) |>.1 (le_antisymm this (sq_nonneg x))
      rw [hz _ (List.mem_map.2 ⟨f, hf, rfl⟩)]
      simp
    · rw [if_neg (by simp [hnn, h0, hk.ne']), if_neg (by simp [hnn, h0]), mul_div_mul_left _ _ hk.ne']
  · rw [entry_col_absent _ (by rw [h3]; exact hf), entry_col_absent _ (by rw [h3]; exact hf)]

/-! ## C157 -/

/-- **C157**: similarity and distance of two items are decided by the values of these two: other items, and columns where both
are 0, do not matter. -/
theorem C157_local {m m' : Mtx κ ℝ} (hm : Valid m) (hm' : Valid m') (hc : m.cols ≠ []) (hc' : m'.cols ≠ []) {a b : κ}
    (ha : a ∈ m.rows) (hb : b ∈ m.rows) (ha' : a ∈ m'.rows) (hb' : b ∈ m'.rows) (ea : ∀ c, entry m' a c = entry m a c)
    (eb : ∀ c, entry m' b c = entry m b c) :
    (∃ u v, computeCosine m = .ok u ∧ computeCosine m' = .ok v ∧ entry v a b = entry u a b) ∧
    ∀ metric, metric ∈ ["cosine", "euclidean", "cityblock", "manhattan", "l1", "l2"] →
      ∃ u v, computeDistance m 0 metric = .ok u ∧ computeDistance m' 0 metric = .ok v ∧ entry v a b = entry u a b := by
  have hr : m.rows ≠ [] := List.ne_nil_of_mem ha
  have hr' : m'.rows ≠ [] := List.ne_nil_of_mem ha'
  have hsum : ∀ (g : ℝ → ℝ → ℝ), g 0 0 = 0 → ∀ x y, (∀ c, entry m' x c = entry m x c) → (∀ c, entry m' y c = entry m y c) →
      (m'.cols.map (fun c => g (entry m' x c) (entry m' y c))).sum = (m.cols.map (fun c => g (entry m x c) (entry m y c))).sum := by
    intro g hg x y hx hy
    rw [show (fun c => g (entry m' x c) (entry m' y c)) = fun c => g (entry m x c) (entry m y c) from
      funext fun c => by rw [hx, hy]]
    refine sum_support hm'.cols hm.cols _ (fun c h => ?_) (fun c h => ?_)
    · rw [← hx, ← hy, entry_col_absent _ h, entry_col_absent _ h, hg]
    · rw [entry_col_absent _ h, entry_col_absent _ h, hg]
  have dot : ∀ x y, (∀ c, entry m' x c = entry m x c) → (∀ c, entry m' y c = entry m y c) → namedDot m' x y = namedDot m x y :=
    fun x y hx hy => hsum (fun p q => p * q) (mul_zero 0) x y hx hy
  obtain ⟨u, h1, _, _, _, h4, _, h5⟩ := C63_cosine hm hr hc
  obtain ⟨v, k1, _, _, _, k4, _, k5⟩ := C63_cosine hm' hr' hc'
  have hcos : entry v a b = entry u a b := by
    by_cases hab : a = b
    · subst hab; rw [h4 a ha, k4 a ha']
    · have p := h5 a ha b hb hab
      have q := k5 a ha' b hb' hab
      rw [dot a a ea ea, dot b b eb eb, dot a b ea eb] at q
      by_cases h0 : namedDot m a a = 0 ∨ namedDot m b b = 0
      · rw [p.1 h0, q.1 h0]
      · push Not at h0
        rw [p.2 h0.1 h0.2, q.2 h0.1 h0.2]
  refine ⟨⟨u, v, h1, k1, hcos⟩, ?_⟩
  intro metric hmet
  simp only [List.mem_cons, List.not_mem_nil, or_false] at hmet
  by_cases hx : metric = "cosine"
  · subst hx
    obtain ⟨x, x1, _⟩ := C122_cosine hm hr hc
    obtain ⟨y, y1, _⟩ := C122_cosine hm' hr' hc'
    refine ⟨x, y, x1, y1, ?_⟩
    rw [C122_similarity hm hr hc x1 h1 a ha b hb, C122_similarity hm' hr' hc' y1 k1 a ha' b hb', hcos]
  · by_cases he : metric = "euclidean" ∨ metric = "l2"
    · obtain ⟨x, x1, _, _, _, x5⟩ := C122_euclidean hm hr hc he
      obtain ⟨y, y1, _, _, _, y5⟩ := C122_euclidean hm' hr' hc' he
      refine ⟨x, y, x1, y1, ?_⟩
      rw [x5 a ha b hb, y5 a ha' b hb']
      unfold namedL2
      rw [hsum (fun p q => (p - q) ^ 2) (by norm_num) a b ea eb]
    · have hl : metric = "cityblock" ∨ metric = "manhattan" ∨ metric = "l1" := by tauto
      obtain ⟨x, x1, _, _, _, x5⟩ := C122_manhattan hm hr hc hl
      obtain ⟨y, y1, _, _, _, y5⟩ := C122_manhattan hm' hr' hc' hl
      refine ⟨x, y, x1, y1, ?_⟩
      rw [x5 a ha b hb, y5 a ha' b hb']
      exact hsum (fun p q => |p - q|) (by norm_num) a b ea eb

/-- **C157**, selection: the similarities and distances of selected items are those they had among all. -/
theorem C157_selection {m : Mtx κ ℝ} (hm : Valid m) (hcm : IsCompressed m) (hc : m.cols ≠ []) {l : List κ} (hl : Plainly (some l))
    (hf : Finds m.rows (some l)) :
    ∃ s u v, submatrix m (some l) none = .ok (some s) ∧ computeCosine m = .ok u ∧ computeCosine s = .ok v ∧
      (∀ a ∈ s.rows, ∀ b ∈ s.rows, entry v a b = entry u a b) ∧
      ∀ metric, metric ∈ ["cosine", "euclidean", "cityblock", "manhattan", "l1", "l2"] →
        ∃ x y, computeDistance m 0 metric = .ok x ∧ computeDistance s 0 metric = .ok y ∧
          ∀ a ∈ s.rows, ∀ b ∈ s.rows, entry y a b = entry x a b := by
  have hfc : Finds m.cols none := fun h => absurd rfl h
  rcases submatrix_stored hm hcm hl (col := none) (fun _ h => nomatch h) with ⟨h, _⟩ | ⟨_, s, h1, h2, ⟨t, ht, _⟩, h4, h5, h6⟩
  · exact absurd ⟨hf, hfc⟩ h
  have hcs : s.cols = m.cols := h5
  have hsub : ∀ a ∈ s.rows, a ∈ m.rows := by
    intro a ha
    rw [h4] at ha
    exact kept_sub _ ha
  obtain ⟨w, hw, _⟩ := hcm
  have he : ∀ a ∈ s.rows, ∀ c, entry s a c = entry m a c := by
    intro a ha c
    rw [entry_eq_stored ht, entry_eq_stored hw, h6]
    by_cases hcc : c ∈ s.cols
    · rw [if_pos ⟨ha, hcc⟩]
    · rw [if_neg (fun h => hcc h.2), ← entry_eq_stored hw, entry_col_absent _ (by rw [← hcs]; exact hcc)]
      rfl
  have hne : s.rows ≠ [] := by
    rw [h4]
    exact hf (by simp)
  obtain ⟨a0, ha0⟩ := List.exists_mem_of_ne_nil _ hne
  have key := fun a ha b hb => C157_local hm h2 hc (hcs ▸ hc) (hsub a ha) (hsub b hb) ha hb (he a ha) (he b hb)
  obtain ⟨u, v, hu, hv, _⟩ := (key a0 ha0 a0 ha0).1
  refine ⟨s, u, v, h1, hu, hv, ?_, ?_⟩
  · intro a ha b hb
    obtain ⟨u', v', hu', hv', e⟩ := (key a ha b hb).1
    rw [hu] at hu'
    rw [hv] at hv'
    cases hu'
    cases hv'
    exact e
  · intro metric hmet
    obtain ⟨x, y, hx, hy, _⟩ := (key a0 ha0 a0 ha0).2 metric hmet
    refine ⟨x, y, hx, hy, ?_⟩
    intro a ha b hb
    obtain ⟨x', y', hx', hy', e⟩ := (key a ha b hb).2 metric hmet
    rw [hx] at hx'
    rw [hy] at hy'
    cases hx'
    cases hy'
    exact e

/-! ### Cases that meet the hypotheses -/

/-- Two tokens, the second with twice the weight. -/
noncomputable def twoTc : Mtx Nat ℝ := ⟨.sp ⟨.csr, 2, 1, [((0, 0), 2), ((1, 0), 4)]⟩, [0, 5], [1]⟩

theorem twoTc_valid : Valid twoTc := by
  refine ⟨rfl, rfl, by simp [twoTc], by simp [twoTc], ?_⟩
  intro s hs; cases hs; exact ⟨by unfold Dict.WF; decide, by decide⟩

theorem twoTc_entry : entry twoTc 0 1 = 2 ∧ entry twoTc 5 1 = 4 := by
  constructor
  · rw [entry_of (i := 0) (j := 0) twoTc_valid.rows twoTc_valid.cols rfl rfl]
    simp [twoTc, Body.val, Sp.val, Sp.stored, Dict.get?_cons]
  · rw [entry_of (i := 1) (j := 0) twoTc_valid.rows twoTc_valid.cols rfl rfl]
    simp [twoTc, Body.val, Sp.val, Sp.stored, Dict.get?_cons]

theorem twoTc_absent {t c : Nat} (h : c ≠ 1) : entry twoTc t c = 0 := entry_col_absent _ (by simpa [twoTc] using h)

theorem oneTc_absent {t c : Nat} (h : c ≠ 1) : entry oneTc t c = 0 := entry_col_absent _ (by simpa [oneTc] using h)

/-- Token 0 has the same vector with and without token 5. -/
example : ∃ u v, computeTokenVectors oneTc oneSo .addition .l2 = .ok u ∧ computeTokenVectors twoTc oneSo .addition .l2 = .ok v ∧
    ∀ f, entry v 0 f = entry u 0 f := by
  refine C155_local oneTc_valid twoTc_valid oneSo_valid oneSo_valid ⟨_, rfl, rfl⟩ ⟨_, rfl, rfl⟩ ⟨_, rfl, rfl⟩ ⟨_, rfl, rfl⟩
    (by intro c; simp [oneTc, oneSo]) (by intro c; simp [twoTc, oneSo]) (List.Perm.refl _) (by simp [oneTc]) (by simp [twoTc]) ?_
    (fun _ _ _ => rfl) (by simp)
  intro c
  by_cases h : c = 1
  · subst h; rw [twoTc_entry.1, oneTc_entry]
  · rw [twoTc_absent h, oneTc_absent h]

theorem twoTc_double (c : Nat) : entry twoTc 5 c = 2 * entry twoTc 0 c := by
  by_cases h : c = 1
  · subst h; rw [twoTc_entry.1, twoTc_entry.2]; norm_num
  · rw [twoTc_absent h, twoTc_absent h, mul_zero]

/-- Twice the weight: twice the vector, the same normalised vector. -/
example : (∃ u, computeTokenVectors twoTc oneSo .addition .no = .ok u ∧ ∀ f, entry u 5 f = 1 * entry u 0 f + 1 * entry u 0 f) ∧
    ∃ u, computeTokenVectors twoTc oneSo = .ok u ∧ ∀ f, entry u 5 f = entry u 0 f := by
  constructor
  · obtain ⟨u, h1, h2⟩ := C156_sum twoTc_valid oneSo_valid ⟨_, rfl, rfl⟩ ⟨_, rfl, rfl⟩ (by intro c; simp [twoTc, oneSo])
    exact ⟨u, h1, h2 5 0 0 1 1 (fun c => by rw [twoTc_double]; ring)⟩
  · obtain ⟨u, h1, h2⟩ := C156_scale twoTc_valid oneSo_valid ⟨_, rfl, rfl⟩ ⟨_, rfl, rfl⟩ (by intro c; simp [twoTc, oneSo])
      (norm := .l1) (Or.inl rfl)
    exact ⟨u, h1, h2 0 (by simp [twoTc]) 5 (by simp [twoTc]) 2 (by norm_num) twoTc_double⟩

/-- A selection that finds something. -/
example : Valid twoTc ∧ IsCompressed twoTc ∧ twoTc.cols ≠ [] ∧ Plainly (some [5, 7]) ∧ Finds twoTc.rows (some [5, 7]) :=
  ⟨twoTc_valid, ⟨_, rfl, by simp⟩, by simp [twoTc], fun l h => by cases h; decide, fun _ => by decide⟩

end Verif.Assoc
