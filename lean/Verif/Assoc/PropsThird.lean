import Verif.Assoc.PropsNeighbours

/-! # Property theorem C248: words that are similar to the same word -/

set_option linter.unusedSectionVars false

namespace Verif.Assoc
open Verif.Py Verif.Matrix

variable {κ : Type} [LinearOrder κ]

theorem sum_sq_diff {α : Type} (l : List α) (f g : α → ℝ) (p q : ℝ) :
    (l.map (fun k => (f k / p - g k / q) ^ 2)).sum =
      (l.map (fun k => f k * f k)).sum / p ^ 2 + (l.map (fun k => g k * g k)).sum / q ^ 2 - 2 * ((l.map (fun k => f k * g k)).sum / (p * q)) := by
  induction l with
  | nil => simp
  | cons a l ih =>
    simp only [List.map_cons, List.sum_cons, ih]
    by_cases hp : p = 0
    · by_cases hq : q = 0
      · simp [hp, hq]
      · simp [hp]
        field_simp
    · by_cases hq : q = 0
      · simp [hq]
        field_simp
      · field_simp
        ring

/-- Twice the cosine distance is the square of the Euclidean distance of the rows divided by their lengths. -/
theorem cosine_as_square {m u : Mtx κ ℝ} (hm : Valid m) (hr : m.rows ≠ []) (hc : m.cols ≠ []) (hu : computeDistance m = .ok u) :
    ∀ a ∈ m.rows, ∀ b ∈ m.rows, namedDot m a a ≠ 0 → namedDot m b b ≠ 0 →
      2 * entry u a b = (m.cols.map (fun k => (entry m a k / Real.sqrt (namedDot m a a) - entry m b k / Real.sqrt (namedDot m b b)) ^ 2)).sum := by
  obtain ⟨u', h1, _, _, hd, _, h5⟩ := C122_cosine hm hr hc
  rw [hu] at h1
  cases h1
  intro a ha b hb za zb
  have pos : ∀ x, 0 ≤ namedDot m x x := fun x => sum_map_nonneg _ _ (fun c _ => mul_self_nonneg _)
  have hsq : ∀ x, Real.sqrt (namedDot m x x) ^ 2 = namedDot m x x := fun x => Real.sq_sqrt (pos x)
  rw [sum_sq_diff, hsq, hsq]
  change _ = namedDot m a a / namedDot m a a + namedDot m b b / namedDot m b b - 2 * (namedDot m a b / _)
  rw [div_self za, div_self zb]
  by_cases hab : a = b
  · subst hab
    rw [hd a ha, Real.mul_self_sqrt (pos a), div_self za]
    ring
  · rw [(h5 a ha b hb hab).2 za zb]
    ring

/-- **C248**, distances: the square roots of the cosine distances obey the triangle inequality, for all rows (rows of zeros too). -/
theorem C248_root {m : Mtx κ ℝ} (hm : Valid m) (hr : m.rows ≠ []) (hc : m.cols ≠ []) :
    ∃ d, computeDistance m = .ok d ∧ ∀ a ∈ m.rows, ∀ b ∈ m.rows, ∀ c ∈ m.rows,
      Real.sqrt (entry d a c) ≤ Real.sqrt (entry d a b) + Real.sqrt (entry d b c) := by
  obtain ⟨d, h1, _, _, hd, hrange, h5⟩ := C122_cosine hm hr hc
  refine ⟨d, h1, fun a ha b hb c hcc => ?_⟩
  have hsq := cosine_as_square hm hr hc h1
  have n1 := Real.sqrt_nonneg (entry d a b)
  have n2 := Real.sqrt_nonneg (entry d b c)
  by_cases hac : a = c
  · subst hac
    rw [hd a ha, Real.sqrt_zero]
    linarith
  by_cases hab : a = b
  · subst hab
    linarith
  by_cases hbc : b = c
  · subst hbc
    linarith
  by_cases za : namedDot m a a = 0
  · rw [(h5 a ha c hcc hac).1 (Or.inl za), (h5 a ha b hb hab).1 (Or.inl za), Real.sqrt_one]
    linarith
  by_cases zc : namedDot m c c = 0
  · rw [(h5 a ha c hcc hac).1 (Or.inr zc), (h5 b hb c hcc hbc).1 (Or.inr zc), Real.sqrt_one]
    linarith
  by_cases zb : namedDot m b b = 0
  · rw [(h5 a ha b hb hab).1 (Or.inr zb), (h5 b hb c hcc hbc).1 (Or.inl zb), Real.sqrt_one]
    rw [Real.sqrt_le_left (by norm_num)]
    have := (hrange a ha c hcc).2.2
    linarith
  · have hmk := list_minkowski m.cols
      (fun k => entry m a k / Real.sqrt (namedDot m a a) - entry m b k / Real.sqrt (namedDot m b b))
      (fun k => entry m b k / Real.sqrt (namedDot m b b) - entry m c k / Real.sqrt (namedDot m c c))
    simp only [sub_add_sub_cancel] at hmk
    rw [← hsq a ha c hcc za zc, ← hsq a ha b hb za zb, ← hsq b hb c hcc zb zc,
      Real.sqrt_mul (by norm_num), Real.sqrt_mul (by norm_num), Real.sqrt_mul (by norm_num), ← mul_add] at hmk
    exact le_of_mul_le_mul_left hmk (Real.sqrt_pos.2 (by norm_num))

/-- **C248**: if the similarities of two items to a third are at least `1 - e` and `1 - f`, then their similarity to each other is at
least `1 - (√e + √f)²`. -/
theorem C248_third {m : Mtx κ ℝ} (hm : Valid m) (hr : m.rows ≠ []) (hc : m.cols ≠ []) :
    ∃ s, computeCosine m = .ok s ∧ ∀ a ∈ m.rows, ∀ b ∈ m.rows, ∀ c ∈ m.rows, ∀ e f : ℝ,
      1 - e ≤ entry s a b → 1 - f ≤ entry s b c → 1 - (Real.sqrt e + Real.sqrt f) ^ 2 ≤ entry s a c := by
  obtain ⟨d, k1, htri⟩ := C248_root hm hr hc
  obtain ⟨d', k2, _, _, hd0, hrange, _⟩ := C122_cosine hm hr hc
  rw [k1] at k2
  cases k2
  obtain ⟨s, h1, _⟩ := C63_cosine hm hr hc
  have hd := C122_similarity hm hr hc k1 h1
  refine ⟨s, h1, fun a ha b hb c hcc e f he hf => ?_⟩
  have h3 := htri a ha b hb c hcc
  have e1 : Real.sqrt (entry d a b) ≤ Real.sqrt e := Real.sqrt_le_sqrt (by rw [hd a ha b hb]; linarith)
  have e2 : Real.sqrt (entry d b c) ≤ Real.sqrt f := Real.sqrt_le_sqrt (by rw [hd b hb c hcc]; linarith)
  have nn : 0 ≤ entry d a c := (hrange a ha c hcc).2.1
  have h4 : Real.sqrt (entry d a c) ≤ Real.sqrt e + Real.sqrt f := by linarith
  have h5 := pow_le_pow_left₀ (Real.sqrt_nonneg _) h4 2
  rw [Real.sq_sqrt nn, hd a ha c hcc] at h5
  linarith

/-- **C248**, the same with one bound: neighbours at a cosine distance of at most `e` of one item are at most `4 e` apart. -/
theorem C248_four {m : Mtx κ ℝ} (hm : Valid m) (hr : m.rows ≠ []) (hc : m.cols ≠ []) :
    ∃ s, computeCosine m = .ok s ∧ ∀ a ∈ m.rows, ∀ b ∈ m.rows, ∀ c ∈ m.rows, ∀ e : ℝ, 0 ≤ e →
      1 - e ≤ entry s a b → 1 - e ≤ entry s b c → 1 - 4 * e ≤ entry s a c := by
  obtain ⟨s, h1, h2⟩ := C248_third hm hr hc
  refine ⟨s, h1, fun a ha b hb c hcc e he hab hbc => ?_⟩
  have h3 := h2 a ha b hb c hcc e e hab hbc
  have h4 : (Real.sqrt e + Real.sqrt e) ^ 2 = 4 * e := by
    have := Real.sq_sqrt he
    nlinarith
  rw [h4] at h3
  exact h3

/-- **C248**, how far it goes: two items can both have the similarity `1 / √2` to a third and the similarity 0 to each other. -/
theorem C248_limit : ∃ (m s : Mtx Nat ℝ), Valid m ∧ computeCosine m = .ok s ∧ ∃ a ∈ m.rows, ∃ b ∈ m.rows, ∃ c ∈ m.rows,
    entry s a b = 1 / Real.sqrt 2 ∧ entry s b c = 1 / Real.sqrt 2 ∧ entry s a c = 0 := by
  obtain ⟨s, h1, _, _, _, _, _, h5⟩ := C63_cosine corner_valid (by decide) (by decide)
  refine ⟨corner, s, corner_valid, h1, 10, by decide, 20, by decide, 30, by decide, ?_⟩
  obtain ⟨a, b, c, d, e, f⟩ := corner_dot
  have p1 := (h5 10 (by decide) 20 (by decide) (by decide)).2 (by rw [a]; norm_num) (by rw [b]; norm_num)
  have p2 := (h5 20 (by decide) 30 (by decide) (by decide)).2 (by rw [b]; norm_num) (by rw [c]; norm_num)
  have p3 := (h5 10 (by decide) 30 (by decide) (by decide)).2 (by rw [a]; norm_num) (by rw [c]; norm_num)
  rw [p1, p2, p3, a, b, c, d, e, f, Real.sqrt_one, one_mul, mul_one, zero_div]
  exact ⟨rfl, rfl, rfl⟩

/-- A case that meets the hypotheses: the matrix of `C248_limit`. -/
example : Valid corner ∧ corner.rows ≠ [] ∧ corner.cols ≠ [] := ⟨corner_valid, by decide, by decide⟩

end Verif.Assoc
