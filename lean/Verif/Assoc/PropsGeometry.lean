import Verif.Assoc.PropsVecLaws

/-! # Property theorems C227 (what similarities 0 and 1 mean) and C228 (distances of vectors of length 1) -/

set_option linter.unusedSectionVars false

namespace Verif.Assoc
open Verif.Py Verif.Matrix

variable {κ : Type} [LinearOrder κ]

/-! ### Sums of named rows -/

theorem dot_self_nonneg (m : Mtx κ ℝ) (a : κ) : 0 ≤ namedDot m a a := by
  refine List.sum_nonneg fun x hx => ?_
  obtain ⟨c, _, rfl⟩ := List.mem_map.1 hx
  exact mul_self_nonneg _

theorem dot_self_zero {m : Mtx κ ℝ} {a : κ} : namedDot m a a = 0 ↔ ∀ c, entry m a c = 0 := by
  constructor
  · intro h c
    by_cases hc : c ∈ m.cols
    · have hn : ∀ x ∈ m.cols.map (fun c => entry m a c * entry m a c), (0 : ℝ) ≤ x := by
        intro x hx
        obtain ⟨c, _, rfl⟩ := List.mem_map.1 hx
        exact mul_self_nonneg _
      have := List.single_le_sum hn _ (List.mem_map.2 ⟨c, hc, rfl⟩)
      unfold namedDot at h
      rw [h] at this
      exact mul_self_eq_zero.1 (le_antisymm this (mul_self_nonneg _))
    · exact entry_col_absent _ hc
  · intro h
    unfold namedDot
    refine List.sum_eq_zero fun x hx => ?_
    obtain ⟨c, _, rfl⟩ := List.mem_map.1 hx
    rw [h c, mul_zero]

theorem sum_sq_combination (l : List κ) (f g : κ → ℝ) (p q : ℝ) :
    (l.map (fun c => (p * f c - q * g c) ^ 2)).sum =
      p ^ 2 * (l.map (fun c => f c * f c)).sum - 2 * p * q * (l.map (fun c => f c * g c)).sum + q ^ 2 * (l.map (fun c => g c * g c)).sum := by
  induction l with
  | nil => simp
  | cons c l ih =>
    simp only [List.map_cons, List.sum_cons, ih]
    ring

/-! ## C227 -/

/-- **C227**: if two rows have no negative values and are not 0 throughout, their similarity is between 0 and 1; it is 0 exactly if no
column has a value in both. -/
theorem C227_nonneg {m : Mtx κ ℝ} (hm : Valid m) {a b : κ} (ha : a ∈ m.rows) (hb : b ∈ m.rows) (hab : a ≠ b)
    (pa : ∀ c, 0 ≤ entry m a c) (pb : ∀ c, 0 ≤ entry m b c) (na : ∃ c, entry m a c ≠ 0) (nb : ∃ c, entry m b c ≠ 0) :
    ∃ u d, computeCosine m = .ok u ∧ computeDistance m = .ok d ∧ 0 ≤ entry u a b ∧ entry u a b ≤ 1 ∧ 0 ≤ entry d a b ∧ entry d a b ≤ 1 ∧
      (entry u a b = 0 ↔ ∀ c, entry m a c = 0 ∨ entry m b c = 0) ∧ (entry d a b = 1 ↔ ∀ c, entry m a c = 0 ∨ entry m b c = 0) := by
  have hr : m.rows ≠ [] := List.ne_nil_of_mem ha
  have hc : m.cols ≠ [] := by
    rintro h
    obtain ⟨c, hcn⟩ := na
    exact hcn (entry_col_absent _ (by rw [h]; simp))
  obtain ⟨u, h1, _, _, _, _, h4, h5⟩ := C63_cosine hm hr hc
  obtain ⟨d, k1, _⟩ := C122_cosine hm hr hc
  have hd := C122_similarity hm hr hc k1 h1 a ha b hb
  have za : namedDot m a a ≠ 0 := fun h => by obtain ⟨c, hcn⟩ := na; exact hcn (dot_self_zero.1 h c)
  have zb : namedDot m b b ≠ 0 := fun h => by obtain ⟨c, hcn⟩ := nb; exact hcn (dot_self_zero.1 h c)
  have he := (h5 a ha b hb hab).2 za zb
  have qa : 0 < Real.sqrt (namedDot m a a) := Real.sqrt_pos.2 (lt_of_le_of_ne (dot_self_nonneg m a) (Ne.symm za))
  have qb : 0 < Real.sqrt (namedDot m b b) := Real.sqrt_pos.2 (lt_of_le_of_ne (dot_self_nonneg m b) (Ne.symm zb))
  have hnn : ∀ x ∈ m.cols.map (fun c => entry m a c * entry m b c), (0 : ℝ) ≤ x := by
    intro x hx
    obtain ⟨c, _, rfl⟩ := List.mem_map.1 hx
    exact mul_nonneg (pa c) (pb c)
  have hdot : 0 ≤ namedDot m a b := List.sum_nonneg hnn
  have h0 : 0 ≤ entry u a b := by rw [he]; positivity
  have hz : entry u a b = 0 ↔ ∀ c, entry m a c = 0 ∨ entry m b c = 0 := by
    rw [he, div_eq_zero_iff, or_iff_left (ne_of_gt (mul_pos qa qb))]
    constructor
    · intro h c
      by_cases hcc : c ∈ m.cols
      · have := List.single_le_sum hnn _ (List.mem_map.2 ⟨c, hcc, rfl⟩)
        unfold namedDot at h
        rw [h] at this
        exact mul_eq_zero.1 (le_antisymm this (mul_nonneg (pa c) (pb c)))
      · exact .inl (entry_col_absent _ hcc)
    · intro h
      unfold namedDot
      refine List.sum_eq_zero fun x hx => ?_
      obtain ⟨c, _, rfl⟩ := List.mem_map.1 hx
      exact mul_eq_zero.2 (h c)
  refine ⟨u, d, h1, k1, h0, (h4 a b).2, ?_, ?_, hz, ?_⟩
  · rw [hd]; linarith [(h4 a b).2]
  · rw [hd]; linarith
  · rw [hd, ← hz]
    constructor <;> intro h <;> linarith

/-- **C227**: two rows that are not 0 throughout have similarity 1, so distance 0, exactly if one is a positive multiple of the other. -/
theorem C227_one {m : Mtx κ ℝ} (hm : Valid m) {a b : κ} (ha : a ∈ m.rows) (hb : b ∈ m.rows) (hab : a ≠ b)
    (na : ∃ c, entry m a c ≠ 0) (nb : ∃ c, entry m b c ≠ 0) :
    ∃ u d, computeCosine m = .ok u ∧ computeDistance m = .ok d ∧ (entry u a b = 1 ↔ ∃ k > 0, ∀ c, entry m a c = k * entry m b c) ∧
      (entry d a b = 0 ↔ ∃ k > 0, ∀ c, entry m a c = k * entry m b c) := by
  have hr : m.rows ≠ [] := List.ne_nil_of_mem ha
  have hc : m.cols ≠ [] := by
    rintro h
    obtain ⟨c, hcn⟩ := na
    exact hcn (entry_col_absent _ (by rw [h]; simp))
  obtain ⟨u, h1, _, _, _, _, h4, h5⟩ := C63_cosine hm hr hc
  obtain ⟨d, k1, _⟩ := C122_cosine hm hr hc
  have hd := C122_similarity hm hr hc k1 h1 a ha b hb
  have za : namedDot m a a ≠ 0 := fun h => by obtain ⟨c, hcn⟩ := na; exact hcn (dot_self_zero.1 h c)
  have zb : namedDot m b b ≠ 0 := fun h => by obtain ⟨c, hcn⟩ := nb; exact hcn (dot_self_zero.1 h c)
  have pa : 0 < namedDot m a a := lt_of_le_of_ne (dot_self_nonneg m a) (Ne.symm za)
  have pb : 0 < namedDot m b b := lt_of_le_of_ne (dot_self_nonneg m b) (Ne.symm zb)
  have he := (h5 a ha b hb hab).2 za zb
  have qa : 0 < Real.sqrt (namedDot m a a) := Real.sqrt_pos.2 pa
  have qb : 0 < Real.sqrt (namedDot m b b) := Real.sqrt_pos.2 pb
  have key : entry u a b = 1 ↔ ∃ k > 0, ∀ c, entry m a c = k * entry m b c := by
    rw [he, div_eq_one_iff_eq (ne_of_gt (mul_pos qa qb))]
    constructor
    · intro h
      have hpos : 0 < namedDot m a b := by rw [h]; positivity
      have hsq : namedDot m a b ^ 2 = namedDot m a a * namedDot m b b := by
        rw [h, mul_pow, Real.sq_sqrt pa.le, Real.sq_sqrt pb.le]
      refine ⟨namedDot m a b / namedDot m b b, div_pos hpos pb, fun c => ?_⟩
      have hs := sum_sq_combination m.cols (entry m a) (entry m b) (namedDot m b b) (namedDot m a b)
      have e0 : (m.cols.map (fun c => (namedDot m b b * entry m a c - namedDot m a b * entry m b c) ^ 2)).sum = 0 := by
        rw [hs]
        change namedDot m b b ^ 2 * namedDot m a a - 2 * namedDot m b b * namedDot m a b * namedDot m a b +
          namedDot m a b ^ 2 * namedDot m b b = 0
        rw [hsq]
        have : 2 * namedDot m b b * namedDot m a b * namedDot m a b = 2 * namedDot m b b * namedDot m a b ^ 2 := by ring
        rw [this, hsq]
        ring
      by_cases hcc : c ∈ m.cols
      · have hn : ∀ x ∈ m.cols.map (fun c => (namedDot m b b * entry m a c - namedDot m a b * entry m b c) ^ 2), (0 : ℝ) ≤ x := by
          intro x hx
          obtain ⟨c, _, rfl⟩ := List.mem_map.1 hx
          exact sq_nonneg _
        have := List.single_le_sum hn _ (List.mem_map.2 ⟨c, hcc, rfl⟩)
        rw [e0] at this
        have := pow_eq_zero_iff (two_ne_zero) |>.1 (le_antisymm this (sq_nonneg _))
        rw [div_mul_eq_mul_div, eq_div_iff zb]
        linarith
      · rw [entry_col_absent _ hcc, entry_col_absent _ hcc, mul_zero]
    · rintro ⟨k, hk, hall⟩
      have e1 : namedDot m a b = k * namedDot m b b := by
        unfold namedDot
        rw [← List.sum_map_mul_left]
        refine congrArg _ (List.map_congr_left fun c _ => ?_)
        rw [hall c]; ring
      have e2 : namedDot m a a = k ^ 2 * namedDot m b b := by
        unfold namedDot
        rw [← List.sum_map_mul_left]
        refine congrArg _ (List.map_congr_left fun c _ => ?_)
        rw [hall c]; ring
      rw [e1, e2, Real.sqrt_mul (sq_nonneg k), Real.sqrt_sq hk.le, mul_assoc, Real.mul_self_sqrt pb.le]
  refine ⟨u, d, h1, k1, key, ?_⟩
  rw [← key, hd]
  constructor <;> intro h <;> linarith

/-! ## C228 -/

/-- **C228**: for rows of length 1 the square of the Euclidean distance is twice the cosine distance; so both distances order the other
rows alike. -/
theorem C228_unit {m : Mtx κ ℝ} (hm : Valid m) (hc : m.cols ≠ []) {a b : κ} (ha : a ∈ m.rows) (hb : b ∈ m.rows)
    (ua : namedDot m a a = 1) (ub : namedDot m b b = 1) :
    ∃ e d, computeDistance m 0 "euclidean" = .ok e ∧ computeDistance m = .ok d ∧ entry e a b ^ 2 = 2 * entry d a b := by
  have hr : m.rows ≠ [] := List.ne_nil_of_mem ha
  obtain ⟨e, h1, _, _, _, h5⟩ := C122_euclidean hm hr hc (.inl rfl)
  obtain ⟨d, k1, _, _, k2, _, k5⟩ := C122_cosine hm hr hc
  refine ⟨e, d, h1, k1, ?_⟩
  rw [h5 a ha b hb]
  unfold namedL2
  have hs := sum_sq_combination m.cols (entry m a) (entry m b) 1 1
  have e1 : (m.cols.map (fun c => (entry m a c - entry m b c) ^ 2)).sum = 2 - 2 * namedDot m a b := by
    have e0 : (fun c => (1 * entry m a c - 1 * entry m b c) ^ 2) = fun c => (entry m a c - entry m b c) ^ 2 := by
      funext c; ring
    rw [e0] at hs
    rw [hs]
    change 1 ^ 2 * namedDot m a a - 2 * 1 * 1 * namedDot m a b + 1 ^ 2 * namedDot m b b = _
    rw [ua, ub]
    ring
  have hnn : (0 : ℝ) ≤ (m.cols.map (fun c => (entry m a c - entry m b c) ^ 2)).sum := by
    refine List.sum_nonneg fun x hx => ?_
    obtain ⟨c, _, rfl⟩ := List.mem_map.1 hx
    exact sq_nonneg _
  rw [Real.sq_sqrt hnn, e1]
  by_cases hab : a = b
  · subst hab
    rw [k2 a ha, ua]
    ring
  · rw [(k5 a ha b hb hab).2 (by rw [ua]; norm_num) (by rw [ub]; norm_num), ua, ub, Real.sqrt_one]
    ring

/-- **C228**, order: for rows of length 1, `b` is nearer to `a` than `c` by the Euclidean distance iff by the cosine distance. -/
theorem C228_order {m : Mtx κ ℝ} (hm : Valid m) (hc : m.cols ≠ []) {a b c : κ} (ha : a ∈ m.rows) (hb : b ∈ m.rows) (hcr : c ∈ m.rows)
    (ua : namedDot m a a = 1) (ub : namedDot m b b = 1) (uc : namedDot m c c = 1) :
    ∃ e d, computeDistance m 0 "euclidean" = .ok e ∧ computeDistance m = .ok d ∧ (entry e a b < entry e a c ↔ entry d a b < entry d a c) := by
  obtain ⟨e, d, h1, k1, hab⟩ := C228_unit hm hc ha hb ua ub
  obtain ⟨e', d', h1', k1', hac⟩ := C228_unit hm hc ha hcr ua uc
  rw [h1] at h1'; cases h1'
  rw [k1] at k1'; cases k1'
  refine ⟨e, d, h1, k1, ?_⟩
  have hr : m.rows ≠ [] := List.ne_nil_of_mem ha
  obtain ⟨e', g1, _, _, _, g5⟩ := C122_euclidean hm hr hc (.inl rfl)
  rw [h1] at g1; cases g1
  have pb : 0 ≤ entry e a b := by rw [g5 a ha b hb]; exact Real.sqrt_nonneg _
  have pc : 0 ≤ entry e a c := by rw [g5 a ha c hcr]; exact Real.sqrt_nonneg _
  rw [← pow_lt_pow_iff_left₀ pb pc two_ne_zero, hab, hac]
  constructor <;> intro h <;> linarith

/-- **C228**, token vectors: among the token vectors computed with `normalization='l2'` that are not 0 throughout, the Euclidean and the
cosine distance order the neighbours of a token alike. -/
theorem C228_tokens {tc so : Mtx κ ℝ} (htc : Valid tc) (hso : Valid so) (hl : IsCsr tc) (hr : IsCsr so)
    (hset : ∀ c, c ∈ tc.cols ↔ c ∈ so.rows) :
    ∃ u, computeTokenVectors tc so .addition .l2 = .ok u ∧ u.rows = tc.rows ∧ ∀ a ∈ tc.rows, ∀ b ∈ tc.rows, ∀ c ∈ tc.rows,
      (∃ f, entry u a f ≠ 0) → (∃ f, entry u b f ≠ 0) → (∃ f, entry u c f ≠ 0) →
      ∃ e d, computeDistance u 0 "euclidean" = .ok e ∧ computeDistance u = .ok d ∧
        entry e a b ^ 2 = 2 * entry d a b ∧ (entry e a b < entry e a c ↔ entry d a b < entry d a c) := by
  obtain ⟨u, h1, h2⟩ := (C61_unit_norm htc hso hl hr hset).2
  obtain ⟨u', k1, kv, _, kr, kc, _⟩ := C36_addition htc hso hl hr hset (norm := .l2) (by simp)
  rw [h1] at k1; cases k1
  refine ⟨u, h1, kr, fun a ha b hb c hc na nb nc => ?_⟩
  have unit : ∀ t ∈ tc.rows, (∃ f, entry u t f ≠ 0) → namedDot u t t = 1 := by
    intro t ht hn
    rcases h2 t ht with h | h
    · unfold namedDot
      rw [kc, ← h]
      refine congrArg _ (List.map_congr_left fun f _ => ?_)
      ring
    · obtain ⟨f, hf⟩ := hn
      exact absurd (h f) hf
  have hcols : u.cols ≠ [] := by
    rintro h
    obtain ⟨f, hf⟩ := na
    exact hf (entry_col_absent _ (by rw [h]; simp))
  obtain ⟨e, d, e1, d1, hab⟩ := C228_unit kv hcols (kr ▸ ha) (kr ▸ hb) (unit a ha na) (unit b hb nb)
  obtain ⟨e', d', e1', d1', ho⟩ := C228_order kv hcols (kr ▸ ha) (kr ▸ hb) (kr ▸ hc) (unit a ha na) (unit b hb nb) (unit c hc nc)
  rw [e1] at e1'; cases e1'
  rw [d1] at d1'; cases d1'
  exact ⟨e, d, e1, d1, hab, ho⟩

/-- The rows (1, 0), (1, 1), (0, 1): no negative values, none is 0; the first and the last share no column and have length 1. -/
example : Valid corner ∧ (∀ x ∈ [10, 20, 30], ∃ c, entry corner x c ≠ 0) ∧ namedDot corner 10 10 = 1 ∧ namedDot corner 30 30 = 1 ∧
    ∃ u, computeCosine corner = .ok u ∧ entry u 10 30 = 0 := by
  obtain ⟨a, b, c, d, e, f⟩ := corner_entry
  refine ⟨corner_valid, ?_, corner_dot.1, corner_dot.2.2.1, ?_⟩
  · intro x hx
    simp only [List.mem_cons, List.not_mem_nil, or_false] at hx
    rcases hx with rfl | rfl | rfl
    · exact ⟨1, by rw [a]; norm_num⟩
    · exact ⟨1, by rw [c]; norm_num⟩
    · exact ⟨2, by rw [f]; norm_num⟩
  · obtain ⟨u, h1, _, _, _, _, _, h5⟩ := C63_cosine corner_valid (by decide) (by decide)
    refine ⟨u, h1, ?_⟩
    rw [(h5 10 (by decide) 30 (by decide) (by decide)).2 (by rw [corner_dot.1]; norm_num) (by rw [corner_dot.2.2.1]; norm_num),
      corner_dot.2.2.2.2.2]
    simp

end Verif.Assoc
