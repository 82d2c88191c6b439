import Verif.Assoc.PropsAffinity

/-! # Property theorem C252 (tokens whose contexts are similar)

A lower bound for the similarity of two tokens from the similarities of their contexts. -/

set_option linter.unusedSectionVars false

namespace Verif.Assoc
open Verif.Py Verif.Matrix

variable {κ : Type} [LinearOrder κ]

theorem combo_dot (F C : List κ) (w : κ → ℝ) (x : κ → κ → ℝ) (y : κ → ℝ) :
    (F.map (fun f => (C.map (fun c => w c * x c f)).sum * y f)).sum = (C.map (fun c => w c * (F.map (fun f => x c f * y f)).sum)).sum := by
  induction C with
  | nil => simp
  | cons c C ih =>
    simp only [List.map_cons, List.sum_cons, add_mul, List.sum_map_add, ih]
    congr 1
    rw [← List.sum_map_mul_left]
    simp only [mul_assoc]

theorem combo_dot_two (F C : List κ) (w v : κ → ℝ) (x : κ → κ → ℝ) :
    (F.map (fun f => (C.map (fun c => w c * x c f)).sum * (C.map (fun c => v c * x c f)).sum)).sum =
      (C.map (fun c => w c * (C.map (fun c' => v c' * (F.map (fun f => x c f * x c' f)).sum)).sum)).sum := by
  rw [combo_dot]
  congr 1
  apply List.map_congr_left
  intro c _
  congr 1
  have := combo_dot F C v x (fun f => x c f)
  rw [show (fun f => x c f * (C.map (fun c' => v c' * x c' f)).sum) = fun f => (C.map (fun c' => v c' * x c' f)).sum * x c f from
    funext fun f => mul_comm _ _, this]
  congr 1
  apply List.map_congr_left
  intro c' _
  rw [show (fun f => x c' f * x c f) = fun f => x c f * x c' f from funext fun f => mul_comm _ _]

/-- A weighted sum only depends on the values with a weight. -/
theorem weighted_le (C : List κ) (w g h : κ → ℝ) (hw : ∀ c, 0 ≤ w c) (hgh : ∀ c ∈ C, 0 < w c → g c ≤ h c) :
    (C.map (fun c => w c * g c)).sum ≤ (C.map (fun c => w c * h c)).sum := by
  apply List.sum_le_sum
  intro c hc
  rcases lt_or_eq_of_le (hw c) with h0 | h0
  · exact mul_le_mul_of_nonneg_left (hgh c hc h0) h0.le
  · rw [← h0, zero_mul, zero_mul]

theorem weighted_two (C : List κ) (w v n : κ → ℝ) (e : ℝ) :
    (C.map (fun c => w c * (C.map (fun c' => v c' * (e * (n c * n c')))).sum)).sum =
      e * ((C.map (fun c => w c * n c)).sum * (C.map (fun c => v c * n c)).sum) := by
  have h1 : ∀ c, (C.map (fun c' => v c' * (e * (n c * n c')))).sum = (e * n c) * (C.map (fun c' => v c' * n c')).sum := by
    intro c
    rw [← List.sum_map_mul_left]
    congr 1
    apply List.map_congr_left
    intro c' _
    ring
  simp only [h1]
  rw [← List.sum_map_mul_right, ← List.sum_map_mul_left]
  congr 1
  apply List.map_congr_left
  intro c _
  ring

theorem self_dot_nonneg (m : Mtx κ ℝ) (a : κ) : 0 ≤ namedDot m a a :=
  List.sum_nonneg (by intro x hx; obtain ⟨c, _, rfl⟩ := List.mem_map.1 hx; exact mul_self_nonneg _)

theorem self_dot_zero {m : Mtx κ ℝ} {a : κ} (h : namedDot m a a = 0) (b : κ) : namedDot m a b = 0 ∧ namedDot m b a = 0 := by
  have hz : ∀ c ∈ m.cols, entry m a c = 0 := by
    intro c hc
    have hle := List.single_le_sum (l := m.cols.map (fun c => entry m a c * entry m a c))
      (by intro x hx; obtain ⟨c, _, rfl⟩ := List.mem_map.1 hx; exact mul_self_nonneg _) _ (List.mem_map.2 ⟨c, hc, rfl⟩)
    unfold namedDot at h
    rw [h] at hle
    exact mul_self_eq_zero.1 (le_antisymm hle (mul_self_nonneg _))
  constructor <;>
  · unfold namedDot
    refine List.sum_eq_zero fun x hx => ?_
    obtain ⟨c, hc, rfl⟩ := List.mem_map.1 hx
    rw [hz c hc]; simp

/-- The scalar product of two rows from their similarity and their lengths. -/
theorem dot_of_cosine {m sc : Mtx κ ℝ} (hm : Valid m) (hs : computeCosine m = .ok sc) (hc : m.cols ≠ []) {a b : κ} (ha : a ∈ m.rows) (hb : b ∈ m.rows) :
    namedDot m a b = entry sc a b * (Real.sqrt (namedDot m a a) * Real.sqrt (namedDot m b b)) := by
  obtain ⟨s, h1, _, _, _, h3, _, h5⟩ := C63_cosine hm (List.ne_nil_of_mem ha) hc
  rw [hs] at h1; cases h1
  by_cases hab : a = b
  · subst hab
    rw [h3 a ha, one_mul, Real.mul_self_sqrt (self_dot_nonneg m a)]
  · by_cases hz : namedDot m a a = 0 ∨ namedDot m b b = 0
    · rw [(h5 a ha b hb hab).1 hz, zero_mul]
      rcases hz with hz | hz
      · exact (self_dot_zero hz b).1
      · exact (self_dot_zero hz a).2
    · push Not at hz
      rw [(h5 a ha b hb hab).2 hz.1 hz.2]
      have h1 : Real.sqrt (namedDot m a a) ≠ 0 := Real.sqrt_ne_zero'.2 (lt_of_le_of_ne (self_dot_nonneg m a) (Ne.symm hz.1))
      have h2 : Real.sqrt (namedDot m b b) ≠ 0 := Real.sqrt_ne_zero'.2 (lt_of_le_of_ne (self_dot_nonneg m b) (Ne.symm hz.2))
      field_simp

theorem scaled_times (norm : Norm) (v : List ℝ) : ∃ k > 0, ∀ x, scaled norm v x = k * x := by
  have hv : 0 ≤ vecNorm norm v := by
    cases norm with
    | l2 => exact Real.sqrt_nonneg _
    | _ => exact List.sum_nonneg (by intro y hy; obtain ⟨z, _, rfl⟩ := List.mem_map.1 hy; exact abs_nonneg z)
  unfold scaled
  by_cases h : norm = .no ∨ vecNorm norm v = 0
  · exact ⟨1, one_pos, fun x => by rw [if_pos h, one_mul]⟩
  · refine ⟨1 / vecNorm norm v, ?_, fun x => by rw [if_neg h]; ring⟩
    push Not at h
    exact one_div_pos.2 (lt_of_le_of_ne hv (Ne.symm h.2))

/-- A context with a weight and with a feature. -/
def Telling (tc so : Mtx κ ℝ) (t : κ) : Prop := ∃ c f, 0 < entry tc t c ∧ entry so c f ≠ 0

/-- **C252**: if every context of one token has at least the similarity `e ≥ 0` to every context of another, by their second-order vectors,
then the two tokens have at least the similarity `e`, whatever the weights and the norm. -/
theorem C252_contexts {tc so sc : Mtx κ ℝ} (htc : Valid tc) (hso : Valid so) (hl : IsCsr tc) (hr : IsCsr so)
    (hset : ∀ c, c ∈ tc.cols ↔ c ∈ so.rows) {norm : Norm} (hno : norm ≠ .other) (hsc : computeCosine so = .ok sc) {a b : κ} (ha : a ∈ tc.rows)
    (hb : b ∈ tc.rows) (wa : ∀ c, 0 ≤ entry tc a c) (wb : ∀ c, 0 ≤ entry tc b c) (na : Telling tc so a) (nb : Telling tc so b)
    {e : ℝ} (he : 0 ≤ e) (hsim : ∀ c c', 0 < entry tc a c → 0 < entry tc b c' → e ≤ entry sc c c') :
    ∃ u s, computeTokenVectors tc so .addition norm = .ok u ∧ computeCosine u = .ok s ∧ e ≤ entry s a b := by
  obtain ⟨u, h1, hu, _, h2, h3, h4⟩ := C36_addition htc hso hl hr hset hno
  have hcols : so.cols ≠ [] := by
    obtain ⟨c, f, _, h⟩ := na
    rintro h0
    exact h (entry_col_absent _ (by rw [h0]; simp))
  obtain ⟨s, s1, _, _, _, s3, _, s5⟩ := C63_cosine hu (by rw [h2]; exact List.ne_nil_of_mem ha) (by rw [h3]; exact hcols)
  refine ⟨u, s, h1, s1, ?_⟩
  have mem : ∀ t c, 0 < entry tc t c → c ∈ so.rows := by
    intro t c hp
    rw [← hset]
    by_contra hc
    rw [entry_col_absent _ hc] at hp
    exact lt_irrefl _ hp
  obtain ⟨z, hz1, _, _, _, hz3, hz4, _⟩ := C63_cosine hso (by
    obtain ⟨c, f, hp, _⟩ := na
    exact List.ne_nil_of_mem (mem a c hp)) hcols
  rw [hsc] at hz1; cases hz1
  -- the vectors as weighted sums
  have vec : ∀ t ∈ tc.rows, ∃ k > 0, ∀ f ∈ so.cols, entry u t f = (tc.cols.map (fun c => k * entry tc t c * entry so c f)).sum := by
    intro t ht
    obtain ⟨k, hk, hs⟩ := scaled_times norm (so.cols.map (raw tc so t))
    refine ⟨k, hk, fun f hf => ?_⟩
    rw [h4 t ht f hf, hs, raw, ← List.sum_map_mul_left]
    simp only [mul_assoc]
  obtain ⟨ka, pa, va⟩ := vec a ha
  obtain ⟨kb, pb, vb⟩ := vec b hb
  -- the scalar products of the vectors
  have dots : ∀ t t' k k', (∀ f ∈ so.cols, entry u t f = (tc.cols.map (fun c => k * entry tc t c * entry so c f)).sum) →
      (∀ f ∈ so.cols, entry u t' f = (tc.cols.map (fun c => k' * entry tc t' c * entry so c f)).sum) →
      namedDot u t t' = (tc.cols.map (fun c => k * entry tc t c * (tc.cols.map (fun c' => k' * entry tc t' c' * namedDot so c c')).sum)).sum := by
    intro t t' k k' ht ht'
    unfold namedDot
    rw [h3, List.map_congr_left (g := fun f => (tc.cols.map (fun c => k * entry tc t c * entry so c f)).sum *
      (tc.cols.map (fun c => k' * entry tc t' c * entry so c f)).sum) (fun f hf => by rw [ht f hf, ht' f hf])]
    exact combo_dot_two so.cols tc.cols (fun c => k * entry tc t c) (fun c => k' * entry tc t' c) (fun c f => entry so c f)
  have wpos : ∀ t k, 0 < k → (∀ c, 0 ≤ entry tc t c) → ∀ c, 0 ≤ k * entry tc t c := fun t k hk hw c => mul_nonneg hk.le (hw c)
  have wgt : ∀ {t : κ} {k : ℝ} {c : κ}, 0 < k → 0 < k * entry tc t c → 0 < entry tc t c := fun hk h => (mul_pos_iff_of_pos_left hk).1 h
  let n : κ → ℝ := fun c => Real.sqrt (namedDot so c c)
  let A := (tc.cols.map (fun c => ka * entry tc a c * n c)).sum
  let B := (tc.cols.map (fun c => kb * entry tc b c * n c)).sum
  have hAB : e * (A * B) ≤ namedDot u a b := by
    rw [dots a b ka kb va vb, ← weighted_two tc.cols (fun c => ka * entry tc a c) (fun c => kb * entry tc b c) n e]
    refine weighted_le _ _ _ _ (wpos a ka pa wa) fun c _ hc => weighted_le _ _ _ _ (wpos b kb pb wb) fun c' _ hc' => ?_
    have hc := wgt pa hc
    have hc' := wgt pb hc'
    rw [dot_of_cosine hso hsc hcols (mem a c hc) (mem b c' hc')]
    exact mul_le_mul_of_nonneg_right (hsim c c' hc hc') (mul_nonneg (Real.sqrt_nonneg _) (Real.sqrt_nonneg _))
  have self : ∀ t k, 0 < k → (∀ c, 0 ≤ entry tc t c) →
      (∀ f ∈ so.cols, entry u t f = (tc.cols.map (fun c => k * entry tc t c * entry so c f)).sum) →
      namedDot u t t ≤ (tc.cols.map (fun c => k * entry tc t c * n c)).sum * (tc.cols.map (fun c => k * entry tc t c * n c)).sum := by
    intro t k hk hw ht
    rw [dots t t k k ht ht, ← one_mul (_ * _), ← weighted_two tc.cols (fun c => k * entry tc t c) (fun c => k * entry tc t c) n 1]
    refine weighted_le _ _ _ _ (wpos t k hk hw) fun c _ hc => weighted_le _ _ _ _ (wpos t k hk hw) fun c' _ hc' => ?_
    rw [dot_of_cosine hso hsc hcols (mem t c (wgt hk hc)) (mem t c' (wgt hk hc'))]
    exact mul_le_mul_of_nonneg_right (hz4 c c').2 (mul_nonneg (Real.sqrt_nonneg _) (Real.sqrt_nonneg _))
  have posSum : ∀ t k, 0 < k → (∀ c, 0 ≤ entry tc t c) → Telling tc so t → 0 < (tc.cols.map (fun c => k * entry tc t c * n c)).sum := by
    intro t k hk hw hn
    obtain ⟨c, f, hp, hf⟩ := hn
    rw [sum_pos_iff _ _ (fun c _ => mul_nonneg (mul_nonneg hk.le (hw c)) (Real.sqrt_nonneg _))]
    refine ⟨c, (hset c).2 (mem t c hp), mul_pos (mul_pos hk hp) (Real.sqrt_pos.2 ?_)⟩
    refine lt_of_le_of_ne (self_dot_nonneg so c) fun h0 => hf ?_
    by_cases hfc : f ∈ so.cols
    · have hle := List.single_le_sum (l := so.cols.map (fun f => entry so c f * entry so c f))
        (by intro x hx; obtain ⟨g, _, rfl⟩ := List.mem_map.1 hx; exact mul_self_nonneg _) _ (List.mem_map.2 ⟨f, hfc, rfl⟩)
      have h0' : (so.cols.map (fun f => entry so c f * entry so c f)).sum = 0 := h0.symm
      rw [h0'] at hle
      exact mul_self_eq_zero.1 (le_antisymm hle (mul_self_nonneg _))
    · exact entry_col_absent _ hfc
  have hA : 0 < A := posSum a ka pa wa na
  have hB : 0 < B := posSum b kb pb wb nb
  have e1 : e ≤ 1 := by
    obtain ⟨c, _, hp, _⟩ := na
    obtain ⟨c', _, hp', _⟩ := nb
    exact (hsim c c' hp hp').trans (hz4 c c').2
  by_cases hab : a = b
  · subst hab
    rw [s3 a (by rw [h2]; exact ha)]
    exact e1
  have k5 := s5 a (by rw [h2]; exact ha) b (by rw [h2]; exact hb) hab
  by_cases hz : namedDot u a a = 0 ∨ namedDot u b b = 0
  · rw [k5.1 hz]
    have h0 : namedDot u a b = 0 := by
      rcases hz with hz | hz
      · exact (self_dot_zero hz b).1
      · exact (self_dot_zero hz a).2
    rw [h0] at hAB
    by_contra hc
    push Not at hc
    have := mul_pos hc (mul_pos hA hB)
    linarith
  · push Not at hz
    rw [k5.2 hz.1 hz.2]
    have p1 : 0 < Real.sqrt (namedDot u a a) := Real.sqrt_pos.2 (lt_of_le_of_ne (self_dot_nonneg u a) (Ne.symm hz.1))
    have p2 : 0 < Real.sqrt (namedDot u b b) := Real.sqrt_pos.2 (lt_of_le_of_ne (self_dot_nonneg u b) (Ne.symm hz.2))
    rw [le_div_iff₀ (mul_pos p1 p2)]
    have q1 : Real.sqrt (namedDot u a a) ≤ A := by
      rw [← Real.sqrt_mul_self hA.le]
      exact Real.sqrt_le_sqrt (self a ka pa wa va)
    have q2 : Real.sqrt (namedDot u b b) ≤ B := by
      rw [← Real.sqrt_mul_self hB.le]
      exact Real.sqrt_le_sqrt (self b kb pb wb vb)
    exact (mul_le_mul_of_nonneg_left (mul_le_mul q1 q2 p2.le hA.le) he).trans hAB

/-! ### A concrete case, and why there is no upper bound -/

/-- Token 11 has the contexts 1 and 2, token 12 the context 3. -/
noncomputable def kinTc : Mtx Nat ℝ := ⟨.sp ⟨.csr, 2, 3, [((0, 0), 1), ((0, 1), 1), ((1, 2), 1)]⟩, [11, 12], [1, 2, 3]⟩
/-- Context 1 has the feature 5, context 2 the feature 6, context 3 both. -/
noncomputable def kinSo : Mtx Nat ℝ := ⟨.sp ⟨.csr, 3, 2, [((0, 0), 1), ((1, 1), 1), ((2, 0), 1), ((2, 1), 1)]⟩, [1, 2, 3], [5, 6]⟩

theorem kinTc_valid : Valid kinTc := by
  refine ⟨rfl, rfl, by simp [kinTc], by simp [kinTc], ?_⟩
  intro s hs; cases hs; exact ⟨by unfold Dict.WF; decide, by decide⟩

theorem kinSo_valid : Valid kinSo := by
  refine ⟨rfl, rfl, by simp [kinSo], by simp [kinSo], ?_⟩
  intro s hs; cases hs; exact ⟨by unfold Dict.WF; decide, by decide⟩

theorem kinTc_entries : entry kinTc 11 1 = 1 ∧ entry kinTc 11 2 = 1 ∧ entry kinTc 11 3 = 0 ∧ entry kinTc 12 1 = 0 ∧ entry kinTc 12 2 = 0 ∧
    entry kinTc 12 3 = 1 := by
  have h : ∀ (i j t c : Nat), kinTc.rows[i]? = some t → kinTc.cols[j]? = some c → entry kinTc t c = kinTc.body.val i j :=
    fun i j t c hi hj => entry_of kinTc_valid.rows kinTc_valid.cols hi hj
  rw [h 0 0 11 1 rfl rfl, h 0 1 11 2 rfl rfl, h 0 2 11 3 rfl rfl, h 1 0 12 1 rfl rfl, h 1 1 12 2 rfl rfl, h 1 2 12 3 rfl rfl]
  simp [kinTc, Body.val, Sp.val, Sp.stored, Dict.get?_cons]

theorem kinSo_entries : entry kinSo 1 5 = 1 ∧ entry kinSo 1 6 = 0 ∧ entry kinSo 2 5 = 0 ∧ entry kinSo 2 6 = 1 ∧ entry kinSo 3 5 = 1 ∧
    entry kinSo 3 6 = 1 := by
  have h : ∀ (i j c f : Nat), kinSo.rows[i]? = some c → kinSo.cols[j]? = some f → entry kinSo c f = kinSo.body.val i j :=
    fun i j c f hi hj => entry_of kinSo_valid.rows kinSo_valid.cols hi hj
  rw [h 0 0 1 5 rfl rfl, h 0 1 1 6 rfl rfl, h 1 0 2 5 rfl rfl, h 1 1 2 6 rfl rfl, h 2 0 3 5 rfl rfl, h 2 1 3 6 rfl rfl]
  simp [kinSo, Body.val, Sp.val, Sp.stored, Dict.get?_cons]

theorem kinSo_similar : ∃ sc, computeCosine kinSo = .ok sc ∧ entry sc 1 3 = 1 / Real.sqrt 2 ∧ entry sc 2 3 = 1 / Real.sqrt 2 := by
  obtain ⟨sc, h1, _, _, _, _, _, h5⟩ := C63_cosine kinSo_valid (by simp [kinSo]) (by simp [kinSo])
  obtain ⟨a, b, c, d, e, f⟩ := kinSo_entries
  have n : ∀ x y, namedDot kinSo x y = entry kinSo x 5 * entry kinSo y 5 + entry kinSo x 6 * entry kinSo y 6 := by
    intro x y; simp [namedDot, kinSo]
  have d1 : namedDot kinSo 1 1 = 1 := by rw [n, a, b]; norm_num
  have d2 : namedDot kinSo 2 2 = 1 := by rw [n, c, d]; norm_num
  have d3 : namedDot kinSo 3 3 = 2 := by rw [n, e, f]; norm_num
  have d4 : namedDot kinSo 1 3 = 1 := by rw [n, a, b, e, f]; norm_num
  have d5 : namedDot kinSo 2 3 = 1 := by rw [n, c, d, e, f]; norm_num
  refine ⟨sc, h1, ?_, ?_⟩
  · rw [(h5 1 (by simp [kinSo]) 3 (by simp [kinSo]) (by simp)).2 (by rw [d1]; norm_num) (by rw [d3]; norm_num), d1, d3, d4, Real.sqrt_one, one_mul]
  · rw [(h5 2 (by simp [kinSo]) 3 (by simp [kinSo]) (by simp)).2 (by rw [d2]; norm_num) (by rw [d3]; norm_num), d2, d3, d5, Real.sqrt_one, one_mul]

/-- **C252**, no upper bound: the similarity of two tokens can be higher than that of any of their contexts; here it is 1, and that of each
context of the one to the context of the other is `1 / sqrt 2`. -/
theorem C252_above : ∃ (tc so sc u s : Mtx Nat ℝ), Valid tc ∧ Valid so ∧ computeCosine so = .ok sc ∧
    (∀ c c', 0 < entry tc 11 c → 0 < entry tc 12 c' → entry sc c c' = 1 / Real.sqrt 2) ∧
    computeTokenVectors tc so .addition .no = .ok u ∧ computeCosine u = .ok s ∧ entry s 11 12 = 1 ∧ 1 / Real.sqrt 2 < 1 := by
  obtain ⟨sc, h1, h2, h3⟩ := kinSo_similar
  obtain ⟨p1, p2, p3, p4, p5, p6⟩ := kinTc_entries
  obtain ⟨a, b, c, d, e, f⟩ := kinSo_entries
  obtain ⟨u, k1, hu, _, k2, k3, _⟩ := C36_addition kinTc_valid kinSo_valid ⟨_, rfl, rfl⟩ ⟨_, rfl, rfl⟩ (by simp [kinTc, kinSo]) (norm := .no) (by simp)
  obtain ⟨u', q1, q2⟩ := C36_addition_raw kinTc_valid kinSo_valid ⟨_, rfl, rfl⟩ ⟨_, rfl, rfl⟩ (by simp [kinTc, kinSo])
  rw [k1] at q1; cases q1
  have v1 : ∀ g, entry u 11 g = entry kinSo 1 g + entry kinSo 2 g := by
    intro g
    rw [q2, show kinTc.cols = [1, 2, 3] from rfl]
    simp [p1, p2, p3]
  have v2 : ∀ g, entry u 12 g = entry kinSo 3 g := by
    intro g
    rw [q2, show kinTc.cols = [1, 2, 3] from rfl]
    simp [p4, p5, p6]
  have same : ∀ g, entry u 11 g = 1 * entry u 12 g := by
    intro g
    rw [v1, v2, one_mul]
    by_cases g5 : g = 5
    · subst g5; rw [a, c, e]; norm_num
    · by_cases g6 : g = 6
      · subst g6; rw [b, d, f]; norm_num
      · have hg : g ∉ kinSo.cols := by simp [kinSo, g5, g6]
        rw [entry_col_absent _ hg, entry_col_absent _ hg, entry_col_absent _ hg, add_zero]
  obtain ⟨s, _, s1, _, s2, _⟩ := C227_one hu (a := 11) (b := 12) (by rw [k2]; simp [kinTc]) (by rw [k2]; simp [kinTc]) (by simp)
    ⟨5, by rw [v1, a, c]; norm_num⟩ ⟨5, by rw [v2, e]; norm_num⟩
  refine ⟨kinTc, kinSo, sc, u, s, kinTc_valid, kinSo_valid, h1, ?_, k1, s1, s2.2 ⟨1, one_pos, same⟩, ?_⟩
  · intro x y hx hy
    have hx' : x ∈ kinTc.cols := by by_contra h; rw [entry_col_absent _ h] at hx; exact lt_irrefl _ hx
    have hy' : y ∈ kinTc.cols := by by_contra h; rw [entry_col_absent _ h] at hy; exact lt_irrefl _ hy
    simp only [kinTc, List.mem_cons, List.not_mem_nil, or_false] at hx' hy'
    have hy3 : y = 3 := by
      rcases hy' with rfl | rfl | rfl
      · rw [p4] at hy; exact absurd hy (lt_irrefl _)
      · rw [p5] at hy; exact absurd hy (lt_irrefl _)
      · rfl
    subst hy3
    rcases hx' with rfl | rfl | rfl
    · exact h2
    · exact h3
    · rw [p3] at hx; exact absurd hx (lt_irrefl _)
  · rw [div_lt_one (Real.sqrt_pos.2 (by norm_num))]
    exact Real.lt_sqrt_of_sq_lt (by norm_num)

/-- The same matrices meet the hypotheses of `C252_contexts`. -/
example : ∃ u s, computeTokenVectors kinTc kinSo .addition .l2 = .ok u ∧ computeCosine u = .ok s ∧ 1 / Real.sqrt 2 ≤ entry s 11 12 := by
  obtain ⟨sc, h1, h2, h3⟩ := kinSo_similar
  obtain ⟨p1, p2, p3, p4, p5, p6⟩ := kinTc_entries
  obtain ⟨a, b, c, d, e, f⟩ := kinSo_entries
  have nn : ∀ t c, 0 ≤ entry kinTc t c := entry_nonneg_of rfl (by simp)
  refine C252_contexts kinTc_valid kinSo_valid ⟨_, rfl, rfl⟩ ⟨_, rfl, rfl⟩ (by simp [kinTc, kinSo]) (by simp) h1 (by simp [kinTc]) (by simp [kinTc])
    (nn 11) (nn 12) ⟨1, 5, by rw [p1]; norm_num, by rw [a]; norm_num⟩ ⟨3, 5, by rw [p6]; norm_num, by rw [e]; norm_num⟩ (by positivity) ?_
  intro x y hx hy
  have hx' : x ∈ kinTc.cols := by by_contra h; rw [entry_col_absent _ h] at hx; exact lt_irrefl _ hx
  have hy' : y ∈ kinTc.cols := by by_contra h; rw [entry_col_absent _ h] at hy; exact lt_irrefl _ hy
  simp only [kinTc, List.mem_cons, List.not_mem_nil, or_false] at hx' hy'
  have hy3 : y = 3 := by
    rcases hy' with rfl | rfl | rfl
    · rw [p4] at hy; exact absurd hy (lt_irrefl _)
    · rw [p5] at hy; exact absurd hy (lt_irrefl _)
    · rfl
  subst hy3
  rcases hx' with rfl | rfl | rfl
  · exact h2.ge
  · exact h3.ge
  · rw [p3] at hx; exact absurd hx (lt_irrefl _)

end Verif.Assoc
