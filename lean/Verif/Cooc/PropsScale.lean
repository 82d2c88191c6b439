import Verif.Assoc.PropsVecLaws
import Verif.Cooc.PropsRepeat

/-! # Property theorems C219 (similarities and distances under a change of scale) -/

set_option linter.unusedSectionVars false

namespace Verif.Assoc
open Verif.Py Verif.Matrix

variable {κ : Type} [LinearOrder κ]

/-! ### Lemmas -/

/-- Sums over the columns of two matrices whose values at two rows are multiples of each other. -/
theorem sum_scaled {m n : Mtx κ ℝ} (hm : Valid m) (hn : Valid n) (g : ℝ → ℝ → ℝ) (hg : g 0 0 = 0) {p q r : ℝ}
    (hs : ∀ x y, g (p * x) (q * y) = r * g x y) {a b : κ}
    (ea : ∀ c, entry n a c = p * entry m a c) (eb : ∀ c, entry n b c = q * entry m b c) :
    (n.cols.map (fun c => g (entry n a c) (entry n b c))).sum = r * (m.cols.map (fun c => g (entry m a c) (entry m b c))).sum := by
  rw [← List.sum_map_mul_left]
  rw [show (fun c => r * g (entry m a c) (entry m b c)) = fun c => g (entry n a c) (entry n b c) from
    funext fun c => by rw [ea, eb, hs]]
  refine sum_support hn.cols hm.cols _ (fun c h => ?_) (fun c h => ?_)
  · rw [entry_col_absent _ h, entry_col_absent _ h, hg]
  · rw [ea, eb, entry_col_absent _ h, entry_col_absent _ h, mul_zero, mul_zero, hg]

theorem namedDot_scaled {m n : Mtx κ ℝ} (hm : Valid m) (hn : Valid n) {p q : ℝ} {a b : κ}
    (ea : ∀ c, entry n a c = p * entry m a c) (eb : ∀ c, entry n b c = q * entry m b c) :
    namedDot n a b = p * q * namedDot m a b :=
  sum_scaled hm hn (fun x y => x * y) (mul_zero 0) (fun x y => by ring) ea eb

/-! ## C219 -/

/-- **C219**, cosine: multiplying the vectors of two items by positive numbers, not necessarily the same one, changes neither their
cosine similarity nor their cosine distance. -/
theorem C219_cosine {m n : Mtx κ ℝ} (hm : Valid m) (hn : Valid n) (hc : m.cols ≠ []) (hc' : n.cols ≠ []) {a b : κ}
    (ha : a ∈ m.rows) (hb : b ∈ m.rows) (ha' : a ∈ n.rows) (hb' : b ∈ n.rows) {p q : ℝ} (hp : 0 < p) (hq : 0 < q)
    (ea : ∀ c, entry n a c = p * entry m a c) (eb : ∀ c, entry n b c = q * entry m b c) :
    (∃ u v, computeCosine m = .ok u ∧ computeCosine n = .ok v ∧ entry v a b = entry u a b) ∧
    ∃ u v, computeDistance m 0 "cosine" = .ok u ∧ computeDistance n 0 "cosine" = .ok v ∧ entry v a b = entry u a b := by
  have hr : m.rows ≠ [] := List.ne_nil_of_mem ha
  have hr' : n.rows ≠ [] := List.ne_nil_of_mem ha'
  obtain ⟨u, h1, _, _, _, h4, _, h5⟩ := C63_cosine hm hr hc
  obtain ⟨v, k1, _, _, _, k4, _, k5⟩ := C63_cosine hn hr' hc'
  have hcos : entry v a b = entry u a b := by
    by_cases hab : a = b
    · subst hab; rw [h4 a ha, k4 a ha']
    · have x := h5 a ha b hb hab
      have y := k5 a ha' b hb' hab
      rw [namedDot_scaled hm hn ea ea, namedDot_scaled hm hn eb eb, namedDot_scaled hm hn ea eb] at y
      by_cases h0 : namedDot m a a = 0 ∨ namedDot m b b = 0
      · rw [x.1 h0, y.1 (h0.imp (fun h => by rw [h, mul_zero]) (fun h => by rw [h, mul_zero]))]
      · push Not at h0
        rw [x.2 h0.1 h0.2, y.2 (mul_ne_zero (mul_pos hp hp).ne' h0.1) (mul_ne_zero (mul_pos hq hq).ne' h0.2)]
        rw [Real.sqrt_mul (mul_pos hp hp).le, Real.sqrt_mul (mul_pos hq hq).le, Real.sqrt_mul_self hp.le, Real.sqrt_mul_self hq.le]
        rw [show p * Real.sqrt (namedDot m a a) * (q * Real.sqrt (namedDot m b b))
          = (p * q) * (Real.sqrt (namedDot m a a) * Real.sqrt (namedDot m b b)) by ring]
        exact mul_div_mul_left _ _ (mul_pos hp hq).ne'
  refine ⟨⟨u, v, h1, k1, hcos⟩, ?_⟩
  obtain ⟨x, x1, _⟩ := C122_cosine hm hr hc
  obtain ⟨y, y1, _⟩ := C122_cosine hn hr' hc'
  refine ⟨x, y, x1, y1, ?_⟩
  rw [C122_similarity hm hr hc x1 h1 a ha b hb, C122_similarity hn hr' hc' y1 k1 a ha' b hb', hcos]

/-- **C219**, other distances: multiplying the vectors of two items by one number of whatever sign multiplies their Euclidean and
their Manhattan distance by its absolute value. -/
theorem C219_distance {m n : Mtx κ ℝ} (hm : Valid m) (hn : Valid n) (hc : m.cols ≠ []) (hc' : n.cols ≠ []) {a b : κ}
    (ha : a ∈ m.rows) (hb : b ∈ m.rows) (ha' : a ∈ n.rows) (hb' : b ∈ n.rows) {p : ℝ}
    (ea : ∀ c, entry n a c = p * entry m a c) (eb : ∀ c, entry n b c = p * entry m b c) {metric : String}
    (hmet : metric ∈ ["euclidean", "cityblock", "manhattan", "l1", "l2"]) :
    ∃ u v, computeDistance m 0 metric = .ok u ∧ computeDistance n 0 metric = .ok v ∧ entry v a b = |p| * entry u a b := by
  have hr : m.rows ≠ [] := List.ne_nil_of_mem ha
  have hr' : n.rows ≠ [] := List.ne_nil_of_mem ha'
  simp only [List.mem_cons, List.not_mem_nil, or_false] at hmet
  by_cases he : metric = "euclidean" ∨ metric = "l2"
  · obtain ⟨x, x1, _, _, _, x5⟩ := C122_euclidean hm hr hc he
    obtain ⟨y, y1, _, _, _, y5⟩ := C122_euclidean hn hr' hc' he
    refine ⟨x, y, x1, y1, ?_⟩
    rw [x5 a ha b hb, y5 a ha' b hb']
    unfold namedL2
    rw [sum_scaled hm hn (fun x y => (x - y) ^ 2) (by norm_num) (r := p ^ 2) (fun x y => by ring) ea eb,
      Real.sqrt_mul (sq_nonneg p), Real.sqrt_sq_eq_abs]
  · have hl : metric = "cityblock" ∨ metric = "manhattan" ∨ metric = "l1" := by tauto
    obtain ⟨x, x1, _, _, _, x5⟩ := C122_manhattan hm hr hc hl
    obtain ⟨y, y1, _, _, _, y5⟩ := C122_manhattan hn hr' hc' hl
    refine ⟨x, y, x1, y1, ?_⟩
    rw [x5 a ha b hb, y5 a ha' b hb']
    exact sum_scaled hm hn (fun x y => |x - y|) (by norm_num) (r := |p|) (fun x y => by rw [← mul_sub, abs_mul]) ea eb

/-- Another scale for each row of `corner`. -/
noncomputable def scaledCorner : Mtx Nat ℝ :=
  ⟨.dn ⟨3, 2, fun i j => (i + 2) * if (i = 0 ∧ j = 1) ∨ (i = 2 ∧ j = 0) then 0 else 1⟩, [10, 20, 30], [1, 2]⟩

/-- Non-vacuity: the rows of `scaledCorner` are twice and three times those of `corner`. -/
example : Valid corner ∧ Valid scaledCorner ∧ corner.cols ≠ [] ∧ scaledCorner.cols ≠ [] ∧ 10 ∈ scaledCorner.rows ∧ 20 ∈ scaledCorner.rows ∧
    (∀ c, entry scaledCorner 10 c = 2 * entry corner 10 c) ∧ ∀ c, entry scaledCorner 20 c = 3 * entry corner 20 c := by
  refine ⟨corner_valid, ⟨rfl, rfl, by decide, by decide, by intro s hs; cases hs⟩, by decide, by decide, by decide, by decide, ?_, ?_⟩
  all_goals
    intro c
    by_cases hc : c ∈ corner.cols
    · have hc : c = 1 ∨ c = 2 := by simpa [corner] using hc
      rcases hc with rfl | rfl <;> simp [entry, corner, scaledCorner, List.idxOf?, List.findIdx?, List.findIdx?.go, Body.val] <;> norm_num
    · rw [entry_col_absent _ hc, entry_col_absent _ (show c ∉ scaledCorner.cols from hc), mul_zero]

end Verif.Assoc

namespace Verif.Cooc
open Verif.Py Verif.Vocab Verif.Corpus Verif.Window Verif.Engine Verif.Matrix

variable {ℓ μ ℓ' μ' κ : Type} [LinearOrder κ]

/-- The values of a matrix of counts as real numbers. -/
theorem entry_toReal {m : Mtx κ Int} {s : Sp Int} (hb : m.body = .sp s) (t c : κ) : entry (toReal m) t c = ((entry m t c : Int) : ℝ) := by
  have hbody : (toReal m).body = .sp (spReal s) := by unfold toReal; rw [hb]
  rw [entry_eq_stored hbody, entry_eq_stored hb, storedEntry_toReal hb]
  cases storedEntry m t c <;> simp

/-- **C219**, corpora: where every sentence of one corpus stands `N` times in another, the cosine similarities and distances of the
counts of any two types are the same, and Euclidean and Manhattan distances are multiplied by `N`. -/
theorem C219_corpus {f : Formatter ℓ μ κ} {g : Formatter ℓ' μ' κ} {L R : Nat} {rowv colv : Vocab κ} (hrw : Constructed rowv) (hc : Constructed colv)
    {N : Nat} (hN : N ≠ 0) {a : List (List ℓ)} {b : List (List ℓ')} (hab : (sentencesOf g b).Perm (List.replicate N (sentencesOf f a)).flatten)
    {m n : Mtx κ Int} (ha : Returns f L R rowv colv a (some m)) (hb : Returns g L R rowv colv b (some n)) {x y : κ} (hx : x ∈ m.rows)
    (hy : y ∈ m.rows) :
    (∃ u v, Assoc.computeCosine (toReal m) = .ok u ∧ Assoc.computeCosine (toReal n) = .ok v ∧ entry v x y = entry u x y) ∧
    (∃ u v, Assoc.computeDistance (toReal m) 0 "cosine" = .ok u ∧ Assoc.computeDistance (toReal n) 0 "cosine" = .ok v ∧ entry v x y = entry u x y) ∧
    ∀ metric, metric ∈ ["euclidean", "cityblock", "manhattan", "l1", "l2"] →
      ∃ u v, Assoc.computeDistance (toReal m) 0 metric = .ok u ∧ Assoc.computeDistance (toReal n) 0 metric = .ok v ∧
        entry v x y = N * entry u x y := by
  obtain ⟨ka, t, c, htc⟩ := ha.isResult hrw hc
  have kb := (hb.isResult hrw hc).1
  rcases C217_counts hrw hc hN hab ha hb with ⟨h, -⟩ | ⟨m', n', hm', hn', hrows, hcols, hent⟩
  · cases h
  cases hm'; cases hn'
  obtain ⟨sm, hsm, -⟩ := ka.csr
  obtain ⟨sn, hsn, -⟩ := kb.csr
  have hN' : (0 : ℝ) < N := by exact_mod_cast Nat.pos_of_ne_zero hN
  have hcm : (toReal m).cols ≠ [] := fun h => by
    have := ka.entry t c
    rw [entry_col_absent t (show c ∉ m.cols by rw [show m.cols = [] from h]; simp)] at this
    omega
  have hcn : (toReal n).cols ≠ [] := fun h => hcm (hcols.symm.trans h)
  have e : ∀ z c, entry (toReal n) z c = N * entry (toReal m) z c := fun z c => by
    rw [entry_toReal hsn, entry_toReal hsm, hent]
    push_cast
    rfl
  have hx' : x ∈ (toReal n).rows := by show x ∈ n.rows; rw [hrows]; exact hx
  have hy' : y ∈ (toReal n).rows := by show y ∈ n.rows; rw [hrows]; exact hy
  have vm := valid_toReal ka.valid hsm
  have vn := valid_toReal kb.valid hsn
  obtain ⟨h1, h2⟩ := Assoc.C219_cosine vm vn hcm hcn (show x ∈ (toReal m).rows from hx) (show y ∈ (toReal m).rows from hy) hx' hy' hN' hN'
    (e x) (e y)
  refine ⟨h1, h2, fun metric hmet => ?_⟩
  obtain ⟨u, v, p1, p2, p3⟩ := Assoc.C219_distance vm vn hcm hcn (show x ∈ (toReal m).rows from hx) (show y ∈ (toReal m).rows from hy) hx' hy'
    (e x) (e y) hmet
  refine ⟨u, v, p1, p2, ?_⟩
  rw [p3, abs_of_pos hN']

end Verif.Cooc
