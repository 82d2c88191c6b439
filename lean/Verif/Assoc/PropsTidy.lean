import Verif.Matrix.PropsLaws
import Verif.Assoc.PropsVecLaws

/-! # Property theorems C229 (empty rows and columns) and C230 (rows and columns with few values) -/

set_option linter.unusedSectionVars false

namespace Verif.Assoc
open Verif.Py Verif.Matrix

variable {κ ν : Type} [LinearOrder κ]

/-! ## C229 -/

/-- **C229**: of a compressed matrix with a value, empty rows and empty columns can be dropped in either order, with the same result: the
rows and columns with a value, in their order, with all values; nothing empty is left. -/
theorem C229_order [Zero ν] [DecidableEq ν] [AllClose ν] {m : Mtx κ ν} (hm : Valid m) (hc : IsCompressed m) (hne : ∃ r c, entry m r c ≠ 0) :
    ∃ a b c d, dropEmpty m false = .ok (some a) ∧ dropEmpty a true = .ok (some b) ∧ dropEmpty m true = .ok (some c) ∧
      dropEmpty c false = .ok (some d) ∧ SameNamed b d ∧ (∀ x y, entry b x y = entry m x y) ∧
      (∀ x, x ∈ b.rows ↔ x ∈ m.rows ∧ ∃ y, entry m x y ≠ 0) ∧ (∀ y, y ∈ b.cols ↔ y ∈ m.cols ∧ ∃ x, entry m x y ≠ 0) ∧
      b.rows.Sublist m.rows ∧ b.cols.Sublist m.cols ∧
      (∀ x ∈ b.rows, ∃ y ∈ b.cols, entry b x y ≠ 0) ∧ (∀ y ∈ b.cols, ∃ x ∈ b.rows, entry b x y ≠ 0) := by
  classical
  obtain ⟨a, a1, a2, a3, a4, a5, a6⟩ := (C26_drop_empty_rows_partial hm hc).1 hne
  have nea : ∃ r c, entry a r c ≠ 0 := by obtain ⟨r, c, h⟩ := hne; exact ⟨r, c, by rw [a6]; exact h⟩
  obtain ⟨b, b1, b2, b3, b4, b5, b6⟩ := (C26_drop_empty_cols_partial a2 a3).1 nea
  obtain ⟨c, c1, c2, c3, c4, c5, c6⟩ := (C26_drop_empty_cols_partial hm hc).1 hne
  have nec : ∃ x y, entry c x y ≠ 0 := by obtain ⟨r, y, h⟩ := hne; exact ⟨r, y, by rw [c6]; exact h⟩
  obtain ⟨d, d1, d2, d3, d4, d5, d6⟩ := (C26_drop_empty_rows_partial c2 c3).1 nec
  have hbr : b.rows = nonEmptyRows m := by rw [b4, a4]
  have hbc : b.cols = nonEmptyCols m := by
    rw [b5]; unfold nonEmptyCols; rw [a5]; simp only [a6]
  have hdr : d.rows = nonEmptyRows m := by
    rw [d4]; unfold nonEmptyRows; rw [c4]; simp only [c6]
  have hdc : d.cols = nonEmptyCols m := by rw [d5, c5]
  have mr : ∀ x, x ∈ b.rows ↔ x ∈ m.rows ∧ ∃ y, entry m x y ≠ 0 := by
    intro x; rw [hbr]; unfold nonEmptyRows; rw [List.mem_filter]; simp
  have mc : ∀ y, y ∈ b.cols ↔ y ∈ m.cols ∧ ∃ x, entry m x y ≠ 0 := by
    intro y; rw [hbc]; unfold nonEmptyCols; rw [List.mem_filter]; simp
  have he : ∀ x y, entry b x y = entry m x y := fun x y => by rw [b6, a6]
  have inrow : ∀ x y, entry m x y ≠ 0 → x ∈ m.rows := fun x y h => by
    by_contra hx; exact h (entry_row_absent hx y)
  have incol : ∀ x y, entry m x y ≠ 0 → y ∈ m.cols := fun x y h => by
    by_contra hy; exact h (entry_col_absent x hy)
  refine ⟨a, b, c, d, a1, b1, c1, d1, ⟨hbr.trans hdr.symm, hbc.trans hdc.symm, fun x y => by rw [he, d6, c6]⟩, he, mr, mc, ?_, ?_, ?_, ?_⟩
  · rw [hbr]; exact List.filter_sublist
  · rw [hbc]; exact List.filter_sublist
  · intro x hx
    obtain ⟨_, y, hy⟩ := (mr x).1 hx
    exact ⟨y, (mc y).2 ⟨incol x y hy, x, hy⟩, by rw [he]; exact hy⟩
  · intro y hy
    obtain ⟨_, x, hx⟩ := (mc y).1 hy
    exact ⟨x, (mr x).2 ⟨inrow x y hx, y, hx⟩, by rw [he]; exact hx⟩

theorem sum_filter_zero {α ν : Type} [AddCommMonoid ν] (l : List α) (f : α → ν) (p : α → Prop) [DecidablePred p]
    (h : ∀ x ∈ l, ¬ p x → f x = 0) :
    ((l.filter (fun x => decide (p x))).map f).sum = (l.map f).sum := by
  induction l with
  | nil => rfl
  | cons x l ih =>
    have ih := ih (fun y hy => h y (List.mem_cons_of_mem _ hy))
    by_cases hp : p x
    · rw [List.filter_cons_of_pos (by simpa using hp), List.map_cons, List.sum_cons, ih, List.map_cons, List.sum_cons]
    · rw [List.filter_cons_of_neg (by simpa using hp), ih, List.map_cons, List.sum_cons, h x List.mem_cons_self hp, zero_add]

/-- **C229**: dropping the empty columns changes neither the sum of a row nor the sum of all values. -/
theorem C229_sums [AddCommMonoid ν] [DecidableEq ν] [AllClose ν] {m : Mtx κ ν} (hm : Valid m) (hc : IsCompressed m)
    (hne : ∃ r c, entry m r c ≠ 0) :
    ∃ u, dropEmpty m true = .ok (some u) ∧ Matrix.total u = Matrix.total m ∧
      (∀ r, (u.cols.map (fun c => entry u r c)).sum = (m.cols.map (fun c => entry m r c)).sum) := by
  classical
  obtain ⟨u, u1, u2, _, u4, u5, u6⟩ := (C26_drop_empty_cols_partial hm hc).1 hne
  have hs : ∀ r, (u.cols.map (fun c => entry u r c)).sum = (m.cols.map (fun c => entry m r c)).sum := by
    intro r
    rw [u5]
    unfold nonEmptyCols
    simp only [u6]
    refine sum_filter_zero _ _ _ fun c _ h => ?_
    by_contra h0
    exact h ⟨r, h0⟩
  refine ⟨u, u1, ?_, hs⟩
  rw [(C53_total u2).1, (C53_total hm).1, u4]
  exact congrArg _ (List.map_congr_left fun r _ => hs r)

/-- **C229**: dropping the empty columns changes no cosine similarity. -/
theorem C229_cosine {m : Mtx κ ℝ} (hm : Valid m) (hc : IsCompressed m) (hne : ∃ r c, entry m r c ≠ 0) :
    ∃ u s t, dropEmpty m true = .ok (some u) ∧ computeCosine m = .ok s ∧ computeCosine u = .ok t ∧
      ∀ a ∈ m.rows, ∀ b ∈ m.rows, entry t a b = entry s a b := by
  classical
  obtain ⟨u, u1, u2, _, u4, u5, u6⟩ := (C26_drop_empty_cols_partial hm hc).1 hne
  obtain ⟨r, c, hrc⟩ := hne
  have hr : r ∈ m.rows := by by_contra h; exact hrc (entry_row_absent h c)
  have hcc : c ∈ m.cols := by by_contra h; exact hrc (entry_col_absent r h)
  have huc : c ∈ u.cols := by
    rw [u5]; unfold nonEmptyCols; rw [List.mem_filter]; exact ⟨hcc, by simpa using ⟨r, hrc⟩⟩
  have hd : ∀ a b, namedDot u a b = namedDot m a b := by
    intro a b
    unfold namedDot
    rw [u5]
    unfold nonEmptyCols
    simp only [u6]
    refine sum_filter_zero _ _ _ fun c _ h => ?_
    have : entry m a c = 0 := by
      by_contra h0
      exact h ⟨a, h0⟩
    rw [this, zero_mul]
  obtain ⟨s, s1, _, _, _, s3, _, s5⟩ := C63_cosine hm (List.ne_nil_of_mem hr) (List.ne_nil_of_mem hcc)
  obtain ⟨t, t1, _, _, _, t3, _, t5⟩ := C63_cosine u2 (by rw [u4]; exact List.ne_nil_of_mem hr) (List.ne_nil_of_mem huc)
  refine ⟨u, s, t, u1, s1, t1, fun a ha b hb => ?_⟩
  by_cases hab : a = b
  · subst hab
    rw [t3 a (by rw [u4]; exact ha), s3 a ha]
  · have k1 := t5 a (by rw [u4]; exact ha) b (by rw [u4]; exact hb) hab
    have k2 := s5 a ha b hb hab
    rw [hd, hd, hd] at k1
    by_cases hz : namedDot m a a = 0 ∨ namedDot m b b = 0
    · rw [k1.1 hz, k2.1 hz]
    · push Not at hz
      rw [k1.2 hz.1 hz.2, k2.2 hz.1 hz.2]

/-- **C229**: dropping the empty columns changes no distance, with any metric that `compute_distance` knows. -/
theorem C229_distance {m : Mtx κ ℝ} (hm : Valid m) (hc : IsCompressed m) (hne : ∃ r c, entry m r c ≠ 0) {metric : String}
    (hmet : metric ∈ ["cosine", "cityblock", "manhattan", "l1", "euclidean", "l2"]) :
    ∃ u d e, dropEmpty m true = .ok (some u) ∧ computeDistance m 0 metric = .ok d ∧ computeDistance u 0 metric = .ok e ∧
      d.rows = m.rows ∧ e.rows = m.rows ∧ d.cols = m.rows ∧ e.cols = m.rows ∧ ∀ a b, entry e a b = entry d a b := by
  classical
  obtain ⟨u, u1, u2, _, u4, u5, u6⟩ := (C26_drop_empty_cols_partial hm hc).1 hne
  obtain ⟨r, c, hrc⟩ := hne
  have hr : r ∈ m.rows := by by_contra h; exact hrc (entry_row_absent h c)
  have hcc : c ∈ m.cols := by by_contra h; exact hrc (entry_col_absent r h)
  have huc : c ∈ u.cols := by
    rw [u5]; unfold nonEmptyCols; rw [List.mem_filter]; exact ⟨hcc, by simpa using ⟨r, hrc⟩⟩
  have key : ∀ (g : ℝ → ℝ → ℝ), g 0 0 = 0 → ∀ a b,
      (u.cols.map (fun c => g (entry u a c) (entry u b c))).sum = (m.cols.map (fun c => g (entry m a c) (entry m b c))).sum := by
    intro g hg a b
    rw [u5]
    unfold nonEmptyCols
    simp only [u6]
    refine sum_filter_zero _ _ _ fun c _ h => ?_
    have h0 : ∀ x, entry m x c = 0 := fun x => by by_contra h0; exact h ⟨x, h0⟩
    rw [h0, h0, hg]
  have hmr := List.ne_nil_of_mem hr
  have hur : u.rows ≠ [] := by rw [u4]; exact hmr
  have hmc := List.ne_nil_of_mem hcc
  have huc := List.ne_nil_of_mem huc
  have ext : ∀ d e : Mtx κ ℝ, d.rows = m.rows → e.rows = m.rows → d.cols = m.rows → e.cols = m.rows →
      (∀ a ∈ m.rows, ∀ b ∈ m.rows, entry e a b = entry d a b) → ∀ a b, entry e a b = entry d a b := by
    intro d e d1 e1 d2 e2 h a b
    by_cases ha : a ∈ m.rows
    · by_cases hb : b ∈ m.rows
      · exact h a ha b hb
      · rw [entry_col_absent _ (by rw [e2]; exact hb), entry_col_absent _ (by rw [d2]; exact hb)]
    · rw [entry_row_absent (by rw [e1]; exact ha), entry_row_absent (by rw [d1]; exact ha)]
  simp only [List.mem_cons, List.not_mem_nil, or_false] at hmet
  by_cases h0 : metric = "cosine"
  · subst h0
    obtain ⟨d, k1, k2, k3, k4, _, k5⟩ := C122_cosine hm hmr hmc
    obtain ⟨e, q1, q2, q3, q4, _, q5⟩ := C122_cosine u2 hur huc
    rw [u4] at q2 q3 q4 q5
    have hd : ∀ a b, namedDot u a b = namedDot m a b := key (fun x y => x * y) (by simp)
    refine ⟨u, d, e, u1, k1, q1, k2, q2, k3, q3, ext d e k2 q2 k3 q3 fun a ha b hb => ?_⟩
    by_cases hab : a = b
    · subst hab
      rw [q4 a ha, k4 a ha]
    · have x1 := q5 a ha b hb hab
      have x2 := k5 a ha b hb hab
      rw [hd, hd, hd] at x1
      by_cases hz : namedDot m a a = 0 ∨ namedDot m b b = 0
      · rw [x1.1 hz, x2.1 hz]
      · push Not at hz
        rw [x1.2 hz.1 hz.2, x2.2 hz.1 hz.2]
  by_cases h1 : metric = "cityblock" ∨ metric = "manhattan" ∨ metric = "l1"
  · obtain ⟨d, k1, _, k2, k3, k4⟩ := C122_manhattan hm hmr hmc h1
    obtain ⟨e, q1, _, q2, q3, q4⟩ := C122_manhattan u2 hur huc h1
    rw [u4] at q2 q3 q4
    refine ⟨u, d, e, u1, k1, q1, k2, q2, k3, q3, ext d e k2 q2 k3 q3 fun a ha b hb => ?_⟩
    rw [q4 a ha b hb, k4 a ha b hb]
    exact key (fun x y => |x - y|) (by simp) a b
  · have h2 : metric = "euclidean" ∨ metric = "l2" := by tauto
    obtain ⟨d, k1, _, k2, k3, k4⟩ := C122_euclidean hm hmr hmc h2
    obtain ⟨e, q1, _, q2, q3, q4⟩ := C122_euclidean u2 hur huc h2
    rw [u4] at q2 q3 q4
    refine ⟨u, d, e, u1, k1, q1, k2, q2, k3, q3, ext d e k2 q2 k3 q3 fun a ha b hb => ?_⟩
    rw [q4 a ha b hb, k4 a ha b hb]
    exact congrArg Real.sqrt (key (fun x y => (x - y) ^ 2) (by simp) a b)

/-- A matrix with an empty row (2) and an empty column (6). -/
def gaps : Mtx Nat Int := ⟨.sp ⟨.csr, 3, 3, [((0, 0), 3), ((1, 0), 0), ((2, 2), 1)]⟩, [1, 2, 3], [5, 6, 7]⟩

example : Valid gaps ∧ IsCompressed gaps ∧ (∃ r c, entry gaps r c ≠ 0) := by
  refine ⟨⟨rfl, rfl, by decide, by decide, ?_⟩, ⟨_, rfl, by decide⟩, ⟨1, 5, by decide⟩⟩
  intro s hs; cases hs; exact ⟨by decide, by decide⟩

/-! ## C230 -/

section
variable [Zero ν] [DecidableEq ν] [AllClose ν]

/-- The number of values in a row and in a column. -/
def rowValues (m : Mtx κ ν) (r : κ) : Nat := (m.cols.filter (fun c => decide (entry m r c ≠ 0))).length
def colValues (m : Mtx κ ν) (c : κ) : Nat := (m.rows.filter (fun r => decide (entry m r c ≠ 0))).length

/-- The claim: after dropping the rows and then the columns with at most `n` values, every row and every column has more. -/
def C230_claim (m : Mtx κ ν) (n : Int) : Prop :=
  ∀ a b, dropRows m n = .ok (some a) → dropCols a n = .ok (some b) →
    (∀ r ∈ b.rows, n < rowValues b r) ∧ ∀ c ∈ b.cols, n < colValues b c

theorem zipIdx_filterMap_sublist {α : Type} (l : List α) (g : Nat → Prop) [DecidablePred g] : ∀ k : Nat,
    ((l.zipIdx k).filterMap (fun p => if g p.2 then some p.1 else none)).Sublist l := by
  induction l with
  | nil => intro k; exact List.Sublist.refl _
  | cons x l ih =>
    intro k
    rw [List.zipIdx_cons]
    by_cases h : g k
    · rw [List.filterMap_cons_some (b := x) (by simp [h])]
      exact (ih (k + 1)).cons_cons x
    · rw [List.filterMap_cons_none (by simp [h])]
      exact (ih (k + 1)).cons x

theorem dropRows_full {m u : Mtx κ ν} (hm : Valid m) (hc : IsCompressed m) {n : Int} (h : dropRows m n = .ok (some u)) :
    Valid u ∧ IsCompressed u ∧ u.rows = rowsAbove m n ∧ u.cols = m.cols ∧ ∀ r ∈ u.rows, ∀ c, entry u r c = entry m r c := by
  have h1 : m.rows.length ≠ 1 := by
    intro h1
    obtain ⟨s, hb, _⟩ := hc
    rw [(C54_false_single hm hb n).1 h1] at h
    cases h
  have hne : rowsAbove m n ≠ [] := by
    intro h0
    rw [(C54_drop_rows_partial hm hc h1 n).1 h0] at h
    cases h
  obtain ⟨u', k1, k2, k3, _⟩ := (C54_drop_rows_partial hm hc h1 n).2 hne
  rw [h] at k1; cases k1
  obtain ⟨s, hb, hf⟩ := hc
  have hnr := hm.nr
  rw [hb] at hnr
  simp only [Body.nr] at hnr
  unfold dropRows at h
  rw [hb] at h
  simp only at h
  rw [if_neg (by rw [hnr]; exact h1)] at h
  rcases submatrix_spec hm ⟨s, hb, hf⟩ (row := some (m.rows.zipIdx.filterMap (fun p =>
      if ((((List.range s.nc).filter (fun j => decide (s.val p.2 j ≠ 0))).length : Nat) : Int) > n then some p.1 else none)))
      (col := none) (by
        intro l hl
        cases hl
        exact (zipIdx_filterMap_sublist m.rows (fun i => ((((List.range s.nc).filter (fun j => decide (s.val i j ≠ 0))).length : Nat) : Int) > n) 0).nodup hm.rows)
      (by intro l hl; cases hl) with ⟨_, h'⟩ | ⟨_, w, w1, w2, w3, _, w5, w6⟩
  · rw [h'] at h; cases h
  · rw [h] at w1; cases w1
    refine ⟨w2, w3, k2, k3, fun r hr c => ?_⟩
    by_cases hcc : c ∈ u.cols
    · exact w6 r hr c hcc
    · rw [entry_col_absent r hcc, entry_col_absent r (by rw [← k3]; exact hcc)]

theorem dropCols_full {m u : Mtx κ ν} (hm : Valid m) (hc : IsCompressed m) {n : Int} (h : dropCols m n = .ok (some u)) :
    Valid u ∧ IsCompressed u ∧ u.rows = m.rows ∧ u.cols = colsAbove m n ∧ ∀ r, ∀ c ∈ u.cols, entry u r c = entry m r c := by
  have h1 : m.cols.length ≠ 1 := by
    intro h1
    obtain ⟨s, hb, _⟩ := hc
    rw [(C54_false_single hm hb n).2 h1] at h
    cases h
  have hne : colsAbove m n ≠ [] := by
    intro h0
    rw [(C54_drop_cols_partial hm hc h1 n).1 h0] at h
    cases h
  obtain ⟨u', k1, k2, k3, _⟩ := (C54_drop_cols_partial hm hc h1 n).2 hne
  rw [h] at k1; cases k1
  obtain ⟨s, hb, hf⟩ := hc
  have hnc := hm.nc
  rw [hb] at hnc
  simp only [Body.nc] at hnc
  unfold dropCols at h
  rw [hb] at h
  simp only at h
  rw [if_neg (by rw [hnc]; exact h1)] at h
  rcases submatrix_spec hm ⟨s, hb, hf⟩ (row := none) (col := some (m.cols.zipIdx.filterMap (fun p =>
      if ((((List.range s.nr).filter (fun i => decide (s.val i p.2 ≠ 0))).length : Nat) : Int) > n then some p.1 else none)))
      (by intro l hl; cases hl) (by
        intro l hl
        cases hl
        exact (zipIdx_filterMap_sublist m.cols (fun j => ((((List.range s.nr).filter (fun i => decide (s.val i j ≠ 0))).length : Nat) : Int) > n) 0).nodup hm.cols)
      with ⟨_, h'⟩ | ⟨_, w, w1, w2, w3, w4, _, w6⟩
  · rw [h'] at h; cases h
  · rw [h] at w1; cases w1
    refine ⟨w2, w3, k2, k3, fun r c hcc => ?_⟩
    by_cases hr : r ∈ u.rows
    · exact w6 r hr c hcc
    · rw [entry_row_absent hr, entry_row_absent (by rw [← k2]; exact hr)]

/-- **C230**, what holds: the columns, dropped last, all have more than `n` values; the rows have more than `n` values in the columns there
were before; and if no column was dropped, the claim holds.  Missing: rows that have lost values with the dropped columns. -/
theorem C230_partial {m a b : Mtx κ ν} (hm : Valid m) (hc : IsCompressed m) {n : Int} (ha : dropRows m n = .ok (some a))
    (hb : dropCols a n = .ok (some b)) :
    (∀ c ∈ b.cols, n < colValues b c) ∧ (∀ r ∈ b.rows, n < rowValues a r) ∧ (∀ r ∈ b.rows, ∀ c ∈ b.cols, entry b r c = entry m r c) ∧
      (b.cols = m.cols → (∀ r ∈ b.rows, n < rowValues b r)) := by
  obtain ⟨a1, a2, a3, a4, a5⟩ := dropRows_full hm hc ha
  obtain ⟨b1, b2, b3, b4, b5⟩ := dropCols_full a1 a2 hb
  have hrow : ∀ r ∈ b.rows, n < rowValues a r := by
    intro r hr
    have hra : r ∈ a.rows := by rw [← b3]; exact hr
    have hab := hra
    rw [a3] at hab
    unfold rowsAbove at hab
    have := (List.mem_filter.1 hab).2
    unfold rowValues
    rw [a4]
    simp only [a5 r hra]
    simpa using this
  refine ⟨?_, hrow, ?_, ?_⟩
  · intro c hcc
    have hca := hcc
    rw [b4] at hca
    unfold colsAbove at hca
    have := (List.mem_filter.1 hca).2
    unfold colValues
    rw [b3]
    simp only [b5 _ c hcc]
    simpa using this
  · intro r hr c hcc
    rw [b5 r c hcc, a5 r (by rw [← b3]; exact hr)]
  · intro he r hr
    have := hrow r hr
    unfold rowValues at this ⊢
    rw [a4] at this
    have e : b.cols.filter (fun c => decide (entry b r c ≠ 0)) = m.cols.filter (fun c => decide (entry a r c ≠ 0)) := by
      rw [he]
      refine List.filter_congr fun c hcc => ?_
      rw [b5 r c (by rw [he]; exact hcc)]
    rw [e]
    exact this

/-- **C230**, steps: dropping rows with at most `n` and then those with at most `k` values is dropping those with at most the larger of
both. -/
theorem C230_steps {m a b : Mtx κ ν} (hm : Valid m) (hc : IsCompressed m) {n k : Int} (ha : dropRows m n = .ok (some a))
    (hb : dropRows a k = .ok (some b)) : ∃ u, dropRows m (max n k) = .ok (some u) ∧ SameNamed b u := by
  obtain ⟨a1, a2, a3, a4, a5⟩ := dropRows_full hm hc ha
  obtain ⟨b1, b2, b3, b4, b5⟩ := dropRows_full a1 a2 hb
  have h1 : m.rows.length ≠ 1 := by
    intro h1
    obtain ⟨s, hbd, _⟩ := hc
    rw [(C54_false_single hm hbd n).1 h1] at ha
    cases ha
  have hrows : b.rows = rowsAbove m (max n k) := by
    rw [b3]
    unfold rowsAbove
    rw [a3, a4]
    unfold rowsAbove
    rw [List.filter_filter]
    refine List.filter_congr fun r hr => ?_
    by_cases hn : n < ((m.cols.filter (fun c => decide (entry m r c ≠ 0))).length : Int)
    · have hra : r ∈ a.rows := by
        rw [a3]; unfold rowsAbove; exact List.mem_filter.2 ⟨hr, by simpa using hn⟩
      simp only [a5 r hra]
      rw [decide_eq_true hn, Bool.and_true]
      apply decide_eq_decide.2
      rw [max_lt_iff]
      exact ⟨fun h => ⟨hn, h⟩, fun h => h.2⟩
    · rw [decide_eq_false hn, Bool.and_false, eq_comm, decide_eq_false_iff_not, max_lt_iff]
      exact fun h => hn h.1
  have hbne : rowsAbove m (max n k) ≠ [] := by
    rw [← hrows, b3]
    intro h0
    have h1' : a.rows.length ≠ 1 := by
      intro h1'
      obtain ⟨s, hbd, _⟩ := a2
      rw [(C54_false_single a1 hbd k).1 h1'] at hb
      cases hb
    rw [(C54_drop_rows_partial a1 a2 h1' k).1 h0] at hb
    cases hb
  obtain ⟨u, u1, u2, u3, _⟩ := (C54_drop_rows_partial hm hc h1 (max n k)).2 hbne
  obtain ⟨_, _, _, _, u5⟩ := dropRows_full hm hc u1
  refine ⟨u, u1, sameNamed_of (by rw [hrows, u2]) (by rw [b4, a4, u3]) fun r hr c _ => ?_⟩
  rw [b5 r hr, a5 r (by
    rw [b3] at hr
    unfold rowsAbove at hr
    exact (List.mem_filter.1 hr).1), u5 r (by rw [u2, ← hrows]; exact hr)]

end

/-- Rows 1 (columns 5 and 6), 2 and 3 (columns 5 and 7). -/
def thin : Mtx Nat Int :=
  ⟨.sp ⟨.csr, 3, 3, [((0, 0), 1), ((0, 1), 1), ((1, 0), 1), ((1, 2), 1), ((2, 0), 1), ((2, 2), 1)]⟩, [1, 2, 3], [5, 6, 7]⟩

theorem thin_valid : Valid thin := by
  refine ⟨rfl, rfl, by decide, by decide, ?_⟩
  intro s hs; cases hs; exact ⟨by decide, by decide⟩

/-- **C230** is false: every row has two values; but column 6 has one only and is dropped, and then row 1 has one only. -/
theorem C230_false : ∃ m : Mtx Nat Int, Valid m ∧ IsCompressed m ∧ ¬ C230_claim m 1 := by
  refine ⟨thin, thin_valid, ⟨_, rfl, by decide⟩, fun h => ?_⟩
  have := (h thin ⟨.sp ⟨.csr, 3, 2, [((0, 0), 1), ((1, 0), 1), ((2, 0), 1), ((1, 1), 1), ((2, 1), 1)]⟩, [1, 2, 3], [5, 7]⟩
    (by rfl) (by rfl)).1 1 (by decide)
  revert this
  decide

/-- Nor does the order not matter: dropping columns first, then rows, leaves the rows 2 and 3; the other order leaves all three. -/
theorem C230_false_order : ∃ a b c d : Mtx Nat Int, dropRows thin 1 = .ok (some a) ∧ dropCols a 1 = .ok (some b) ∧
    dropCols thin 1 = .ok (some c) ∧ dropRows c 1 = .ok (some d) ∧ b.rows = [1, 2, 3] ∧ d.rows = [2, 3] :=
  ⟨thin, ⟨.sp ⟨.csr, 3, 2, [((0, 0), 1), ((1, 0), 1), ((2, 0), 1), ((1, 1), 1), ((2, 1), 1)]⟩, [1, 2, 3], [5, 7]⟩,
    ⟨.sp ⟨.csr, 3, 2, [((0, 0), 1), ((1, 0), 1), ((2, 0), 1), ((1, 1), 1), ((2, 1), 1)]⟩, [1, 2, 3], [5, 7]⟩,
    ⟨.sp ⟨.csr, 2, 2, [((0, 0), 1), ((0, 1), 1), ((1, 0), 1), ((1, 1), 1)]⟩, [2, 3], [5, 7]⟩,
    by rfl, by rfl, by rfl, by rfl, rfl, rfl⟩

/-- `C230_partial` and `C230_steps`: both steps leave rows and columns. -/
example : ∃ a b c, dropRows thin 0 = .ok (some a) ∧ dropCols a 1 = .ok (some b) ∧ dropRows a 1 = .ok (some c) ∧ b.cols = [5, 7] :=
  ⟨thin, ⟨.sp ⟨.csr, 3, 2, [((0, 0), 1), ((1, 0), 1), ((2, 0), 1), ((1, 1), 1), ((2, 1), 1)]⟩, [1, 2, 3], [5, 7]⟩, thin,
    by rfl, by rfl, by rfl, rfl⟩

end Verif.Assoc
