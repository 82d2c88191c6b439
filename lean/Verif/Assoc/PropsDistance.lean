import Verif.Assoc.Distance
import Verif.Assoc.PropsVectors

set_option linter.unusedSectionVars false

/-! # Property theorems C122 (distance matrices) -/

namespace Verif.Assoc
open Verif.Py Verif.Matrix

variable {κ : Type} [LinearOrder κ]

/-! ### Specification -/

/-- Manhattan distance of two named rows. -/
noncomputable def namedL1 (m : Mtx κ ℝ) (a b : κ) : ℝ := (m.cols.map (fun c => |entry m a c - entry m b c|)).sum

/-- Euclidean distance of two named rows. -/
noncomputable def namedL2 (m : Mtx κ ℝ) (a b : κ) : ℝ := Real.sqrt (m.cols.map (fun c => (entry m a c - entry m b c) ^ 2)).sum

theorem l2Elem_eq (x : Body ℝ) (a b : Nat) :
    l2Elem x a b = Real.sqrt ((List.range x.nc).map (fun j => (x.val a j - x.val b j) ^ 2)).sum := by
  have e : rowDot x a a - 2 * rowDot x a b + rowDot x b b = ((List.range x.nc).map (fun j => (x.val a j - x.val b j) ^ 2)).sum := by
    rw [rowDot_eq, rowDot_eq, rowDot_eq, sum_range_list, Finset.mul_sum, ← Finset.sum_sub_distrib, ← Finset.sum_add_distrib]
    exact Finset.sum_congr rfl (fun j _ => by ring)
  have h0 : 0 ≤ ((List.range x.nc).map (fun j => (x.val a j - x.val b j) ^ 2)).sum := by
    rw [sum_range_list]
    exact Finset.sum_nonneg (fun j _ => sq_nonneg _)
  unfold l2Elem
  split
  · next h => subst h; simp
  · rw [e, max_eq_left h0]

theorem l1Elem_self (x : Body ℝ) (a : Nat) : l1Elem x a a = 0 := by unfold l1Elem; simp

/-- One result of `pairwise_distances` with the items on both sides. -/
theorem distances_spec {m : Mtx κ ℝ} (hm : Valid m) (hr : m.rows ≠ []) (hc : m.cols ≠ []) {metric : String} {f : Nat → Nat → ℝ}
    (hd : metric ∈ dtypes)
    (hp : ¬ (m.body.nr = 0 ∨ m.body.nc = 0) → pairwiseDistances m.body metric = .ok { nr := m.body.nr, nc := m.body.nr, elem := f }) :
    ∃ u, computeDistance m 0 metric = .ok u ∧ Valid u ∧ u.rows = m.rows ∧ u.cols = m.rows ∧
      ∀ (i j : Nat) (a b : κ), m.rows[i]? = some a → m.rows[j]? = some b → entry u a b = f i j := by
  have hz : ¬ (m.body.nr = 0 ∨ m.body.nc = 0) := by
    rw [hm.nr, hm.nc]
    simp [hr, hc]
  have e1 : (Body.dn (⟨m.body.nr, m.body.nr, f⟩ : Dn ℝ)).nr = m.rows.length := hm.nr
  have e2 : (Body.dn (⟨m.body.nr, m.body.nr, f⟩ : Dn ℝ)).nc = m.rows.length := hm.nr
  unfold computeDistance distancesOf
  rw [if_pos rfl, if_pos hd, hp hz]
  show ∃ u, lift (mkMtx (.dn _) m.rows m.rows) = .ok u ∧ _
  unfold mkMtx
  rw [if_neg (by simp [e1]), if_neg (by simp [e2])]
  simp only [ne_eq, not_true_eq_false, and_false, if_false]
  refine ⟨_, rfl, ⟨hm.nr, hm.nr, hm.rows, hm.rows, ?_⟩, rfl, rfl, ?_⟩
  · intro s hs; cases hs
  · intro i j a b hi hj
    rw [entry_of (m := ⟨.dn ⟨m.body.nr, m.body.nr, f⟩, m.rows, m.rows⟩) hm.rows hm.rows hi hj]
    rfl

/-- **C122**, `cityblock`, `manhattan`, `l1`: the entry of two items is the sum of the absolute differences of the named rows. -/
theorem C122_manhattan {m : Mtx κ ℝ} (hm : Valid m) (hr : m.rows ≠ []) (hc : m.cols ≠ []) {metric : String}
    (h : metric = "cityblock" ∨ metric = "manhattan" ∨ metric = "l1") :
    ∃ u, computeDistance m 0 metric = .ok u ∧ Valid u ∧ u.rows = m.rows ∧ u.cols = m.rows ∧
      ∀ a ∈ m.rows, ∀ b ∈ m.rows, entry u a b = namedL1 m a b := by
  obtain ⟨u, h1, h2, h3, h4, h5⟩ := distances_spec hm hr hc (metric := metric) (f := l1Elem m.body)
    (by rcases h with rfl | rfl | rfl <;> simp [dtypes])
    (fun hz => by
      unfold pairwiseDistances
      rw [if_neg hz, if_neg (by rcases h with rfl | rfl | rfl <;> decide), if_neg (by rcases h with rfl | rfl | rfl <;> decide), if_pos h])
  refine ⟨u, h1, h2, h3, h4, fun a ha b hb => ?_⟩
  obtain ⟨i, hi⟩ := getElem?_of_mem' ha
  obtain ⟨j, hj⟩ := getElem?_of_mem' hb
  rw [h5 i j a b hi hj]
  unfold l1Elem namedL1
  congr 1
  apply map_eq_range _ _ hm.nc
  intro k c hk
  rw [entry_of hm.rows hm.cols hi hk, entry_of hm.rows hm.cols hj hk]

/-- **C122**, `euclidean`, `l2`: the entry of two items is the Euclidean distance of the named rows. -/
theorem C122_euclidean {m : Mtx κ ℝ} (hm : Valid m) (hr : m.rows ≠ []) (hc : m.cols ≠ []) {metric : String}
    (h : metric = "euclidean" ∨ metric = "l2") :
    ∃ u, computeDistance m 0 metric = .ok u ∧ Valid u ∧ u.rows = m.rows ∧ u.cols = m.rows ∧
      ∀ a ∈ m.rows, ∀ b ∈ m.rows, entry u a b = namedL2 m a b := by
  obtain ⟨u, h1, h2, h3, h4, h5⟩ := distances_spec hm hr hc (metric := metric) (f := l2Elem m.body)
    (by rcases h with rfl | rfl <;> simp [dtypes])
    (fun hz => by
      unfold pairwiseDistances
      rw [if_neg hz, if_neg (by rcases h with rfl | rfl <;> decide), if_pos h])
  refine ⟨u, h1, h2, h3, h4, fun a ha b hb => ?_⟩
  obtain ⟨i, hi⟩ := getElem?_of_mem' ha
  obtain ⟨j, hj⟩ := getElem?_of_mem' hb
  rw [h5 i j a b hi hj, l2Elem_eq]
  unfold namedL2
  congr 2
  apply map_eq_range _ _ hm.nc
  intro k c hk
  rw [entry_of hm.rows hm.cols hi hk, entry_of hm.rows hm.cols hj hk]

/-! ### Distances are metrics -/

theorem sum_map_nonneg {α : Type} (l : List α) (f : α → ℝ) (h : ∀ c ∈ l, 0 ≤ f c) : 0 ≤ (l.map f).sum :=
  List.sum_nonneg (by
    intro x hx
    obtain ⟨c, hc, rfl⟩ := List.mem_map.1 hx
    exact h c hc)

theorem sum_map_zero {α : Type} (l : List α) (f : α → ℝ) (h : ∀ c ∈ l, 0 ≤ f c) : (l.map f).sum = 0 ↔ ∀ c ∈ l, f c = 0 := by
  induction l with
  | nil => simp
  | cons a l ih =>
    have h1 := h a (List.mem_cons_self ..)
    have h2 := sum_map_nonneg l f (fun c hc => h c (List.mem_cons_of_mem _ hc))
    rw [List.map_cons, List.sum_cons, add_eq_zero_iff_of_nonneg h1 h2, ih (fun c hc => h c (List.mem_cons_of_mem _ hc))]
    simp

/-- Cauchy and Schwarz for sums over lists. -/
theorem list_cauchy {α : Type} (l : List α) (f g : α → ℝ) :
    (l.map (fun c => f c * g c)).sum ^ 2 ≤ (l.map (fun c => f c ^ 2)).sum * (l.map (fun c => g c ^ 2)).sum := by
  induction l with
  | nil => simp
  | cons a l ih =>
    simp only [List.map_cons, List.sum_cons]
    set p := (l.map (fun c => f c * g c)).sum
    set s := (l.map (fun c => f c ^ 2)).sum with hs
    set t := (l.map (fun c => g c ^ 2)).sum with ht
    have s0 : 0 ≤ s := sum_map_nonneg l _ (fun c _ => sq_nonneg _)
    have t0 : 0 ≤ t := sum_map_nonneg l _ (fun c _ => sq_nonneg _)
    have hp : |p| ≤ Real.sqrt s * Real.sqrt t := by
      rw [← Real.sqrt_mul s0]
      exact Real.abs_le_sqrt ih
    have hs2 : Real.sqrt s ^ 2 = s := Real.sq_sqrt s0
    have ht2 : Real.sqrt t ^ 2 = t := Real.sq_sqrt t0
    have key : 2 * (f a * g a) * p ≤ f a ^ 2 * t + g a ^ 2 * s := by
      have h1 : (f a * g a) * p ≤ |f a * g a| * (Real.sqrt s * Real.sqrt t) :=
        le_trans (le_abs_self _) (by rw [abs_mul]; exact mul_le_mul_of_nonneg_left hp (abs_nonneg _))
      have h2 := sq_nonneg (|f a| * Real.sqrt t - |g a| * Real.sqrt s)
      rw [abs_mul] at h1
      have ea : |f a| ^ 2 = f a ^ 2 := sq_abs _
      have eb : |g a| ^ 2 = g a ^ 2 := sq_abs _
      nlinarith
    nlinarith

theorem list_minkowski {α : Type} (l : List α) (f g : α → ℝ) :
    Real.sqrt (l.map (fun c => (f c + g c) ^ 2)).sum ≤
      Real.sqrt (l.map (fun c => f c ^ 2)).sum + Real.sqrt (l.map (fun c => g c ^ 2)).sum := by
  have s0 : 0 ≤ (l.map (fun c => f c ^ 2)).sum := sum_map_nonneg l _ (fun c _ => sq_nonneg _)
  have t0 : 0 ≤ (l.map (fun c => g c ^ 2)).sum := sum_map_nonneg l _ (fun c _ => sq_nonneg _)
  have hp := Real.abs_le_sqrt (list_cauchy l f g)
  rw [Real.sqrt_mul s0] at hp
  have hp' := le_trans (le_abs_self _) hp
  rw [Real.sqrt_le_left (add_nonneg (Real.sqrt_nonneg _) (Real.sqrt_nonneg _)), add_sq, Real.sq_sqrt s0, Real.sq_sqrt t0]
  have e : (l.map (fun c => (f c + g c) ^ 2)).sum =
      (l.map (fun c => f c ^ 2)).sum + 2 * (l.map (fun c => f c * g c)).sum + (l.map (fun c => g c ^ 2)).sum := by
    clear s0 t0 hp hp'
    induction l with
    | nil => simp
    | cons a l ih => simp only [List.map_cons, List.sum_cons, ih]; ring
  rw [e]
  linarith

theorem list_abs_add {α : Type} (l : List α) (f g : α → ℝ) :
    (l.map (fun c => |f c + g c|)).sum ≤ (l.map (fun c => |f c|)).sum + (l.map (fun c => |g c|)).sum := by
  induction l with
  | nil => simp
  | cons a l ih =>
    simp only [List.map_cons, List.sum_cons]
    have := abs_add_le (f a) (g a)
    linarith

/-- The laws of a (pseudo)metric on a list of items, as a property of a matrix. -/
structure IsMetric (items : List κ) (same : κ → κ → Prop) (d : κ → κ → ℝ) : Prop where
  nonneg : ∀ a ∈ items, ∀ b ∈ items, 0 ≤ d a b
  zero_iff : ∀ a ∈ items, ∀ b ∈ items, d a b = 0 ↔ same a b
  symm : ∀ a ∈ items, ∀ b ∈ items, d a b = d b a
  triangle : ∀ a ∈ items, ∀ b ∈ items, ∀ c ∈ items, d a c ≤ d a b + d b c

/-- **C122**: the Euclidean and the Manhattan distance matrices are metrics on the rows: never negative, 0 exactly for
items with equal rows (so on the diagonal), symmetric, and a detour is never shorter. -/
theorem C122_metric {m : Mtx κ ℝ} (hm : Valid m) (hr : m.rows ≠ []) (hc : m.cols ≠ []) {metric : String}
    (h : metric ∈ ["cityblock", "manhattan", "l1", "euclidean", "l2"]) :
    ∃ u, computeDistance m 0 metric = .ok u ∧ u.rows = m.rows ∧ u.cols = m.rows ∧
      IsMetric m.rows (fun a b => ∀ c ∈ m.cols, entry m a c = entry m b c) (entry u) := by
  simp only [List.mem_cons, List.not_mem_nil, or_false] at h
  by_cases h' : metric = "cityblock" ∨ metric = "manhattan" ∨ metric = "l1"
  · obtain ⟨u, h1, _, h3, h4, h5⟩ := C122_manhattan hm hr hc h'
    refine ⟨u, h1, h3, h4, ⟨?_, ?_, ?_, ?_⟩⟩
    · intro a ha b hb
      rw [h5 a ha b hb]
      exact sum_map_nonneg _ _ (fun c _ => abs_nonneg _)
    · intro a ha b hb
      rw [h5 a ha b hb]
      unfold namedL1
      rw [sum_map_zero _ _ (fun c _ => abs_nonneg _)]
      simp only [abs_eq_zero, sub_eq_zero]
    · intro a ha b hb
      rw [h5 a ha b hb, h5 b hb a ha]
      unfold namedL1
      congr 2
      funext c
      exact abs_sub_comm _ _
    · intro a ha b hb c hcc
      rw [h5 a ha c hcc, h5 a ha b hb, h5 b hb c hcc]
      have := list_abs_add m.cols (fun k => entry m a k - entry m b k) (fun k => entry m b k - entry m c k)
      simpa only [namedL1, sub_add_sub_cancel] using this
  · obtain ⟨u, h1, _, h3, h4, h5⟩ := C122_euclidean hm hr hc (metric := metric) (by tauto)
    refine ⟨u, h1, h3, h4, ⟨?_, ?_, ?_, ?_⟩⟩
    · intro a ha b hb
      rw [h5 a ha b hb]
      exact Real.sqrt_nonneg _
    · intro a ha b hb
      rw [h5 a ha b hb]
      unfold namedL2
      rw [Real.sqrt_eq_zero (sum_map_nonneg _ _ (fun c _ => sq_nonneg _)), sum_map_zero _ _ (fun c _ => sq_nonneg _)]
      simp only [pow_eq_zero_iff, ne_eq, OfNat.ofNat_ne_zero, not_false_eq_true, sub_eq_zero]
    · intro a ha b hb
      rw [h5 a ha b hb, h5 b hb a ha]
      unfold namedL2
      congr 3
      funext c
      ring
    · intro a ha b hb c hcc
      rw [h5 a ha c hcc, h5 a ha b hb, h5 b hb c hcc]
      have := list_minkowski m.cols (fun k => entry m a k - entry m b k) (fun k => entry m b k - entry m c k)
      simpa only [namedL2, sub_add_sub_cancel] using this

/-- **C122**, `cosine`: 0 on the diagonal, and elsewhere one minus the cosine of the named rows (1 if one of them is a
zero row); so symmetric and between 0 and 2. -/
theorem C122_cosine {m : Mtx κ ℝ} (hm : Valid m) (hr : m.rows ≠ []) (hc : m.cols ≠ []) :
    ∃ u, computeDistance m = .ok u ∧ u.rows = m.rows ∧ u.cols = m.rows ∧
      (∀ a ∈ m.rows, entry u a a = 0) ∧ (∀ a ∈ m.rows, ∀ b ∈ m.rows, entry u a b = entry u b a ∧ 0 ≤ entry u a b ∧ entry u a b ≤ 2) ∧
      ∀ a ∈ m.rows, ∀ b ∈ m.rows, a ≠ b →
        ((namedDot m a a = 0 ∨ namedDot m b b = 0) → entry u a b = 1) ∧
        (namedDot m a a ≠ 0 → namedDot m b b ≠ 0 →
          entry u a b = 1 - namedDot m a b / (Real.sqrt (namedDot m a a) * Real.sqrt (namedDot m b b))) := by
  obtain ⟨u, h1, _, h3, h4, h5⟩ := distances_spec hm hr hc (metric := "cosine") (f := cosDistElem m.body)
    (by simp [dtypes]) (fun hz => by unfold pairwiseDistances; rw [if_neg hz, if_pos rfl])
  have hcd : ∀ i j, i ≠ j → cosDistElem m.body i j = 1 - cosElem m.body i j := by
    intro i j hij
    have := cosElem_bounds m.body i j
    unfold cosDistElem
    rw [if_neg hij, max_eq_left (by linarith), min_eq_left (by linarith)]
  refine ⟨u, h1, h3, h4, ?_, ?_, ?_⟩
  · intro a ha
    obtain ⟨i, hi⟩ := getElem?_of_mem' ha
    rw [h5 i i a a hi hi]
    unfold cosDistElem
    rw [if_pos rfl]
  · intro a ha b hb
    obtain ⟨i, hi⟩ := getElem?_of_mem' ha
    obtain ⟨j, hj⟩ := getElem?_of_mem' hb
    rw [h5 i j a b hi hj, h5 j i b a hj hi]
    by_cases hij : i = j
    · subst hij
      refine ⟨rfl, ?_⟩
      unfold cosDistElem
      rw [if_pos rfl]
      constructor <;> norm_num
    · have := cosElem_bounds m.body i j
      rw [hcd i j hij, hcd j i (Ne.symm hij), cosElem_comm]
      rw [cosElem_comm] at this
      exact ⟨rfl, by linarith, by linarith⟩
  · intro a ha b hb hab
    obtain ⟨i, hi⟩ := getElem?_of_mem' ha
    obtain ⟨j, hj⟩ := getElem?_of_mem' hb
    have hij : i ≠ j := by rintro rfl; rw [hi] at hj; cases hj; exact hab rfl
    have hd : ∀ (i j : Nat) (a b : κ), m.rows[i]? = some a → m.rows[j]? = some b → rowDot m.body i j = namedDot m a b := by
      intro i j a b hi hj
      unfold rowDot namedDot
      congr 1
      apply map_eq_range _ _ hm.nc
      intro k c hk
      rw [entry_of hm.rows hm.cols hi hk, entry_of hm.rows hm.cols hj hk]
    rw [h5 i j a b hi hj, hcd i j hij]
    unfold cosElem
    rw [hd i i a a hi hi, hd j j b b hj hj, hd i j a b hi hj]
    exact ⟨fun h => by rw [if_pos h, sub_zero], fun h1 h2 => by rw [if_neg (by tauto)]⟩

/-- **C122**, columns: `axis=1` is the distance of the rows of the transposed matrix; other axes are a `ValueError`. -/
theorem C122_axis {m t : Mtx κ ℝ} (ht : Verif.Matrix.transpose m = .ok t) (metric : String) :
    computeDistance m 1 metric = computeDistance t 0 metric ∧
    ∀ axis, axis ≠ 0 → axis ≠ 1 → computeDistance m axis metric = .error (.py .valueError) := by
  constructor
  · have hb : t.body = transposeBody m.body ∧ t.rows = m.cols := by
      unfold Verif.Matrix.transpose at ht
      cases hbody : m.body with
      | sp s =>
        rw [hbody] at ht
        simp only [mkMtx] at ht
        split_ifs at ht
        simp only [Except.ok.injEq] at ht
        subst ht
        exact ⟨rfl, rfl⟩
      | dn d =>
        rw [hbody] at ht
        simp only [mkMtx] at ht
        split_ifs at ht
        simp only [Except.ok.injEq] at ht
        subst ht
        exact ⟨rfl, rfl⟩
    unfold computeDistance
    rw [if_neg (by norm_num), if_pos rfl, if_pos rfl, hb.1, hb.2]
  · intro axis h0 h1
    unfold computeDistance
    rw [if_neg h0, if_neg h1]

/-- **C122**, refusals: a metric other than the six documented ones is refused, with `NotImplementedError` unless it is
`cos` (which the library accepts and scikit-learn refuses, `ValueError`); so is a matrix without rows or columns. -/
theorem C122_refused (m : Mtx κ ℝ) :
    (∀ metric, metric ∉ ["cosine", "euclidean", "cityblock", "manhattan", "l1", "l2"] →
      computeDistance m 0 metric = .error (if metric = "cos" then .py .valueError else .py .notImplemented)) ∧
    (Valid m → m.rows = [] ∨ m.cols = [] → ∀ metric, ∃ e, computeDistance m 0 metric = .error e) := by
  constructor
  · intro metric h
    simp only [List.mem_cons, List.not_mem_nil, or_false, not_or] at h
    unfold computeDistance distancesOf
    rw [if_pos rfl]
    by_cases hcos : metric = "cos"
    · subst hcos
      rw [if_pos (by simp [dtypes])]
      have : pairwiseDistances m.body "cos" = .error (.py .valueError) := by
        unfold pairwiseDistances
        split
        · rfl
        · rw [if_neg (by decide), if_neg (by decide), if_neg (by decide)]
      rw [this]
      rfl
    · rw [if_neg (by simp only [dtypes, List.mem_cons, List.not_mem_nil, or_false]; tauto), if_neg hcos]
  · intro hm h metric
    unfold computeDistance distancesOf
    rw [if_pos rfl]
    split
    · have : pairwiseDistances m.body metric = .error (.py .valueError) := by
        unfold pairwiseDistances
        rw [if_pos (by rw [hm.nr, hm.nc]; simpa using h)]
      rw [this]
      exact ⟨_, rfl⟩
    · exact ⟨_, rfl⟩

/-- Three rows (1, 0), (1, 1), (0, 1). -/
noncomputable def corner : Mtx Nat ℝ :=
  ⟨.dn ⟨3, 2, fun i j => if (i = 0 ∧ j = 1) ∨ (i = 2 ∧ j = 0) then 0 else 1⟩, [10, 20, 30], [1, 2]⟩

theorem corner_valid : Valid corner :=
  ⟨rfl, rfl, by decide, by decide, by intro s hs; cases hs⟩

theorem corner_entry : entry corner 10 1 = 1 ∧ entry corner 10 2 = 0 ∧ entry corner 20 1 = 1 ∧ entry corner 20 2 = 1 ∧
    entry corner 30 1 = 0 ∧ entry corner 30 2 = 1 := by
  have e : ∀ (i j : Nat) (a b : Nat), corner.rows[i]? = some a → corner.cols[j]? = some b →
      entry corner a b = if (i = 0 ∧ j = 1) ∨ (i = 2 ∧ j = 0) then 0 else 1 := by
    intro i j a b hi hj
    rw [entry_of corner_valid.rows corner_valid.cols hi hj]
    rfl
  refine ⟨?_, ?_, ?_, ?_, ?_, ?_⟩
  · rw [e 0 0 10 1 rfl rfl]; simp
  · rw [e 0 1 10 2 rfl rfl]; simp
  · rw [e 1 0 20 1 rfl rfl]; simp
  · rw [e 1 1 20 2 rfl rfl]; simp
  · rw [e 2 0 30 1 rfl rfl]; simp
  · rw [e 2 1 30 2 rfl rfl]; simp

theorem corner_dot : namedDot corner 10 10 = 1 ∧ namedDot corner 20 20 = 2 ∧ namedDot corner 30 30 = 1 ∧
    namedDot corner 10 20 = 1 ∧ namedDot corner 20 30 = 1 ∧ namedDot corner 10 30 = 0 := by
  obtain ⟨a, b, c, d, e, f⟩ := corner_entry
  have k : ∀ x y, namedDot corner x y = entry corner x 1 * entry corner y 1 + entry corner x 2 * entry corner y 2 := by
    intro x y
    unfold namedDot
    have : corner.cols = [1, 2] := rfl
    rw [this]
    simp
  refine ⟨?_, ?_, ?_, ?_, ?_, ?_⟩ <;> rw [k] <;> simp only [a, b, c, d, e, f] <;> norm_num

/-- **C122**, remark: the default, cosine distance, is not a metric: a detour can be shorter. -/
theorem C122_cosine_detour : ∃ (m u : Mtx Nat ℝ), Valid m ∧ computeDistance m = .ok u ∧
    ∃ a ∈ m.rows, ∃ b ∈ m.rows, ∃ c ∈ m.rows, entry u a b + entry u b c < entry u a c := by
  obtain ⟨u, h1, _, _, _, _, h5⟩ := C122_cosine corner_valid (by decide) (by decide)
  refine ⟨corner, u, corner_valid, h1, 10, by decide, 20, by decide, 30, by decide, ?_⟩
  obtain ⟨a, b, c, d, e, f⟩ := corner_dot
  have p1 := (h5 10 (by decide) 20 (by decide) (by decide)).2 (by rw [a]; norm_num) (by rw [b]; norm_num)
  have p2 := (h5 20 (by decide) 30 (by decide) (by decide)).2 (by rw [b]; norm_num) (by rw [c]; norm_num)
  have p3 := (h5 10 (by decide) 30 (by decide) (by decide)).2 (by rw [a]; norm_num) (by rw [c]; norm_num)
  rw [p1, p2, p3, a, b, c, d, e, f, Real.sqrt_one, one_mul, mul_one, zero_div, sub_zero]
  have h2 : 0 < Real.sqrt 2 := Real.sqrt_pos.2 (by norm_num)
  have h3 : Real.sqrt 2 < 2 := by
    rw [Real.sqrt_lt' (by norm_num)]
    norm_num
  have : 1 / 2 < 1 / Real.sqrt 2 := one_div_lt_one_div_of_lt h2 h3
  linarith

/-- Non-vacuity for C122: `corner` meets the hypotheses, and its Manhattan distances are not all equal. -/
example : Valid corner ∧ corner.rows ≠ [] ∧ corner.cols ≠ [] ∧ namedL1 corner 10 30 = 2 ∧ namedL1 corner 10 20 = 1 := by
  obtain ⟨a, b, c, d, e, f⟩ := corner_entry
  have k : ∀ x y, namedL1 corner x y = |entry corner x 1 - entry corner y 1| + |entry corner x 2 - entry corner y 2| := by
    intro x y
    unfold namedL1
    have : corner.cols = [1, 2] := rfl
    rw [this]
    simp
  refine ⟨corner_valid, by decide, by decide, ?_, ?_⟩ <;> rw [k] <;> simp only [a, b, c, d, e, f] <;> norm_num

/-- **C122**: the default distance of two different items is one minus their `compute_cosine` similarity. -/
theorem C122_similarity {m u v : Mtx κ ℝ} (hm : Valid m) (hr : m.rows ≠ []) (hc : m.cols ≠ [])
    (hu : computeDistance m = .ok u) (hv : computeCosine m = .ok v) :
    ∀ a ∈ m.rows, ∀ b ∈ m.rows, entry u a b = 1 - entry v a b := by
  obtain ⟨u', h1, _, _, h4, _, h5⟩ := C122_cosine hm hr hc
  obtain ⟨v', k1, _, _, _, k4, _, k5⟩ := C63_cosine hm hr hc
  rw [hu] at h1
  rw [hv] at k1
  cases h1
  cases k1
  intro a ha b hb
  by_cases hab : a = b
  · subst hab
    rw [h4 a ha, k4 a ha, sub_self]
  · by_cases h0 : namedDot m a a = 0 ∨ namedDot m b b = 0
    · rw [(h5 a ha b hb hab).1 h0, (k5 a ha b hb hab).1 h0, sub_zero]
    · push Not at h0
      rw [(h5 a ha b hb hab).2 h0.1 h0.2, (k5 a ha b hb hab).2 h0.1 h0.2]

end Verif.Assoc
