import Verif.Assoc.Centroid
import Mathlib.Algebra.BigOperators.Group.List.Lemmas
import Mathlib.Algebra.Order.BigOperators.Group.List
import Mathlib.Algebra.Order.Field.Basic
import Mathlib.Tactic.FieldSimp
import Mathlib.Tactic.Ring
import Mathlib.Tactic.Linarith
import Mathlib.Tactic.NormNum

/-! # Property theorem C250 (the centroid of a cluster) -/

namespace Verif.Assoc
open Verif.Py Verif.Matrix

/-- Specification: the row that an id means; negative ids count from the end. -/
def Names (n : Nat) (z : Int) (i : Nat) : Prop := i < n ∧ ((0 ≤ z ∧ z = i) ∨ (z < 0 ∧ z = (i : Int) - n))

/-- Specification: `v` is the mean of the rows `rows`, column by column. -/
def IsMean (s : Sp ℝ) (rows : List Nat) (v : List (Option ℝ)) : Prop :=
  v.length = s.nc ∧ ∀ j < s.nc, ∃ x : ℝ, v[j]? = some (some x) ∧ x * rows.length = (rows.map (fun i => s.val i j)).sum

theorem axisAt_names {n : Nat} {z : Int} {i : Nat} : axisAt n z = .ok i ↔ Names n z i := by
  unfold axisAt Names
  constructor
  · intro h
    split at h
    · split at h
      · cases h; omega
      · cases h
    · split at h
      · cases h; omega
      · cases h
  · rintro ⟨h1, h2⟩
    rcases h2 with ⟨h2, h3⟩ | ⟨h2, h3⟩
    · rw [if_pos h2, if_pos (by omega)]
      congr 1; omega
    · rw [if_neg (by omega), if_pos (by omega)]
      congr 1; omega

theorem mapM_names {n : Nat} {l : List Int} {rows : List Nat} (h : List.Forall₂ (Names n) l rows) : l.mapM (axisAt n) = .ok rows := by
  induction h with
  | nil => rfl
  | cons h _ ih => rw [List.mapM_cons, axisAt_names.2 h, ih]; rfl

theorem mapM_names_inv {n : Nat} {l : List Int} {rows : List Nat} (h : l.mapM (axisAt n) = .ok rows) : List.Forall₂ (Names n) l rows := by
  induction l generalizing rows with
  | nil => cases h; exact .nil
  | cons z l ih =>
    rw [List.mapM_cons] at h
    cases hz : axisAt n z with
    | error e => rw [hz] at h; cases h
    | ok i =>
      rw [hz] at h
      cases hl : l.mapM (axisAt n) with
      | error e => rw [hl] at h; cases h
      | ok is => rw [hl] at h; cases h; exact .cons (axisAt_names.1 hz) (ih hl)

theorem colMean_isMean (s : Sp ℝ) {rows : List Nat} (hne : rows ≠ []) : IsMean s rows ((List.range s.nc).map (colMean s rows)) := by
  refine ⟨by simp, fun j hj => ⟨(rows.map (fun i => s.val i j)).sum / rows.length, ?_, ?_⟩⟩
  · simp [hj, colMean, hne]
  · have : (rows.length : ℝ) ≠ 0 := by
      rw [Ne, Nat.cast_eq_zero, List.length_eq_zero_iff]; exact hne
    field_simp

/-- **C250**: the centroid of a cluster is the mean of its rows, an id counting as often as it is given. -/
theorem C250_mean (s : Sp ℝ) {l : List Int} {rows : List Nat} (hl : l ≠ []) (h : List.Forall₂ (Names s.nr) l rows) :
    ∃ v, controid s (some l) = .ok v ∧ IsMean s rows v := by
  have hr : rows ≠ [] := by rintro rfl; cases h; exact hl rfl
  refine ⟨_, ?_, colMean_isMean s hr⟩
  unfold controid clusterRows
  simp only [if_neg hl, mapM_names h]
  rfl

/-- **C250**: exactly the lists that are empty or have an id outside of the matrix are refused. -/
theorem C250_refused (s : Sp ℝ) (l : List Int) : (l = [] ∨ ∃ z ∈ l, ¬ (-(s.nr : Int) ≤ z ∧ z < s.nr)) ↔ controid s (some l) = .error .indexError := by
  constructor
  · intro h
    unfold controid clusterRows
    by_cases hl : l = []
    · simp only [if_pos hl]; rfl
    · have hz : ∃ z ∈ l, ¬ (-(s.nr : Int) ≤ z ∧ z < s.nr) := h.resolve_left hl
      simp only [if_neg hl]
      have : l.mapM (axisAt s.nr) = .error .indexError := by
        clear h hl
        induction l with
        | nil => simp at hz
        | cons z l ih =>
          rw [List.mapM_cons]
          by_cases h0 : -(s.nr : Int) ≤ z ∧ z < s.nr
          · have : ∃ i, axisAt s.nr z = .ok i := by
              by_cases hp : 0 ≤ z
              · exact ⟨z.toNat, axisAt_names.2 ⟨by omega, .inl ⟨hp, by omega⟩⟩⟩
              · exact ⟨(z + s.nr).toNat, axisAt_names.2 ⟨by omega, .inr ⟨by omega, by omega⟩⟩⟩
            obtain ⟨i, hi⟩ := this
            rw [hi]
            obtain ⟨y, hy, hy'⟩ := hz
            rcases List.mem_cons.1 hy with rfl | hy
            · exact absurd h0 hy'
            · have := ih ⟨y, hy, hy'⟩
              simp only [bind, Except.bind, this]
          · have : axisAt s.nr z = .error .indexError := by
              unfold axisAt
              split <;> rw [if_neg (by omega)]
            rw [this]; rfl
      rw [this]; rfl
  · intro h
    by_contra hc
    push Not at hc
    have : ∃ rows, List.Forall₂ (Names s.nr) l rows := by
      have hall := hc.2
      clear h hc
      induction l with
      | nil => exact ⟨[], .nil⟩
      | cons z l ih =>
        obtain ⟨rows, hr⟩ := ih fun z hz => hall z (by simp [hz])
        have h0 := hall z (by simp)
        by_cases hp : 0 ≤ z
        · exact ⟨z.toNat :: rows, .cons ⟨by omega, .inl ⟨hp, by omega⟩⟩ hr⟩
        · exact ⟨(z + s.nr).toNat :: rows, .cons ⟨by omega, .inr ⟨by omega, by omega⟩⟩ hr⟩
    obtain ⟨rows, hr⟩ := this
    obtain ⟨v, hv, _⟩ := C250_mean s hc.1 hr
    rw [h] at hv; cases hv

/-- **C250**: without a cluster, the centroid of all rows; without rows, all values are NaN. -/
theorem C250_all (s : Sp ℝ) : (s.nr ≠ 0 → ∃ v, controid s none = .ok v ∧ IsMean s (List.range s.nr) v) ∧
    (s.nr = 0 → controid s none = .ok (List.replicate s.nc none)) := by
  constructor
  · intro h
    exact ⟨_, rfl, colMean_isMean s (by simpa using h)⟩
  · intro h
    unfold controid clusterRows
    simp only [h, List.range_zero]
    show Except.ok _ = _
    congr 1
    rw [List.eq_replicate_iff]
    refine ⟨by simp, fun x hx => ?_⟩
    obtain ⟨j, _, rfl⟩ := List.mem_map.1 hx
    simp [colMean]

/-- Means are determined by their rows, whatever the order. -/
theorem mean_unique {s : Sp ℝ} {rows rows' : List Nat} (hp : rows.Perm rows') (hne : rows ≠ []) {v v' : List (Option ℝ)} (h : IsMean s rows v)
    (h' : IsMean s rows' v') : v = v' := by
  apply List.ext_getElem? 
  intro j
  by_cases hj : j < s.nc
  · obtain ⟨x, h1, h2⟩ := h.2 j hj
    obtain ⟨y, k1, k2⟩ := h'.2 j hj
    have hk : (rows.length : ℝ) ≠ 0 := by rw [Ne, Nat.cast_eq_zero, List.length_eq_zero_iff]; exact hne
    rw [← hp.length_eq, ← (hp.map _).sum_eq, ← h2] at k2
    rw [h1, k1, mul_right_cancel₀ hk k2]
  · rw [List.getElem?_eq_none (by rw [h.1]; omega), List.getElem?_eq_none (by rw [h'.1]; omega)]

/-- **C250**: the order of the ids is irrelevant. -/
theorem C250_order (s : Sp ℝ) {l l' : List Int} (hp : l.Perm l') (hl : l ≠ []) (hin : ∀ z ∈ l, -(s.nr : Int) ≤ z ∧ z < s.nr) :
    ∃ v, controid s (some l) = .ok v ∧ controid s (some l') = .ok v := by
  let f : Int → Nat := fun z => if 0 ≤ z then z.toNat else (z + s.nr).toNat
  have hf : ∀ m : List Int, (∀ z ∈ m, -(s.nr : Int) ≤ z ∧ z < s.nr) → List.Forall₂ (Names s.nr) m (m.map f) := by
    intro m hm
    induction m with
    | nil => exact .nil
    | cons z m ih =>
      refine .cons ?_ (ih fun y hy => hm y (by simp [hy]))
      have := hm z (by simp)
      show Names s.nr z (if 0 ≤ z then z.toNat else (z + s.nr).toNat)
      unfold Names
      split <;> omega
  obtain ⟨v, h1, h2⟩ := C250_mean s hl (hf l hin)
  obtain ⟨v', h1', h2'⟩ := C250_mean s (fun h => hl (by rw [h] at hp; exact hp.eq_nil)) (hf l' fun z hz => hin z (hp.mem_iff.2 hz))
  have := mean_unique (hp.map f) (by simpa using hl) h2 h2'
  subst this
  exact ⟨v, h1, h1'⟩

/-- Squared Euclidean distance of row `i` to the point `w`. -/
noncomputable def sqDist (s : Sp ℝ) (i : Nat) (w : Nat → ℝ) : ℝ := ((List.range s.nc).map (fun j => (s.val i j - w j) ^ 2)).sum

theorem rows_cols_swap (rows cols : List Nat) (g : Nat → Nat → ℝ) :
    (rows.map (fun i => (cols.map (fun j => g i j)).sum)).sum = (cols.map (fun j => (rows.map (fun i => g i j)).sum)).sum := by
  induction rows with
  | nil => simp
  | cons i rows ih =>
    rw [List.map_cons, List.sum_cons, ih, ← List.sum_map_add]
    simp

theorem square_least (rows : List Nat) (g : Nat → ℝ) (x w : ℝ) (hx : x * rows.length = (rows.map g).sum) :
    (rows.map (fun i => (g i - x) ^ 2)).sum + rows.length * (x - w) ^ 2 = (rows.map (fun i => (g i - w) ^ 2)).sum := by
  have e : ∀ l : List Nat, (l.map (fun i => (g i - w) ^ 2)).sum =
      (l.map (fun i => (g i - x) ^ 2)).sum + 2 * (x - w) * (l.map g).sum - 2 * (x - w) * x * l.length + l.length * (x - w) ^ 2 := by
    intro l
    induction l with
    | nil => simp
    | cons i l ih =>
      simp only [List.map_cons, List.sum_cons, List.length_cons, Nat.cast_add, Nat.cast_one, ih]
      ring
  rw [e rows, ← hx]
  ring

/-- **C250**: no point has a smaller sum of squared distances to the rows of the cluster than the centroid. -/
theorem C250_least (s : Sp ℝ) {l : List Int} {rows : List Nat} (hl : l ≠ []) (h : List.Forall₂ (Names s.nr) l rows) :
    ∃ v : List ℝ, controid s (some l) = .ok (v.map some) ∧ v.length = s.nc ∧
      ∀ w : Nat → ℝ, (rows.map (fun i => sqDist s i (fun j => v.getD j 0))).sum ≤ (rows.map (fun i => sqDist s i w)).sum ∧
        ((rows.map (fun i => sqDist s i (fun j => v.getD j 0))).sum = (rows.map (fun i => sqDist s i w)).sum → ∀ j < s.nc, w j = v.getD j 0) := by
  have hr : rows ≠ [] := by rintro rfl; cases h; exact hl rfl
  have hk : (rows.length : ℝ) ≠ 0 := by rw [Ne, Nat.cast_eq_zero, List.length_eq_zero_iff]; exact hr
  have hkp : 0 < (rows.length : ℝ) := lt_of_le_of_ne (Nat.cast_nonneg _) (Ne.symm hk)
  let v : List ℝ := (List.range s.nc).map (fun j => (rows.map (fun i => s.val i j)).sum / rows.length)
  have hv : ∀ j < s.nc, v.getD j 0 * rows.length = (rows.map (fun i => s.val i j)).sum := by
    intro j hj
    have : v.getD j 0 = (rows.map (fun i => s.val i j)).sum / rows.length := by simp [v, hj]
    rw [this]; field_simp
  refine ⟨v, ?_, by simp [v], fun w => ?_⟩
  · unfold controid clusterRows
    simp only [if_neg hl, mapM_names h]
    show Except.ok _ = _
    congr 1
    simp only [v, List.map_map]
    apply List.map_congr_left
    intro j _
    simp [colMean, hr]
  · unfold sqDist
    rw [rows_cols_swap rows (List.range s.nc) (fun i j => (s.val i j - v.getD j 0) ^ 2),
      rows_cols_swap rows (List.range s.nc) (fun i j => (s.val i j - w j) ^ 2)]
    have key : ((List.range s.nc).map (fun j => (rows.map (fun i => (s.val i j - w j) ^ 2)).sum)).sum =
        ((List.range s.nc).map (fun j => (rows.map (fun i => (s.val i j - v.getD j 0) ^ 2)).sum)).sum +
          ((List.range s.nc).map (fun j => rows.length * (v.getD j 0 - w j) ^ 2)).sum := by
      rw [← List.sum_map_add]
      congr 1
      apply List.map_congr_left
      intro j hj
      exact (square_least rows (fun i => s.val i j) _ (w j) (hv j (List.mem_range.1 hj))).symm
    have hnn : ∀ x ∈ (List.range s.nc).map (fun j => (rows.length : ℝ) * (v.getD j 0 - w j) ^ 2), 0 ≤ x := by
      intro x hx
      obtain ⟨j, _, rfl⟩ := List.mem_map.1 hx
      exact mul_nonneg hkp.le (sq_nonneg _)
    rw [key]
    refine ⟨by have := List.sum_nonneg hnn; linarith, fun h0 j hj => ?_⟩
    have hz : ((List.range s.nc).map (fun j => (rows.length : ℝ) * (v.getD j 0 - w j) ^ 2)).sum = 0 := by linarith
    have hle := List.single_le_sum hnn ((rows.length : ℝ) * (v.getD j 0 - w j) ^ 2) (List.mem_map.2 ⟨j, List.mem_range.2 hj, rfl⟩)
    rw [hz] at hle
    have h1 : (v.getD j 0 - w j) ^ 2 = 0 := by
      by_contra hne
      have := mul_pos hkp (lt_of_le_of_ne (sq_nonneg (v.getD j 0 - w j)) (Ne.symm hne))
      linarith
    have := pow_eq_zero_iff (two_ne_zero) |>.1 h1
    linarith

/-- **C250**: the centroid of two clusters together is the mean of their centroids weighted by their sizes. -/
theorem C250_merge (s : Sp ℝ) {l l' : List Int} {v v' : List (Option ℝ)} (h : controid s (some l) = .ok v) (h' : controid s (some l') = .ok v') :
    ∃ u, controid s (some (l ++ l')) = .ok u ∧ ∀ j < s.nc, ∃ x y z : ℝ, v[j]? = some (some x) ∧ v'[j]? = some (some y) ∧
      u[j]? = some (some z) ∧ z * (l.length + l'.length) = x * l.length + y * l'.length := by
  have get : ∀ (l : List Int) v, controid s (some l) = .ok v → l ≠ [] ∧ ∃ rows, List.Forall₂ (Names s.nr) l rows ∧ IsMean s rows v := by
    intro l v h
    have hl : l ≠ [] := by rintro rfl; cases h
    refine ⟨hl, ?_⟩
    cases hm : l.mapM (axisAt s.nr) with
    | error e =>
      unfold controid clusterRows at h
      simp only [if_neg hl, hm] at h
      cases h
    | ok rows =>
      have hf := mapM_names_inv hm
      obtain ⟨v', h1, h2⟩ := C250_mean s hl hf
      rw [h] at h1; cases h1
      exact ⟨rows, hf, h2⟩
  obtain ⟨hl, rows, hf, hv⟩ := get l v h
  obtain ⟨_, rows', hf', hv'⟩ := get l' v' h'
  obtain ⟨u, hu, hm⟩ := C250_mean s (l := l ++ l') (by simp [hl]) (List.rel_append hf hf')
  refine ⟨u, hu, fun j hj => ?_⟩
  obtain ⟨x, x1, x2⟩ := hv.2 j hj
  obtain ⟨y, y1, y2⟩ := hv'.2 j hj
  obtain ⟨z, z1, z2⟩ := hm.2 j hj
  refine ⟨x, y, z, x1, y1, z1, ?_⟩
  rw [List.map_append, List.sum_append, List.length_append, Nat.cast_add, ← x2, ← y2, ← hf.length_eq, ← hf'.length_eq] at z2
  exact z2

/-- Rows (1, 0), (3, 2), (0, 4); the ids 0 and -2 mean the first and the second row. -/
noncomputable def triple : Sp ℝ := ⟨.csr, 3, 2, [((0, 0), 1), ((1, 0), 3), ((1, 1), 2), ((2, 1), 4)]⟩

example : List.Forall₂ (Names triple.nr) [0, -2] [0, 1] ∧ ∃ v, controid triple (some [0, -2]) = .ok v ∧ v[0]? = some (some 2) ∧ v[1]? = some (some 1) := by
  have hf : List.Forall₂ (Names triple.nr) [0, -2] [0, 1] :=
    .cons ⟨by decide, .inl ⟨by decide, by decide⟩⟩ (.cons ⟨by decide, .inr ⟨by decide, by decide⟩⟩ .nil)
  refine ⟨hf, ?_⟩
  obtain ⟨v, h1, h2⟩ := C250_mean triple (by simp) hf
  refine ⟨v, h1, ?_, ?_⟩
  · obtain ⟨x, k1, k2⟩ := h2.2 0 (by decide)
    have : x = 2 := by
      simp [triple, Sp.val, Sp.stored, Dict.get?_cons] at k2; linarith
    rw [k1, this]
  · obtain ⟨x, k1, k2⟩ := h2.2 1 (by decide)
    have : x = 1 := by
      simp [triple, Sp.val, Sp.stored, Dict.get?_cons] at k2; linarith
    rw [k1, this]

example : controid triple (some [0, 3]) = .error .indexError := (C250_refused triple _).1 (.inr ⟨3, by simp, by decide⟩)

end Verif.Assoc
