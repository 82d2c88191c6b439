import Verif.Assoc.PropsKindred
import Verif.Assoc.PropsCentroid

/-! # Property theorem C256 (how similar a cluster is to its centroid) -/

set_option linter.unusedSectionVars false

namespace Verif.Assoc
open Verif.Py Verif.Matrix

variable {κ : Type} [LinearOrder κ]

/-- The id `z` stands for the row `a` of the matrix. -/
def IdOf (m : Mtx κ ℝ) (z : Int) (a : κ) : Prop := ∃ i, Names m.rows.length z i ∧ m.rows[i]? = some a

/-- Specification: `v` gives the mean of the items for every column. -/
def IsCentre (m : Mtx κ ℝ) (as : List κ) (v : κ → ℝ) : Prop := ∀ f ∈ m.cols, v f * as.length = (as.map (fun a => entry m a f)).sum

/-- The scalar product of a vector with a row. -/
noncomputable def dotWith (m : Mtx κ ℝ) (v : κ → ℝ) (a : κ) : ℝ := (m.cols.map (fun f => v f * entry m a f)).sum

/-- The length of a vector over the columns of a matrix. -/
noncomputable def vecLen (m : Mtx κ ℝ) (v : κ → ℝ) : ℝ := Real.sqrt (m.cols.map (fun f => v f * v f)).sum

theorem centre_ok {m : Mtx κ ℝ} (hm : Valid m) {s : Sp ℝ} (hs : m.body = .sp s) {l : List Int} {as : List κ} (hl : l ≠ [])
    (h : List.Forall₂ (IdOf m) l as) : ∃ v : κ → ℝ, controid s (some l) = .ok (m.cols.map (fun f => some (v f))) ∧ IsCentre m as v := by
  have hnr : s.nr = m.rows.length := by have := hm.nr; rw [hs] at this; exact this
  have hnc : s.nc = m.cols.length := by have := hm.nc; rw [hs] at this; exact this
  have hrows : ∃ rows : List Nat, List.Forall₂ (Names s.nr) l rows ∧ List.Forall₂ (fun i a => m.rows[i]? = some a) rows as := by
    clear hl
    induction h with
    | nil => exact ⟨[], .nil, .nil⟩
    | cons h _ ih =>
      obtain ⟨i, h1, h2⟩ := h
      obtain ⟨rows, h3, h4⟩ := ih
      exact ⟨i :: rows, .cons (hnr ▸ h1) h3, .cons h2 h4⟩
  obtain ⟨rows, r1, r2⟩ := hrows
  obtain ⟨u, h1, h2, h3⟩ := C250_mean s hl r1
  have hlen : rows.length = as.length := r2.length_eq
  have hne : (as.length : ℝ) ≠ 0 := by
    rw [← hlen, ← r1.length_eq, Ne, Nat.cast_eq_zero, List.length_eq_zero_iff]; exact hl
  refine ⟨fun f => (as.map (fun a => entry m a f)).sum / as.length, ?_, fun f _ => by field_simp⟩
  rw [h1]
  congr 1
  apply List.ext_getElem?
  intro j
  by_cases hj : j < s.nc
  · obtain ⟨x, e1, e2⟩ := h3 j hj
    obtain ⟨f, hf⟩ : ∃ f, m.cols[j]? = some f := ⟨_, List.getElem?_eq_getElem (hnc ▸ hj)⟩
    have e : rows.map (fun i => s.val i j) = as.map (fun a => entry m a f) := by
      clear r1 e2 hlen hne h1 h2 h3 h
      induction r2 with
      | nil => rfl
      | cons hi _ ih =>
        rw [List.map_cons, List.map_cons, ih, entry_of hm.rows hm.cols hi hf, hs]
        rfl
    rw [e1, List.getElem?_map, hf, Option.map_some]
    beta_reduce
    rw [← e, ← e2, hlen]
    field_simp
  · rw [List.getElem?_eq_none (by omega), List.getElem?_eq_none (by simp; omega)]

theorem ids_mem {m : Mtx κ ℝ} {l : List Int} {as : List κ} (h : List.Forall₂ (IdOf m) l as) : ∀ a ∈ as, a ∈ m.rows := by
  induction h with
  | nil => simp
  | cons h _ ih =>
    obtain ⟨i, _, hi⟩ := h
    intro a ha
    rcases List.mem_cons.1 ha with rfl | ha
    · exact List.mem_of_getElem? hi
    · exact ih a ha

theorem centre_dot {m : Mtx κ ℝ} {as : List κ} {v : κ → ℝ} (h : IsCentre m as v) (x : κ) :
    dotWith m v x * as.length = (as.map (fun a => namedDot m a x)).sum := by
  have := combo_dot m.cols as (fun _ => 1) (fun a f => entry m a f) (fun f => entry m x f)
  simp only [one_mul] at this
  unfold dotWith namedDot
  rw [← this, ← List.sum_map_mul_right]
  congr 1
  apply List.map_congr_left
  intro f hf
  rw [← h f hf]
  ring

theorem centre_sq {m : Mtx κ ℝ} {as : List κ} {v : κ → ℝ} (h : IsCentre m as v) :
    (m.cols.map (fun f => v f * v f)).sum * (as.length * as.length) = (as.map (fun a => (as.map (fun b => namedDot m a b)).sum)).sum := by
  have := combo_dot_two m.cols as (fun _ => 1) (fun _ => 1) (fun a f => entry m a f)
  simp only [one_mul] at this
  unfold namedDot
  rw [← this, ← List.sum_map_mul_right]
  congr 1
  apply List.map_congr_left
  intro f hf
  rw [← h f hf]
  ring

/-- **C256**: an item that has at least the similarity `e ≥ 0` to every member of a cluster has at least this similarity to the centroid, which
is here the scalar product divided by both lengths. -/
theorem C256_near {m sc : Mtx κ ℝ} (hm : Valid m) {s : Sp ℝ} (hs : m.body = .sp s) (hc : m.cols ≠ []) (hsc : computeCosine m = .ok sc)
    {l : List Int} {as : List κ} (hl : l ≠ []) (h : List.Forall₂ (IdOf m) l as) {x : κ} (hx : x ∈ m.rows) {e : ℝ} (he : 0 ≤ e)
    (hsim : ∀ a ∈ as, e ≤ entry sc a x) :
    ∃ v : κ → ℝ, controid s (some l) = .ok (m.cols.map (fun f => some (v f))) ∧ e * (vecLen m v * Real.sqrt (namedDot m x x)) ≤ dotWith m v x := by
  obtain ⟨v, h1, h2⟩ := centre_ok hm hs hl h
  refine ⟨v, h1, ?_⟩
  have hmem := ids_mem h
  have hpos : 0 < (as.length : ℝ) := by
    rw [← h.length_eq, Nat.cast_pos]; exact List.length_pos_iff.2 hl
  obtain ⟨z, hz1, _, _, _, _, hz4, _⟩ := C63_cosine hm (List.ne_nil_of_mem hx) hc
  rw [hsc] at hz1; cases hz1
  let n : κ → ℝ := fun a => Real.sqrt (namedDot m a a)
  -- the length of the centroid is at most the mean of the lengths
  have hlen : vecLen m v * as.length ≤ (as.map n).sum := by
    have hnn : 0 ≤ (as.map n).sum := List.sum_nonneg (by intro y hy; obtain ⟨a, _, rfl⟩ := List.mem_map.1 hy; exact Real.sqrt_nonneg _)
    have hsq : (m.cols.map (fun f => v f * v f)).sum * (as.length * as.length) ≤ (as.map n).sum * (as.map n).sum := by
      rw [centre_sq h2, ← List.sum_map_mul_right]
      refine List.sum_le_sum fun a ha => ?_
      rw [← List.sum_map_mul_left]
      refine List.sum_le_sum fun b hb => ?_
      rw [dot_of_cosine hm hsc hc (hmem a ha) (hmem b hb)]
      have := mul_le_mul_of_nonneg_right (hz4 a b).2 (mul_nonneg (Real.sqrt_nonneg (namedDot m a a)) (Real.sqrt_nonneg (namedDot m b b)))
      rwa [one_mul] at this
    have h0 : 0 ≤ (m.cols.map (fun f => v f * v f)).sum :=
      List.sum_nonneg (by intro y hy; obtain ⟨a, _, rfl⟩ := List.mem_map.1 hy; exact mul_self_nonneg _)
    refine abs_le_of_sq_le_sq' ?_ hnn |>.2
    unfold vecLen
    rw [mul_pow, Real.sq_sqrt h0]
    calc _ = (m.cols.map (fun f => v f * v f)).sum * (as.length * as.length) := by ring
      _ ≤ _ := hsq
      _ = _ := by ring
  have hdot : e * n x * (as.map n).sum ≤ dotWith m v x * as.length := by
    rw [centre_dot h2, ← List.sum_map_mul_left]
    refine List.sum_le_sum fun a ha => ?_
    rw [dot_of_cosine hm hsc hc (hmem a ha) hx]
    have := mul_le_mul_of_nonneg_right (hsim a ha) (mul_nonneg (Real.sqrt_nonneg (namedDot m a a)) (Real.sqrt_nonneg (namedDot m x x)))
    calc e * n x * n a = e * (n a * n x) := by ring
      _ ≤ _ := this
  have hfin : (e * (vecLen m v * n x)) * as.length ≤ dotWith m v x * as.length := by
    calc (e * (vecLen m v * n x)) * as.length = e * n x * (vecLen m v * as.length) := by ring
      _ ≤ e * n x * (as.map n).sum := mul_le_mul_of_nonneg_left hlen (mul_nonneg he (Real.sqrt_nonneg _))
      _ ≤ _ := hdot
  exact le_of_mul_le_mul_right hfin hpos

/-- The sum of numbers that are at most 1 is their number only if all are 1. -/
theorem sum_full {α : Type} (l : List α) (g : α → ℝ) (k : ℝ) (h : ∀ a ∈ l, g a ≤ k) (e : (l.map g).sum = l.length * k) : ∀ a ∈ l, g a = k := by
  induction l with
  | nil => simp
  | cons a l ih =>
    have hle : (l.map g).sum ≤ l.length * k := by
      clear ih e
      induction l with
      | nil => simp
      | cons b l ih =>
        have := ih (fun c hc => h c (by simp only [List.mem_cons] at hc ⊢; tauto))
        have hb := h b (by simp)
        simp only [List.map_cons, List.sum_cons, List.length_cons, Nat.cast_add, Nat.cast_one]
        linarith
    have ha := h a (by simp)
    simp only [List.map_cons, List.sum_cons, List.length_cons, Nat.cast_add, Nat.cast_one] at e
    have e1 : g a = k := by linarith
    have e2 := ih (fun c hc => h c (by simp [hc])) (by linarith)
    intro c hc
    rcases List.mem_cons.1 hc with rfl | hc
    · exact e1
    · exact e2 c hc

/-- **C256**, cohesion: if the members of a cluster have vectors of length 1, the square of the length of the centroid is the mean of their
similarities over all pairs, an item with itself included; it is 1 only if all members are as similar as can be. -/
theorem C256_length {m sc : Mtx κ ℝ} (hm : Valid m) {s : Sp ℝ} (hs : m.body = .sp s) (hc : m.cols ≠ []) (hsc : computeCosine m = .ok sc)
    {l : List Int} {as : List κ} (hl : l ≠ []) (h : List.Forall₂ (IdOf m) l as) (hone : ∀ a ∈ as, namedDot m a a = 1) :
    ∃ v : κ → ℝ, controid s (some l) = .ok (m.cols.map (fun f => some (v f))) ∧
      vecLen m v ^ 2 * (as.length * as.length) = (as.map (fun a => (as.map (fun b => entry sc a b)).sum)).sum ∧
      vecLen m v ≤ 1 ∧ (vecLen m v = 1 ↔ ∀ a ∈ as, ∀ b ∈ as, entry sc a b = 1) := by
  obtain ⟨v, h1, h2⟩ := centre_ok hm hs hl h
  have hmem := ids_mem h
  have hpos : 0 < (as.length : ℝ) := by
    rw [← h.length_eq, Nat.cast_pos]; exact List.length_pos_iff.2 hl
  obtain ⟨a0, ha0⟩ : ∃ a, a ∈ as := List.exists_mem_of_length_pos (by exact_mod_cast hpos)
  obtain ⟨z, hz1, _, _, _, _, hz4, _⟩ := C63_cosine hm (List.ne_nil_of_mem (hmem a0 ha0)) hc
  rw [hsc] at hz1; cases hz1
  have hsum : vecLen m v ^ 2 * (as.length * as.length) = (as.map (fun a => (as.map (fun b => entry sc a b)).sum)).sum := by
    unfold vecLen
    rw [Real.sq_sqrt (List.sum_nonneg (by intro y hy; obtain ⟨a, _, rfl⟩ := List.mem_map.1 hy; exact mul_self_nonneg _)), centre_sq h2]
    congr 1
    refine List.map_congr_left fun a ha => ?_
    congr 1
    refine List.map_congr_left fun b hb => ?_
    rw [dot_of_cosine hm hsc hc (hmem a ha) (hmem b hb), hone a ha, hone b hb]
    simp
  have hin : ∀ a, (as.map (fun b => entry sc a b)).sum ≤ as.length := by
    intro a
    have := List.sum_le_card_nsmul (as.map (fun b => entry sc a b)) 1 (by intro y hy; obtain ⟨b, _, rfl⟩ := List.mem_map.1 hy; exact (hz4 a b).2)
    simpa using this
  have hout : (as.map (fun a => (as.map (fun b => entry sc a b)).sum)).sum ≤ as.length * as.length := by
    have := List.sum_le_card_nsmul (as.map (fun a => (as.map (fun b => entry sc a b)).sum)) as.length
      (by intro y hy; obtain ⟨a, _, rfl⟩ := List.mem_map.1 hy; exact hin a)
    simpa using this
  have hnn : 0 ≤ vecLen m v := Real.sqrt_nonneg _
  have hle : vecLen m v ^ 2 ≤ 1 := by
    rw [← hsum] at hout
    have := mul_pos hpos hpos
    by_contra hgt
    push Not at hgt
    nlinarith
  refine ⟨v, h1, hsum, by nlinarith, fun h1 => ?_, fun hall => ?_⟩
  · rw [h1, one_pow, one_mul] at hsum
    intro a ha
    have e1 := sum_full as (fun a => (as.map (fun b => entry sc a b)).sum) as.length (fun a _ => hin a) hsum.symm a ha
    exact sum_full as (fun b => entry sc a b) 1 (fun b _ => (hz4 a b).2) (by rw [mul_one]; exact e1)
  · have : (as.map (fun a => (as.map (fun b => entry sc a b)).sum)).sum = as.length * as.length := by
      rw [List.map_congr_left (g := fun _ => (as.length : ℝ)) (fun a ha => by
        rw [List.map_congr_left (g := fun _ => (1 : ℝ)) (fun b hb => hall a ha b hb)]; simp)]
      simp
    rw [this] at hsum
    have hk : (as.length * as.length : ℝ) ≠ 0 := (mul_pos hpos hpos).ne'
    have : vecLen m v ^ 2 = 1 := mul_right_cancel₀ hk (by rw [hsum, one_mul])
    nlinarith

theorem kinIds : List.Forall₂ (IdOf kinSo) [0, -2] [1, 2] :=
  .cons ⟨0, by simp [Names, kinSo], rfl⟩ (.cons ⟨1, by simp [Names, kinSo], rfl⟩ .nil)

/-- The contexts 1 and 2, given by a positive and a negative id, have similarity `1 / sqrt 2` to context 3; so has their centroid, at least. -/
example : ∃ v : Nat → ℝ, controid ⟨.csr, 3, 2, [((0, 0), 1), ((1, 1), 1), ((2, 0), 1), ((2, 1), 1)]⟩ (some [0, -2]) = .ok [some (v 5), some (v 6)] ∧
    1 / Real.sqrt 2 * (vecLen kinSo v * Real.sqrt (namedDot kinSo 3 3)) ≤ dotWith kinSo v 3 := by
  obtain ⟨sc, h1, h2, h3⟩ := kinSo_similar
  refine C256_near kinSo_valid rfl (by simp [kinSo]) h1 (by simp) kinIds (by simp [kinSo]) (by positivity) ?_
  intro a ha
  simp only [List.mem_cons, List.not_mem_nil, or_false] at ha
  rcases ha with rfl | rfl
  · exact h2.ge
  · exact h3.ge

/-- Their vectors have length 1, but are not the same. -/
example : ∃ v : Nat → ℝ, controid ⟨.csr, 3, 2, [((0, 0), 1), ((1, 1), 1), ((2, 0), 1), ((2, 1), 1)]⟩ (some [0, -2]) = .ok [some (v 5), some (v 6)] ∧
    vecLen kinSo v < 1 := by
  obtain ⟨sc, h1, _⟩ := kinSo_similar
  obtain ⟨a, b, c, d, e, f⟩ := kinSo_entries
  have n : ∀ x y, namedDot kinSo x y = entry kinSo x 5 * entry kinSo y 5 + entry kinSo x 6 * entry kinSo y 6 := by
    intro x y; simp [namedDot, kinSo]
  obtain ⟨v, h2, _, h3, h4⟩ := C256_length kinSo_valid rfl (by simp [kinSo]) h1 (by simp) kinIds (by
    intro x hx
    simp only [List.mem_cons, List.not_mem_nil, or_false] at hx
    rcases hx with rfl | rfl
    · rw [n, a, b]; norm_num
    · rw [n, c, d]; norm_num)
  refine ⟨v, h2, lt_of_le_of_ne h3 fun h => ?_⟩
  have h5 := h4.1 h 1 (by simp) 2 (by simp)
  have h6 := dot_of_cosine kinSo_valid h1 (by simp [kinSo]) (a := 1) (b := 2) (by simp [kinSo]) (by simp [kinSo])
  rw [h5, n, n, n, a, b, c, d] at h6
  norm_num at h6

end Verif.Assoc
