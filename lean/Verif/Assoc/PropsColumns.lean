import Verif.Assoc.PropsTidy

/-! # Property theorem C233: how similarities and distances depend on the columns -/

set_option linter.unusedSectionVars false

namespace Verif.Assoc
open Verif.Py Verif.Matrix

variable {κ : Type} [LinearOrder κ]

theorem side_sum {m t u : Mtx κ ℝ} (uc : u.cols = m.cols ++ t.cols) (g : ℝ → ℝ → ℝ) (um : ∀ r, ∀ c ∈ m.cols, entry u r c = entry m r c)
    (ut : ∀ r, ∀ c ∈ t.cols, entry u r c = entry t r c) (a b : κ) :
    (u.cols.map (fun c => g (entry u a c) (entry u b c))).sum =
      (m.cols.map (fun c => g (entry m a c) (entry m b c))).sum + (t.cols.map (fun c => g (entry t a c) (entry t b c))).sum := by
  rw [uc, List.map_append, List.sum_append]
  congr 1
  · exact congrArg _ (List.map_congr_left fun c hc => by rw [um a c hc, um b c hc])
  · exact congrArg _ (List.map_congr_left fun c hc => by rw [ut a c hc, ut b c hc])

/-- **C233**: if two matrices with the same rows and different columns are put side by side, the Manhattan distances and the squares of
the Euclidean distances of two rows add up. -/
theorem C233_distances {m t : Mtx κ ℝ} (hm : Valid m) (ht : Valid t) {sa sb : Sp ℝ} (ha : m.body = .sp sa) (hb : t.body = .sp sb)
    (hrows : m.rows = t.rows) (hdis : ∀ c ∈ m.cols, c ∉ t.cols) (hr : m.rows ≠ []) (hc : m.cols ≠ []) (hc' : t.cols ≠ []) :
    ∃ u l1u l1m l1t l2u l2m l2t, concatCols m t = .ok u ∧
      computeDistance u 0 "manhattan" = .ok l1u ∧ computeDistance m 0 "manhattan" = .ok l1m ∧ computeDistance t 0 "manhattan" = .ok l1t ∧
      computeDistance u 0 "euclidean" = .ok l2u ∧ computeDistance m 0 "euclidean" = .ok l2m ∧ computeDistance t 0 "euclidean" = .ok l2t ∧
      ∀ a ∈ m.rows, ∀ b ∈ m.rows, entry l1u a b = entry l1m a b + entry l1t a b ∧
        entry l2u a b ^ 2 = entry l2m a b ^ 2 + entry l2t a b ^ 2 := by
  obtain ⟨u, u1, u2, u3, u4, u5, u6⟩ := C24_concatCols_partial hm ht ha hb hrows hdis
  have hru : u.rows ≠ [] := by rw [u2]; exact hr
  have hcu : u.cols ≠ [] := by rw [u3]; simp [hc]
  have hrt : t.rows ≠ [] := by rw [← hrows]; exact hr
  obtain ⟨l1u, a1, _, _, _, a5⟩ := C122_manhattan u4 hru hcu (metric := "manhattan") (.inr (.inl rfl))
  obtain ⟨l1m, b1, _, _, _, b5⟩ := C122_manhattan hm hr hc (metric := "manhattan") (.inr (.inl rfl))
  obtain ⟨l1t, c1, _, _, _, c5⟩ := C122_manhattan ht hrt hc' (metric := "manhattan") (.inr (.inl rfl))
  obtain ⟨l2u, d1, _, _, _, d5⟩ := C122_euclidean u4 hru hcu (metric := "euclidean") (.inl rfl)
  obtain ⟨l2m, e1, _, _, _, e5⟩ := C122_euclidean hm hr hc (metric := "euclidean") (.inl rfl)
  obtain ⟨l2t, f1, _, _, _, f5⟩ := C122_euclidean ht hrt hc' (metric := "euclidean") (.inl rfl)
  refine ⟨u, l1u, l1m, l1t, l2u, l2m, l2t, u1, a1, b1, c1, d1, e1, f1, fun a ka b kb => ?_⟩
  have ua : a ∈ u.rows := u2 ▸ ka
  have ub : b ∈ u.rows := u2 ▸ kb
  have ta : a ∈ t.rows := hrows ▸ ka
  have tb : b ∈ t.rows := hrows ▸ kb
  have nn : ∀ x : Mtx κ ℝ, (0 : ℝ) ≤ (x.cols.map (fun c => (entry x a c - entry x b c) ^ 2)).sum := by
    intro x
    refine List.sum_nonneg fun y hy => ?_
    obtain ⟨c, _, rfl⟩ := List.mem_map.1 hy
    exact sq_nonneg _
  constructor
  · rw [a5 a ua b ub, b5 a ka b kb, c5 a ta b tb]
    exact side_sum u3 (fun x y => |x - y|) u5 u6 a b
  · rw [d5 a ua b ub, e5 a ka b kb, f5 a ta b tb]
    unfold namedL2
    rw [Real.sq_sqrt (nn u), Real.sq_sqrt (nn m), Real.sq_sqrt (nn t)]
    exact side_sum u3 (fun x y => (x - y) ^ 2) u5 u6 a b

/-- **C233**: if the rows have length 1 in both matrices, their similarity side by side is the mean of their two similarities. -/
theorem C233_cosine {m t : Mtx κ ℝ} (hm : Valid m) (ht : Valid t) {sa sb : Sp ℝ} (ha : m.body = .sp sa) (hb : t.body = .sp sb)
    (hrows : m.rows = t.rows) (hdis : ∀ c ∈ m.cols, c ∉ t.cols) (hc : m.cols ≠ []) (hc' : t.cols ≠ []) {a b : κ} (ka : a ∈ m.rows)
    (kb : b ∈ m.rows) (ma : namedDot m a a = 1) (mb : namedDot m b b = 1) (ta : namedDot t a a = 1) (tb : namedDot t b b = 1) :
    ∃ u su sm st, concatCols m t = .ok u ∧ computeCosine u = .ok su ∧ computeCosine m = .ok sm ∧ computeCosine t = .ok st ∧
      entry su a b = (entry sm a b + entry st a b) / 2 := by
  obtain ⟨u, u1, u2, u3, u4, u5, u6⟩ := C24_concatCols_partial hm ht ha hb hrows hdis
  have hr : m.rows ≠ [] := List.ne_nil_of_mem ka
  obtain ⟨su, a1, _, _, _, a3, _, a5⟩ := C63_cosine u4 (by rw [u2]; exact hr) (by rw [u3]; simp [hc])
  obtain ⟨sm, b1, _, _, _, b3, _, b5⟩ := C63_cosine hm hr hc
  obtain ⟨st, c1, _, _, _, c3, _, c5⟩ := C63_cosine ht (hrows ▸ hr) hc'
  refine ⟨u, su, sm, st, u1, a1, b1, c1, ?_⟩
  have hd : ∀ x y, namedDot u x y = namedDot m x y + namedDot t x y := fun x y => side_sum u3 (fun x y => x * y) u5 u6 x y
  by_cases hab : a = b
  · subst hab
    rw [a3 a (u2 ▸ ka), b3 a ka, c3 a (hrows ▸ ka)]
    norm_num
  · have da : namedDot u a a = 2 := by rw [hd, ma, ta]; norm_num
    have db : namedDot u b b = 2 := by rw [hd, mb, tb]; norm_num
    rw [(a5 a (u2 ▸ ka) b (u2 ▸ kb) hab).2 (by rw [da]; norm_num) (by rw [db]; norm_num),
      (b5 a ka b kb hab).2 (by rw [ma]; norm_num) (by rw [mb]; norm_num),
      (c5 a (hrows ▸ ka) b (hrows ▸ kb) hab).2 (by rw [ta]; norm_num) (by rw [tb]; norm_num), da, db, ma, mb, ta, tb, hd,
      Real.mul_self_sqrt (by norm_num), Real.sqrt_one]
    ring

theorem sum_sub_le {l l' : List κ} (hn : l'.Nodup) (hs : ∀ c ∈ l', c ∈ l) {f : κ → ℝ} (hf : ∀ c, 0 ≤ f c) : (l'.map f).sum ≤ (l.map f).sum := by
  have hp : l'.Subperm l := hn.subperm hs
  obtain ⟨l'', h1, h2⟩ := hp
  rw [← (h1.map f).sum_eq]
  exact (h2.map f).sum_le_sum fun x hx => by
    obtain ⟨c, _, rfl⟩ := List.mem_map.1 hx
    exact hf c

/-- **C233**: selecting columns never raises a distance. -/
theorem C233_select {m v : Mtx κ ℝ} (hm : Valid m) (hc : IsCompressed m) {l : List κ} (hl : l.Nodup)
    (h : submatrix m none (some l) = .ok (some v)) {metric : String} (hmet : metric ∈ ["cityblock", "manhattan", "l1", "euclidean", "l2"])
    {d e : Mtx κ ℝ} (hd : computeDistance m 0 metric = .ok d) (he : computeDistance v 0 metric = .ok e) :
    ∀ a ∈ m.rows, ∀ b ∈ m.rows, entry e a b ≤ entry d a b := by
  rcases submatrix_spec hm hc (row := none) (col := some l) (fun _ h => by cases h) (fun _ h => by cases h; exact hl) with
    ⟨_, h'⟩ | ⟨⟨_, hf⟩, w, w1, w2, _, w4, w5, w6⟩
  · rw [h] at h'; cases h'
  rw [h] at w1; cases w1
  have hvr : v.rows = m.rows := w4
  have hvc : v.cols ≠ [] := by rw [w5]; exact hf (by simp)
  have hsub : ∀ c ∈ v.cols, c ∈ m.cols := fun c hcc => kept_sub (some l) (w5 ▸ hcc)
  have hmc : m.cols ≠ [] := by
    obtain ⟨c, hcc⟩ := List.exists_mem_of_ne_nil _ hvc
    exact List.ne_nil_of_mem (hsub c hcc)
  intro a ka b kb
  have hr : m.rows ≠ [] := List.ne_nil_of_mem ka
  have va : a ∈ v.rows := hvr ▸ ka
  have vb : b ∈ v.rows := hvr ▸ kb
  have key : ∀ g : ℝ → ℝ → ℝ, (∀ x y, 0 ≤ g x y) →
      (v.cols.map (fun c => g (entry v a c) (entry v b c))).sum ≤ (m.cols.map (fun c => g (entry m a c) (entry m b c))).sum := by
    intro g hg
    have e1 : (v.cols.map (fun c => g (entry v a c) (entry v b c))) = v.cols.map (fun c => g (entry m a c) (entry m b c)) :=
      List.map_congr_left fun c hcc => by rw [w6 a va c hcc, w6 b vb c hcc]
    rw [e1]
    exact sum_sub_le w2.cols hsub fun c => hg _ _
  simp only [List.mem_cons, List.not_mem_nil, or_false] at hmet
  by_cases h1 : metric = "cityblock" ∨ metric = "manhattan" ∨ metric = "l1"
  · obtain ⟨d', k1, _, _, _, k5⟩ := C122_manhattan hm hr hmc h1
    obtain ⟨e', q1, _, _, _, q5⟩ := C122_manhattan w2 (hvr ▸ hr) hvc h1
    rw [hd] at k1; cases k1
    rw [he] at q1; cases q1
    rw [k5 a ka b kb, q5 a va b vb]
    exact key (fun x y => |x - y|) fun _ _ => abs_nonneg _
  · have h2 : metric = "euclidean" ∨ metric = "l2" := by tauto
    obtain ⟨d', k1, _, _, _, k5⟩ := C122_euclidean hm hr hmc h2
    obtain ⟨e', q1, _, _, _, q5⟩ := C122_euclidean w2 (hvr ▸ hr) hvc h2
    rw [hd] at k1; cases k1
    rw [he] at q1; cases q1
    rw [k5 a ka b kb, q5 a va b vb]
    exact Real.sqrt_le_sqrt (key (fun x y => (x - y) ^ 2) fun _ _ => sq_nonneg _)

theorem rows_of_two {x y : ℝ} {c : Nat} : Valid (⟨.sp ⟨.csr, 2, 1, [((0, 0), x), ((1, 0), y)]⟩, [1, 2], [c]⟩ : Mtx Nat ℝ) :=
  ⟨rfl, rfl, by simp, by simp, by intro s hs; cases hs; exact ⟨by simp [Dict.WF, Dict.keys], by simp [Dict.keys]⟩⟩

/-- Two words in two feature spaces with a column each; all rows have length 1. -/
def leftSpace : Mtx Nat ℝ := ⟨.sp ⟨.csr, 2, 1, [((0, 0), 1), ((1, 0), 1)]⟩, [1, 2], [5]⟩
def rightSpace : Mtx Nat ℝ := ⟨.sp ⟨.csr, 2, 1, [((0, 0), 1), ((1, 0), -1)]⟩, [1, 2], [6]⟩

/-- The similarity side by side is the mean of 1 and -1. -/
example : Valid leftSpace ∧ Valid rightSpace ∧ namedDot leftSpace 1 1 = 1 ∧ namedDot leftSpace 2 2 = 1 ∧ namedDot rightSpace 1 1 = 1 ∧
    namedDot rightSpace 2 2 = 1 ∧ namedDot leftSpace 1 2 = 1 ∧ namedDot rightSpace 1 2 = -1 := by
  have l1 : entry leftSpace 1 5 = 1 := by rfl
  have l2 : entry leftSpace 2 5 = 1 := by rfl
  have r1 : entry rightSpace 1 6 = 1 := by rfl
  have r2 : entry rightSpace 2 6 = -1 := by rfl
  refine ⟨rows_of_two, rows_of_two, ?_, ?_, ?_, ?_, ?_, ?_⟩ <;>
  · unfold namedDot
    have e1 : leftSpace.cols = [5] := rfl
    have e2 : rightSpace.cols = [6] := rfl
    simp [e1, e2, l1, l2, r1, r2]

/-- Selecting a column. -/
example : ∃ v, submatrix leftSpace none (some [5]) = .ok (some v) := by
  rcases submatrix_spec (m := leftSpace) rows_of_two ⟨_, rfl, by decide⟩ (row := none) (col := some [5]) (fun _ h => by cases h) (fun _ h => by cases h; decide) with
    ⟨h, _⟩ | ⟨_, v, h, _⟩
  · exact absurd ⟨fun h => absurd rfl h, fun _ => by decide⟩ h
  · exact ⟨v, h⟩

end Verif.Assoc
