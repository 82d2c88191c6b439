import Verif.Assoc.PropsGeometry
import Verif.Matrix.PropsRanks

/-! # Property theorems C243 (neighbours by similarity and by distance) -/

set_option linter.unusedSectionVars false

namespace Verif.Assoc
open Verif.Py Verif.Matrix

variable {κ : Type} [LinearOrder κ]

/-! ### Results of `compute_distance` and `compute_cosine` -/

theorem made_dense {x : Dn ℝ} {names : List κ} {u : Mtx κ ℝ} (h : lift (mkMtx (.dn x) names names) = .ok u) : u.body = .dn x := by
  unfold mkMtx at h
  split at h
  · cases h
  · split at h
    · cases h
    · simp only [ne_eq, not_true_eq_false, and_false, if_false] at h
      cases h
      rfl

theorem distance_dense {m d : Mtx κ ℝ} {metric : String} (h : computeDistance m 0 metric = .ok d) : ∃ x, d.body = .dn x := by
  unfold computeDistance distancesOf at h
  rw [if_pos rfl] at h
  split at h
  · cases hp : pairwiseDistances m.body metric with
    | error e => rw [hp] at h; cases h
    | ok x =>
      rw [hp] at h
      exact ⟨x, made_dense h⟩
  · cases h

theorem cosine_dense {m s : Mtx κ ℝ} (h : computeCosine m = .ok s) : ∃ x, s.body = .dn x := by
  unfold computeCosine cosinesOf at h
  rw [if_pos rfl] at h
  split at h
  · cases h
  · exact ⟨_, made_dense h⟩

theorem cosine_valid {m d : Mtx κ ℝ} (hm : Valid m) (hr : m.rows ≠ []) (hc : m.cols ≠ []) (h : computeDistance m = .ok d) :
    Valid d ∧ d.rows = m.rows ∧ d.cols = m.rows := by
  obtain ⟨u, h1, h2, h3, h4, _⟩ := distances_spec hm hr hc (metric := "cosine") (f := cosDistElem m.body)
    (by simp [dtypes]) (fun hz => by unfold pairwiseDistances; rw [if_neg hz, if_pos rfl])
  rw [h] at h1; cases h1
  exact ⟨h2, h3, h4⟩

/-! ## C243 -/

/-- **C243**, similarity and distance: where no other row is as near, an item has the same rank by the cosine similarity (largest first) as
by the cosine distance (smallest first, `reverse=True`). -/
theorem C243_cosine {m : Mtx κ ℝ} (hm : Valid m) (hr : m.rows ≠ []) (hc : m.cols ≠ []) {sort sort' : List ℝ → List Nat}
    (hsort : IsArgsort sort) (hsort' : IsArgsort sort') :
    ∃ s d us ud, computeCosine m = .ok s ∧ computeDistance m = .ok d ∧ simrank sort s = .ok us ∧ simrank sort' d true = .ok ud ∧
      ∀ a ∈ m.rows, ∀ b ∈ m.rows, (∀ c ∈ m.rows, c ≠ b → entry d a c ≠ entry d a b) → entry us a b = entry ud a b := by
  obtain ⟨s, h1, hvs, hsr, hsc, _⟩ := cosDn_spec hm hr hc
  obtain ⟨d, k1, _⟩ := C122_cosine hm hr hc
  obtain ⟨hvd, hdr, hdc⟩ := cosine_valid hm hr hc k1
  obtain ⟨xs, hxs⟩ := cosine_dense h1
  obtain ⟨xd, hxd⟩ := distance_dense k1
  have hd := C122_similarity hm hr hc k1 h1
  obtain ⟨us, u1, _, _, u2⟩ := C179_partial hsort hvs hxs (fun _ => by rw [hsr, hsc]) false
  obtain ⟨ud, v1, _, _, v2⟩ := C179_partial hsort' hvd hxd (fun _ => by rw [hdr, hdc]) true
  refine ⟨s, d, us, ud, h1, k1, u1, v1, fun a ha b hb hne => ?_⟩
  rw [u2 a (hsr ▸ ha) b (hsc ▸ hb) ?_, v2 a (hdr ▸ ha) b (hdc ▸ hb) (by rw [hdc]; exact hne)]
  · unfold ahead
    rw [hsc, hdc]
    congr 3
    refine List.filter_congr fun c hcm => ?_
    simp only [Bool.false_eq_true, if_false, if_true, hd a ha b hb, hd a ha c hcm, decide_eq_decide]
    constructor <;> intro h <;> linarith
  · rw [hsc]
    intro c hcm hcb he
    apply hne c hcm hcb
    rw [hd a ha b hb, hd a ha c hcm, he]

/-- **C243**, rows of length 1: where no other row is as near, an item has the same rank by the Euclidean as by the cosine distance. -/
theorem C243_euclidean {m : Mtx κ ℝ} (hm : Valid m) (hr : m.rows ≠ []) (hc : m.cols ≠ []) (hunit : ∀ a ∈ m.rows, namedDot m a a = 1)
    {sort sort' : List ℝ → List Nat} (hsort : IsArgsort sort) (hsort' : IsArgsort sort') (reverse : Bool) :
    ∃ e d ue ud, computeDistance m 0 "euclidean" = .ok e ∧ computeDistance m = .ok d ∧ simrank sort e reverse = .ok ue ∧
      simrank sort' d reverse = .ok ud ∧
      ∀ a ∈ m.rows, ∀ b ∈ m.rows, (∀ c ∈ m.rows, c ≠ b → entry d a c ≠ entry d a b) → entry ue a b = entry ud a b := by
  obtain ⟨e, h1, hve, her, hec, _⟩ := C122_euclidean hm hr hc (.inl rfl)
  obtain ⟨d, k1, _⟩ := C122_cosine hm hr hc
  obtain ⟨hvd, hdr, hdc⟩ := cosine_valid hm hr hc k1
  obtain ⟨xe, hxe⟩ := distance_dense h1
  obtain ⟨xd, hxd⟩ := distance_dense k1
  have ho : ∀ a ∈ m.rows, ∀ b ∈ m.rows, ∀ c ∈ m.rows, (entry e a b < entry e a c ↔ entry d a b < entry d a c) := by
    intro a ha b hb c hcm
    obtain ⟨e', d', g1, g2, g⟩ := C228_order hm hc ha hb hcm (hunit a ha) (hunit b hb) (hunit c hcm)
    rw [h1] at g1; cases g1
    rw [k1] at g2; cases g2
    exact g
  obtain ⟨ue, u1, _, _, u2⟩ := C179_partial hsort hve hxe (fun _ => by rw [her, hec]) reverse
  obtain ⟨ud, v1, _, _, v2⟩ := C179_partial hsort' hvd hxd (fun _ => by rw [hdr, hdc]) reverse
  refine ⟨e, d, ue, ud, h1, k1, u1, v1, fun a ha b hb hne => ?_⟩
  rw [u2 a (her ▸ ha) b (hec ▸ hb) ?_, v2 a (hdr ▸ ha) b (hdc ▸ hb) (by rw [hdc]; exact hne)]
  · unfold ahead
    rw [hec, hdc]
    congr 3
    refine List.filter_congr fun c hcm => ?_
    cases reverse with
    | false => simp only [Bool.false_eq_true, if_false, ho a ha b hb c hcm]
    | true => simp only [if_true, ho a ha c hcm b hb]
  · rw [hec]
    intro c hcm hcb he
    rcases lt_or_gt_of_ne (hne c hcm hcb) with h | h
    · exact absurd ((ho a ha c hcm b hb).2 h) (by rw [he]; exact lt_irrefl _)
    · exact absurd ((ho a ha b hb c hcm).2 h) (by rw [he]; exact lt_irrefl _)

/-- **C243**, token vectors: for token vectors computed with `normalization='l2'`, none 0 throughout, the three rankings agree where no other
token is as near. -/
theorem C243_tokens {tc so : Mtx κ ℝ} (htc : Valid tc) (hso : Valid so) (hl : IsCsr tc) (hr : IsCsr so)
    (hset : ∀ c, c ∈ tc.cols ↔ c ∈ so.rows) (hne : tc.rows ≠ []) {u : Mtx κ ℝ} (hu : computeTokenVectors tc so .addition .l2 = .ok u)
    (hnz : ∀ a ∈ tc.rows, ∃ f, entry u a f ≠ 0) {sort : List ℝ → List Nat} (hsort : IsArgsort sort) :
    ∃ s d e us ud ue, computeCosine u = .ok s ∧ computeDistance u = .ok d ∧ computeDistance u 0 "euclidean" = .ok e ∧
      simrank sort s = .ok us ∧ simrank sort d true = .ok ud ∧ simrank sort e true = .ok ue ∧
      ∀ a ∈ tc.rows, ∀ b ∈ tc.rows, (∀ c ∈ tc.rows, c ≠ b → entry s a c ≠ entry s a b) →
        entry us a b = entry ud a b ∧ entry ue a b = entry ud a b := by
  obtain ⟨u', h1, h2⟩ := (C61_unit_norm htc hso hl hr hset).2
  rw [hu] at h1; cases h1
  obtain ⟨u', k1, kv, _, kr, kc, _⟩ := C36_addition htc hso hl hr hset (norm := .l2) (by simp)
  rw [hu] at k1; cases k1
  have unit : ∀ t ∈ u.rows, namedDot u t t = 1 := by
    intro t ht
    rw [kr] at ht
    rcases h2 t ht with h | h
    · unfold namedDot
      rw [kc, ← h]
      refine congrArg _ (List.map_congr_left fun f _ => ?_)
      ring
    · obtain ⟨f, hf⟩ := hnz t ht
      exact absurd (h f) hf
  have hrows : u.rows ≠ [] := kr ▸ hne
  have hcols : u.cols ≠ [] := by
    rintro h
    obtain ⟨t, ht⟩ := List.exists_mem_of_ne_nil _ hne
    obtain ⟨f, hf⟩ := hnz t ht
    exact hf (entry_col_absent _ (by rw [h]; simp))
  obtain ⟨s, d, us, ud, a1, a2, a3, a4, a5⟩ := C243_cosine kv hrows hcols hsort hsort
  obtain ⟨e, d', ue, ud', b1, b2, b3, b4, b5⟩ := C243_euclidean kv hrows hcols unit hsort hsort true
  rw [a2] at b2; cases b2
  rw [a4] at b4; cases b4
  refine ⟨s, d, e, us, ud, ue, a1, a2, b1, a3, a4, b3, fun a ha b hb hn => ?_⟩
  have hd := C122_similarity kv hrows hcols a2 a1
  have hn' : ∀ c ∈ u.rows, c ≠ b → entry d a c ≠ entry d a b := by
    intro c hc hcb he
    rw [hd a (kr ▸ ha) c hc, hd a (kr ▸ ha) b (kr ▸ hb)] at he
    exact hn c (kr ▸ hc) hcb (by linarith)
  exact ⟨a5 a (kr ▸ ha) b (kr ▸ hb) hn', b5 a (kr ▸ ha) b (kr ▸ hb) hn'⟩

/-! ### A case that meets the hypotheses -/

/-- A sorting routine for real numbers. -/
noncomputable def realSort (l : List ℝ) : List Nat := sortedBy (fun i => l.getD i 0) (List.range l.length)

theorem realSort_argsort : IsArgsort realSort := by
  refine ⟨fun l => sortedBy_perm _ _, fun l => ?_⟩
  refine (sortedBy_pairwise (fun i => l.getD i 0) (List.range l.length)).imp ?_
  intro a b h x y hx hy
  simpa only [List.getD_eq_getElem?_getD, hx, hy, Option.getD_some] using h

/-- The rows (1, 0) and (0, 1). -/
def axes : Mtx Nat ℝ := ⟨.dn { nr := 2, nc := 2, elem := fun i j => if i = j then 1 else 0 }, [10, 30], [1, 2]⟩

theorem axes_entry : entry axes 10 1 = 1 ∧ entry axes 10 2 = 0 ∧ entry axes 30 1 = 0 ∧ entry axes 30 2 = 1 := by
  have hr : axes.rows.Nodup := by decide
  have hc : axes.cols.Nodup := by decide
  refine ⟨?_, ?_, ?_, ?_⟩
  · rw [entry_of hr hc (i := 0) (j := 0) rfl rfl]; rfl
  · rw [entry_of hr hc (i := 0) (j := 1) rfl rfl]; rfl
  · rw [entry_of hr hc (i := 1) (j := 0) rfl rfl]; rfl
  · rw [entry_of hr hc (i := 1) (j := 1) rfl rfl]; rfl

/-- Both rows have length 1 and are at different distances from the first one. -/
example : Valid axes ∧ axes.rows ≠ [] ∧ axes.cols ≠ [] ∧ (∀ a ∈ axes.rows, namedDot axes a a = 1) ∧ IsArgsort realSort ∧
    ∃ d, computeDistance axes = .ok d ∧ ∀ c ∈ axes.rows, c ≠ 30 → entry d 10 c ≠ entry d 10 30 := by
  obtain ⟨a, b, c, e⟩ := axes_entry
  have hv : Valid axes := ⟨rfl, rfl, by decide, by decide, fun s hs => by cases hs⟩
  have d1 : namedDot axes 10 10 = 1 := by
    show ([1, 2].map (fun c => entry axes 10 c * entry axes 10 c)).sum = 1
    simp [a, b]
  have d2 : namedDot axes 30 30 = 1 := by
    show ([1, 2].map (fun c => entry axes 30 c * entry axes 30 c)).sum = 1
    simp [c, e]
  have d3 : namedDot axes 10 30 = 0 := by
    show ([1, 2].map (fun c => entry axes 10 c * entry axes 30 c)).sum = 0
    simp [a, b, c, e]
  refine ⟨hv, by decide, by decide, ?_, realSort_argsort, ?_⟩
  · intro x hx
    rcases List.mem_cons.1 hx with rfl | hx
    · exact d1
    · rw [List.mem_singleton.1 hx]; exact d2
  · obtain ⟨d, k1, _, _, k2, _, k5⟩ := C122_cosine hv (by decide) (by decide)
    refine ⟨d, k1, fun x hx hne => ?_⟩
    rcases List.mem_cons.1 hx with rfl | hx
    · rw [k2 10 (by decide), (k5 10 (by decide) 30 (by decide) (by decide)).2 (by rw [d1]; norm_num) (by rw [d2]; norm_num), d3]
      norm_num
    · exact absurd (List.mem_singleton.1 hx) hne

end Verif.Assoc
