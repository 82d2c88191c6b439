import Verif.Assoc.PropsGeometry

/-! # Property theorem C249 (when two tokens are similar)

The contexts of two tokens are compared by their second-order features; with non-negative weights and non-negative
second-order values nothing can cancel, so that the similarity of two tokens is positive exactly if a context of the one and
a context of the other have a feature in common. -/

set_option linter.unusedSectionVars false

namespace Verif.Assoc
open Verif.Py Verif.Matrix

variable {κ : Type} [LinearOrder κ]

/-- Specification: `f` is a feature of the contexts of the token `t`. -/
def HasFeature (tc so : Mtx κ ℝ) (t f : κ) : Prop := ∃ c, 0 < entry tc t c ∧ 0 < entry so c f

theorem sum_pos_iff {α : Type} (l : List α) (g : α → ℝ) (h : ∀ x ∈ l, 0 ≤ g x) : 0 < (l.map g).sum ↔ ∃ x ∈ l, 0 < g x := by
  induction l with
  | nil => simp
  | cons a l ih =>
    have hl : 0 ≤ (l.map g).sum := List.sum_nonneg (by simpa using fun x hx => h x (by simp [hx]))
    have ha : 0 ≤ g a := h a (by simp)
    have ih := ih (fun x hx => h x (by simp [hx]))
    rw [List.map_cons, List.sum_cons]
    constructor
    · intro hs
      by_cases h0 : 0 < g a
      · exact ⟨a, by simp, h0⟩
      · obtain ⟨x, hx, hp⟩ := ih.1 (by linarith)
        exact ⟨x, by simp [hx], hp⟩
    · rintro ⟨x, hx, hp⟩
      rcases List.mem_cons.1 hx with rfl | hx
      · linarith
      · have := ih.2 ⟨x, hx, hp⟩
        linarith

section
variable {tc so : Mtx κ ℝ} {t : κ}

theorem raw_nonneg (hw : ∀ c, 0 ≤ entry tc t c) (hf : ∀ c f, 0 ≤ entry so c f) (f : κ) : 0 ≤ raw tc so t f :=
  List.sum_nonneg (by
    intro x hx
    obtain ⟨c, _, rfl⟩ := List.mem_map.1 hx
    exact mul_nonneg (hw c) (hf c f))

theorem raw_pos_iff (hw : ∀ c, 0 ≤ entry tc t c) (hf : ∀ c f, 0 ≤ entry so c f) (f : κ) : 0 < raw tc so t f ↔ HasFeature tc so t f := by
  unfold raw
  rw [sum_pos_iff _ _ (fun c _ => mul_nonneg (hw c) (hf c f))]
  constructor
  · rintro ⟨c, _, hp⟩
    refine ⟨c, lt_of_le_of_ne (hw c) ?_, lt_of_le_of_ne (hf c f) ?_⟩
    · rintro h; rw [← h, zero_mul] at hp; exact lt_irrefl _ hp
    · rintro h; rw [← h, mul_zero] at hp; exact lt_irrefl _ hp
  · rintro ⟨c, h1, h2⟩
    refine ⟨c, ?_, mul_pos h1 h2⟩
    by_contra hc
    rw [entry_col_absent _ hc] at h1
    exact lt_irrefl _ h1

theorem scaled_nonneg (norm : Norm) (v : List ℝ) {x : ℝ} (hx : 0 ≤ x) : 0 ≤ scaled norm v x := by
  have hv : 0 ≤ vecNorm norm v := by
    cases norm with
    | l2 => exact Real.sqrt_nonneg _
    | _ => exact List.sum_nonneg (by intro y hy; obtain ⟨z, _, rfl⟩ := List.mem_map.1 hy; exact abs_nonneg z)
  unfold scaled
  split
  · exact hx
  · exact div_nonneg hx hv

theorem scaled_ne_zero_iff (norm : Norm) (v : List ℝ) (x : ℝ) : scaled norm v x ≠ 0 ↔ x ≠ 0 := by
  unfold scaled
  split
  · rfl
  · rename_i h
    push Not at h
    constructor
    · rintro h1 rfl; simp at h1
    · exact fun h1 => div_ne_zero h1 h.2

/-- The features of a token are the columns where its vector is not zero, whatever the norm. -/
theorem vector_features (htc : Valid tc) (hso : Valid so) (hl : IsCsr tc) (hr : IsCsr so)
    (hset : ∀ c, c ∈ tc.cols ↔ c ∈ so.rows) {norm : Norm} (hno : norm ≠ .other) (ht : t ∈ tc.rows) (hw : ∀ c, 0 ≤ entry tc t c)
    (hf : ∀ c f, 0 ≤ entry so c f) {u : Mtx κ ℝ} (hu : computeTokenVectors tc so .addition norm = .ok u) :
    ∀ f, 0 ≤ entry u t f ∧ (entry u t f ≠ 0 ↔ HasFeature tc so t f) := by
  obtain ⟨u', h1, _, _, h2, h3, h4⟩ := C36_addition htc hso hl hr hset hno
  rw [hu] at h1; cases h1
  intro f
  by_cases hc : f ∈ so.cols
  · rw [h4 t ht f hc]
    refine ⟨scaled_nonneg _ _ (raw_nonneg hw hf f), ?_⟩
    rw [scaled_ne_zero_iff, ← raw_pos_iff hw hf f]
    exact ⟨fun h => lt_of_le_of_ne (raw_nonneg hw hf f) (Ne.symm h), fun h => h.ne'⟩
  · rw [entry_col_absent _ (by rw [h3]; exact hc)]
    refine ⟨le_refl _, fun h => absurd rfl h, ?_⟩
    rintro ⟨c, _, h⟩
    rw [entry_col_absent _ hc] at h
    exact absurd h (lt_irrefl _)

end

/-- **C249**: two tokens with non-negative weights have a positive cosine similarity exactly if a context of the one and a
context of the other have a second-order feature in common, whatever the norm; otherwise the similarity is 0 and their
distance is 1. -/
theorem C249_similar {tc so : Mtx κ ℝ} (htc : Valid tc) (hso : Valid so) (hl : IsCsr tc) (hr : IsCsr so)
    (hset : ∀ c, c ∈ tc.cols ↔ c ∈ so.rows) {norm : Norm} (hno : norm ≠ .other) {a b : κ} (ha : a ∈ tc.rows) (hb : b ∈ tc.rows)
    (hab : a ≠ b) (wa : ∀ c, 0 ≤ entry tc a c) (wb : ∀ c, 0 ≤ entry tc b c) (hf : ∀ c f, 0 ≤ entry so c f)
    (na : ∃ f, HasFeature tc so a f) (nb : ∃ f, HasFeature tc so b f) :
    ∃ u s d, computeTokenVectors tc so .addition norm = .ok u ∧ computeCosine u = .ok s ∧ computeDistance u = .ok d ∧
      (0 < entry s a b ↔ ∃ c c' f, 0 < entry tc a c ∧ 0 < entry tc b c' ∧ 0 < entry so c f ∧ 0 < entry so c' f) ∧
      (entry d a b < 1 ↔ ∃ c c' f, 0 < entry tc a c ∧ 0 < entry tc b c' ∧ 0 < entry so c f ∧ 0 < entry so c' f) ∧
      0 ≤ entry s a b ∧ entry d a b ≤ 1 := by
  obtain ⟨u, h1, hu, _, h2, _, _⟩ := C36_addition htc hso hl hr hset hno
  have ga := vector_features htc hso hl hr hset hno ha wa hf h1
  have gb := vector_features htc hso hl hr hset hno hb wb hf h1
  obtain ⟨s, d, hs, hd, s0, _, _, d1, sz, dz⟩ := C227_nonneg hu (h2 ▸ ha) (h2 ▸ hb) hab (fun c => (ga c).1) (fun c => (gb c).1)
    (by obtain ⟨f, h⟩ := na; exact ⟨f, (ga f).2.2 h⟩) (by obtain ⟨f, h⟩ := nb; exact ⟨f, (gb f).2.2 h⟩)
  have key : (¬ ∀ f, entry u a f = 0 ∨ entry u b f = 0) ↔
      ∃ c c' f, 0 < entry tc a c ∧ 0 < entry tc b c' ∧ 0 < entry so c f ∧ 0 < entry so c' f := by
    push Not
    constructor
    · rintro ⟨f, p, q⟩
      obtain ⟨c, x1, x2⟩ := (ga f).2.1 p
      obtain ⟨c', y1, y2⟩ := (gb f).2.1 q
      exact ⟨c, c', f, x1, y1, x2, y2⟩
    · rintro ⟨c, c', f, x1, y1, x2, y2⟩
      exact ⟨f, (ga f).2.2 ⟨c, x1, x2⟩, (gb f).2.2 ⟨c', y1, y2⟩⟩
  refine ⟨u, s, d, h1, hs, hd, ?_, ?_, s0, d1⟩
  · rw [← key, ← not_congr sz]
    exact ⟨fun h => h.ne', fun h => lt_of_le_of_ne s0 (Ne.symm h)⟩
  · rw [← key, ← not_congr dz]
    exact ⟨fun h => h.ne, fun h => lt_of_le_of_ne d1 h⟩

/-- **C249**, in particular: tokens with a common context word that has any feature are similar. -/
theorem C249_common {tc so : Mtx κ ℝ} (htc : Valid tc) (hso : Valid so) (hl : IsCsr tc) (hr : IsCsr so)
    (hset : ∀ c, c ∈ tc.cols ↔ c ∈ so.rows) {norm : Norm} (hno : norm ≠ .other) {a b : κ} (ha : a ∈ tc.rows) (hb : b ∈ tc.rows)
    (hab : a ≠ b) (wa : ∀ c, 0 ≤ entry tc a c) (wb : ∀ c, 0 ≤ entry tc b c) (hf : ∀ c f, 0 ≤ entry so c f) {c f : κ}
    (hca : 0 < entry tc a c) (hcb : 0 < entry tc b c) (hcf : 0 < entry so c f) :
    ∃ u s d, computeTokenVectors tc so .addition norm = .ok u ∧ computeCosine u = .ok s ∧ computeDistance u = .ok d ∧
      0 < entry s a b ∧ entry d a b < 1 := by
  obtain ⟨u, s, d, h1, h2, h3, h4, h5, _⟩ := C249_similar htc hso hl hr hset hno ha hb hab wa wb hf ⟨f, c, hca, hcf⟩ ⟨f, c, hcb, hcf⟩
  exact ⟨u, s, d, h1, h2, h3, h4.2 ⟨c, c, f, hca, hcb, hcf, hcf⟩, h5.2 ⟨c, c, f, hca, hcb, hcf, hcf⟩⟩

/-- Two tokens (11, 12) with the contexts 1 and 2; both contexts have the feature 5, and only the second the feature 6. -/
noncomputable def afTc : Mtx Nat ℝ := ⟨.sp ⟨.csr, 2, 2, [((0, 0), 1), ((1, 1), 1)]⟩, [11, 12], [1, 2]⟩
noncomputable def afSo : Mtx Nat ℝ := ⟨.sp ⟨.csr, 2, 2, [((0, 0), 3), ((1, 0), 1), ((1, 1), 2)]⟩, [1, 2], [5, 6]⟩

theorem entry_nonneg_of {m : Mtx κ ℝ} {s : Sp ℝ} (hb : m.body = .sp s) (h : ∀ e ∈ s.data, 0 ≤ e.2) (r c : κ) : 0 ≤ entry m r c := by
  rw [entry_eq_stored hb]
  unfold storedEntry
  rw [hb]
  cases m.rows.idxOf? r <;> cases m.cols.idxOf? c <;> simp only [Option.getD_none, le_refl]
  cases hv : s.stored _ _ with
  | none => simp
  | some v => exact h _ (Dict.mem_of_get? hv)

theorem afTc_valid : Valid afTc := by
  refine ⟨rfl, rfl, by simp [afTc], by simp [afTc], ?_⟩
  intro s hs; cases hs; exact ⟨by unfold Dict.WF; decide, by decide⟩

theorem afSo_valid : Valid afSo := by
  refine ⟨rfl, rfl, by simp [afSo], by simp [afSo], ?_⟩
  intro s hs; cases hs; exact ⟨by unfold Dict.WF; decide, by decide⟩

theorem afTc_entry (t : Nat) (i j : Nat) (c : Nat) (hi : afTc.rows[i]? = some t) (hj : afTc.cols[j]? = some c) :
    entry afTc t c = afTc.body.val i j := entry_of afTc_valid.rows afTc_valid.cols hi hj

theorem afSo_entry (c : Nat) (i j : Nat) (f : Nat) (hi : afSo.rows[i]? = some c) (hj : afSo.cols[j]? = some f) :
    entry afSo c f = afSo.body.val i j := entry_of afSo_valid.rows afSo_valid.cols hi hj

/-- The tokens have no context in common, and yet are similar, since their contexts share a feature. -/
example : ∃ u s d, computeTokenVectors afTc afSo .addition .l2 = .ok u ∧ computeCosine u = .ok s ∧ computeDistance u = .ok d ∧
    0 < entry s 11 12 ∧ entry d 11 12 < 1 := by
  have t1 : 0 < entry afTc 11 1 := by rw [afTc_entry 11 0 0 1 rfl rfl]; simp [afTc, Body.val, Sp.val, Sp.stored, Dict.get?_cons]
  have t2 : 0 < entry afTc 12 2 := by rw [afTc_entry 12 1 1 2 rfl rfl]; simp [afTc, Body.val, Sp.val, Sp.stored, Dict.get?_cons]
  have s1 : 0 < entry afSo 1 5 := by rw [afSo_entry 1 0 0 5 rfl rfl]; simp [afSo, Body.val, Sp.val, Sp.stored, Dict.get?_cons]
  have s2 : 0 < entry afSo 2 5 := by rw [afSo_entry 2 1 0 5 rfl rfl]; simp [afSo, Body.val, Sp.val, Sp.stored, Dict.get?_cons]
  have n1 : ∀ t c, 0 ≤ entry afTc t c := entry_nonneg_of rfl (by simp)
  have n2 : ∀ c f, 0 ≤ entry afSo c f := entry_nonneg_of rfl (by simp)
  obtain ⟨u, s, d, h1, h2, h3, h4, h5, _⟩ := C249_similar (norm := .l2) (a := 11) (b := 12) afTc_valid afSo_valid ⟨_, rfl, rfl⟩
    ⟨_, rfl, rfl⟩ (by simp [afTc, afSo]) (by simp) (by simp [afTc]) (by simp [afTc]) (by simp) (n1 11) (n1 12) n2
    ⟨5, 1, t1, s1⟩ ⟨5, 2, t2, s2⟩
  exact ⟨u, s, d, h1, h2, h3, h4.2 ⟨1, 2, 5, t1, t2, s1, s2⟩, h5.2 ⟨1, 2, 5, t1, t2, s1, s2⟩⟩

end Verif.Assoc
