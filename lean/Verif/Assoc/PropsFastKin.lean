import Verif.Assoc.PropsFast
import Verif.Assoc.PropsSubst

/-! # Property theorems C264 (which words are similar by `compute_ppmi`) -/

set_option linter.unusedSectionVars false

namespace Verif.Assoc
open Verif.Py Verif.Matrix

variable {κ : Type} [LinearOrder κ]

theorem ppmiEntries_keys {positive : Bool} {rv cv : List ℝ} {n : ℝ} : ∀ (l es : List ((Nat × Nat) × ℝ)),
    l.mapM (ppmiEntry positive rv cv n) = .ok es → es.map Prod.fst = l.map Prod.fst := by
  intro l
  induction l with
  | nil => intro es h; cases h; rfl
  | cons e l ih =>
    intro es h
    rw [List.mapM_cons] at h
    cases h1 : ppmiEntry positive rv cv n e with
    | error x => rw [h1] at h; exact (nomatch h)
    | ok e' =>
      cases h2 : l.mapM (ppmiEntry positive rv cv n) with
      | error x => rw [h1, h2] at h; exact (nomatch h)
      | ok es' =>
        rw [h1, h2] at h
        cases h
        have : e'.1 = e.1 := by
          unfold ppmiEntry at h1
          cases a1 : lift (getIdx rv e.1.1) with
          | error x => rw [a1] at h1; exact (nomatch h1)
          | ok r =>
            cases a2 : lift (getIdx cv e.1.2) with
            | error x => rw [a1, a2] at h1; exact (nomatch h1)
            | ok c =>
              cases a3 : ppmiCell positive e.2 r c n with
              | error x =>
                rw [a1, a2] at h1
                simp only [bind, Except.bind, a3] at h1
                exact (nomatch h1)
              | ok v =>
                rw [a1, a2] at h1
                simp only [bind, Except.bind, a3] at h1
                cases h1
                rfl
        simp [this, ih es' h2]

/-- What `compute_ppmi` returns is a matrix as it should be. -/
theorem ppmi_valid {m u : Mtx κ ℝ} (hm : Valid m) {s : Sp ℝ} (hs : m.body = .sp s) {nf cf : Dict κ ℝ} {positive : Bool}
    (h : computePpmi m (some nf) cf positive = .ok u) : Valid u := by
  have hnr : s.nr = m.rows.length := by have := hm.nr; rw [hs] at this; exact this
  have hnc : s.nc = m.cols.length := by have := hm.nc; rw [hs] at this; exact this
  unfold computePpmi at h
  cases h1 : m.rows.mapM (getKey nf) with
  | error x => simp [h1, lift, bind, Except.bind] at h
  | ok rv =>
    cases h2 : m.cols.mapM (getKey cf) with
    | error x => simp [h1, h2, lift, bind, Except.bind] at h
    | ok cv =>
      cases h3 : s.data.mapM (ppmiEntry positive rv cv (freqSum nf)) with
      | error x => simp [h1, h2, h3, hs, lift, bind, Except.bind] at h
      | ok es =>
        simp only [h1, h2, h3, hs, lift, bind, Except.bind] at h
        have hk := ppmiEntries_keys _ _ h3
        unfold mkMtx at h
        simp [Body.nr, Body.nc, hnr, hnc] at h
        subst h
        have hw := hm.sp s hs
        refine ⟨rfl, rfl, hm.rows, hm.cols, ?_⟩
        intro s' hs'
        cases hs'
        refine ⟨?_, ?_⟩
        · have := hw.nodup
          unfold Dict.WF Dict.keys at this ⊢
          rw [hk]; exact this
        · intro p hp
          have h5 : p ∈ Dict.keys s.data := by
            show p ∈ s.data.map Prod.fst
            rw [← hk]; exact hp
          have h6 := hw.bound p h5
          rw [hnr, hnc] at h6
          exact h6

/-- **C264**: by cosine similarity of the rows of `compute_ppmi`, two words have a similarity above 0 exactly if there is a
collocate that occurs with both more often than expected; otherwise it is 0. -/
theorem C264_similar {m : Mtx κ ℝ} (hm : Valid m) {s : Sp ℝ} (hs : m.body = .sp s) {nfreq cfreq : Dict κ ℝ} {R C : κ → ℝ}
    (hf : Fits m nfreq cfreq R C) {a b : κ} (ha : a ∈ m.rows) (hb : b ∈ m.rows) (hab : a ≠ b) (hcols : m.cols ≠ []) :
    ∃ u sc, computePpmi m (some nfreq) cfreq true = .ok u ∧ computeCosine u = .ok sc ∧ 0 ≤ entry sc a b ∧
      (0 < entry sc a b ↔ ∃ c ∈ m.cols, R a * C c < entry m a c * nfreq.values.sum ∧ R b * C c < entry m b c * nfreq.values.sum) := by
  obtain ⟨u, hu, hr, hc, _⟩ := ppmi_cells hm hs R C hf.row hf.col hf.total hf.cell true
  obtain ⟨u', hu', hsign⟩ := C263_sign hm hs hf true
  rw [hu] at hu'
  cases hu'
  have hv : Valid u := ppmi_valid hm hs hu
  have row : ∀ r ∈ m.rows, ∀ c, 0 ≤ entry u r c ∧ (0 < entry u r c ↔ c ∈ m.cols ∧ R r * C c < entry m r c * nfreq.values.sum) := by
    intro r hrr c
    by_cases hcc : c ∈ m.cols
    · obtain ⟨s1, s2⟩ := hsign r hrr c hcc
      refine ⟨not_lt.1 fun h => ?_, by rw [s1]; simp [hcc]⟩
      exact absurd (s2.1 h).1 (by simp)
    · rw [entry_col_absent _ (by rw [hc]; exact hcc)]
      simp [hcc]
  have pa := row a ha
  have pb := row b hb
  have ha' : a ∈ u.rows := hr ▸ ha
  have hb' : b ∈ u.rows := hr ▸ hb
  obtain ⟨sc, s1, _, _, _, _, _, s5⟩ := C63_cosine hv (List.ne_nil_of_mem ha') (hc ▸ hcols)
  refine ⟨u, sc, hu, s1, ?_⟩
  by_cases na : ∃ c, entry u a c ≠ 0
  · by_cases nb : ∃ c, entry u b c ≠ 0
    · obtain ⟨s', _, t1, _, t2, _, _, _, t3, _⟩ := C227_nonneg hv ha' hb' hab (fun c => (pa c).1) (fun c => (pb c).1) na nb
      rw [s1] at t1; cases t1
      refine ⟨t2, fun h0 => ?_, ?_⟩
      · by_contra hno
        have : entry sc a b = 0 := t3.2 fun c => by
          by_contra hc'
          push Not at hc'
          have ea := (pa c).2.1 (lt_of_le_of_ne (pa c).1 (Ne.symm hc'.1))
          have eb := (pb c).2.1 (lt_of_le_of_ne (pb c).1 (Ne.symm hc'.2))
          exact hno ⟨c, ea.1, ea.2, eb.2⟩
        linarith
      · rintro ⟨c, hcc, ca, cb⟩
        refine lt_of_le_of_ne t2 fun h0 => ?_
        rcases t3.1 h0.symm c with e | e
        · have := (pa c).2.2 ⟨hcc, ca⟩; linarith
        · have := (pb c).2.2 ⟨hcc, cb⟩; linarith
    · push Not at nb
      have e0 := (s5 a ha' b hb' hab).1 (.inr (dot_self_zero.2 nb))
      rw [e0]
      refine ⟨le_refl _, fun h0 => absurd h0 (lt_irrefl _), ?_⟩
      rintro ⟨c, hcc, _, cb⟩
      have := (pb c).2.2 ⟨hcc, cb⟩
      rw [nb c] at this
      exact absurd this (lt_irrefl _)
  · push Not at na
    have e0 := (s5 a ha' b hb' hab).1 (.inl (dot_self_zero.2 na))
    rw [e0]
    refine ⟨le_refl _, fun h0 => absurd h0 (lt_irrefl _), ?_⟩
    rintro ⟨c, hcc, ca, _⟩
    have := (pa c).2.2 ⟨hcc, ca⟩
    rw [na c] at this
    exact absurd this (lt_irrefl _)

/-- Words with the same distribution have similarity 1 if they attract a collocate at all. -/
theorem C264_one {m : Mtx κ ℝ} (hm : Valid m) {s : Sp ℝ} (hs : m.body = .sp s) {nfreq cfreq : Dict κ ℝ} {R C : κ → ℝ}
    (hf : Fits m nfreq cfreq R C) {a b : κ} (ha : a ∈ m.rows) (hb : b ∈ m.rows) (hab : a ≠ b) {k : ℝ} (hk : 0 < k)
    (hR : R b = k * R a) (hx : ∀ c ∈ m.cols, entry m b c = k * entry m a c)
    (hat : ∃ c ∈ m.cols, R a * C c < entry m a c * nfreq.values.sum) :
    ∃ u sc, computePpmi m (some nfreq) cfreq true = .ok u ∧ computeCosine u = .ok sc ∧ entry sc a b = 1 := by
  obtain ⟨u, hu, hr, hc, _⟩ := ppmi_cells hm hs R C hf.row hf.col hf.total hf.cell true
  obtain ⟨u', hu', hsign⟩ := C263_sign hm hs hf true
  obtain ⟨u'', hu'', hsame⟩ := C263_distribution hm hs hf true ha hb hk hR hx
  rw [hu] at hu' hu''
  cases hu'
  cases hu''
  obtain ⟨c, hcc, hlt⟩ := hat
  have h1 : 0 < entry u a c := (hsign a ha c hcc).1.2 hlt
  have h2 : 0 < entry u b c := by rw [hsame c hcc]; exact h1
  obtain ⟨sc, _, s1, _, s2, _⟩ := C227_one (ppmi_valid hm hs hu) (hr ▸ ha) (hr ▸ hb) hab ⟨c, h1.ne'⟩ ⟨c, h2.ne'⟩
  refine ⟨u, sc, hu, s1, s2.2 ⟨1, one_pos, fun c => ?_⟩⟩
  by_cases hcc : c ∈ m.cols
  · rw [hsame c hcc, one_mul]
  · rw [entry_col_absent _ (by rw [hc]; exact hcc), entry_col_absent _ (by rw [hc]; exact hcc)]; simp

/-- The words of C263, one of them with a frequency expected to be 1. -/
example : ∃ u sc, computePpmi fastMtx (some [(1, 4), (2, 8), (9, 28)]) [(5, 5), (6, 10)] true = .ok u ∧ computeCosine u = .ok sc ∧ entry sc 1 2 = 1 := by
  obtain ⟨a, b, c, d⟩ := fastMtx_entries
  have hr : fastMtx.rows = [1, 2] := rfl
  have hc : fastMtx.cols = [5, 6] := rfl
  refine C264_one fastMtx_valid rfl fastMtx_fits (by simp [hr]) (by simp [hr]) (by simp) (k := 2) (by norm_num) (by norm_num)
    (by simp [hc, a, b, c, d]; norm_num) ⟨5, by simp [hc], ?_⟩
  rw [a]
  simp [Dict.values]; norm_num

example : ∃ u sc, computePpmi fastMtx (some [(1, 4), (2, 8), (9, 28)]) [(5, 5), (6, 10)] true = .ok u ∧ computeCosine u = .ok sc ∧ 0 < entry sc 1 2 := by
  obtain ⟨a, b, c, d⟩ := fastMtx_entries
  have hr : fastMtx.rows = [1, 2] := rfl
  have hc : fastMtx.cols = [5, 6] := rfl
  obtain ⟨u, sc, h1, h2, _, h3⟩ := C264_similar fastMtx_valid rfl fastMtx_fits (a := 1) (b := 2) (by simp [hr]) (by simp [hr]) (by simp) (by simp [hc])
  refine ⟨u, sc, h1, h2, h3.2 ⟨5, by simp [hc], ?_, ?_⟩⟩
  · rw [a]; simp [Dict.values]; norm_num
  · rw [c]; simp [Dict.values]; norm_num

end Verif.Assoc
