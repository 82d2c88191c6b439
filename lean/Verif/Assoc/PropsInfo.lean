import Verif.Assoc.PropsWeights
import Verif.Matrix.PropsToken

/-! # Property theorem C257 (pointwise mutual information adds up to mutual information) -/

set_option linter.unusedSectionVars false

namespace Verif.Assoc
open Verif.Py Verif.Matrix

variable {κ : Type} [LinearOrder κ]

/-- The frequencies are the marginal sums of the matrix, and the row frequencies have no others. -/
structure Marginals (m : Mtx κ ℝ) (nfreq cfreq : Dict κ ℝ) : Prop where
  row : ∀ r ∈ m.rows, nfreq.get? r = some ((m.cols.map (fun c => entry m r c)).sum)
  col : ∀ c ∈ m.cols, cfreq.get? c = some ((m.rows.map (fun r => entry m r c)).sum)
  all : nfreq.values.sum = (m.rows.map (fun r => (m.cols.map (fun c => entry m r c)).sum)).sum

/-- The sum over all cells. -/
noncomputable def cells (m : Mtx κ ℝ) (g : κ → κ → ℝ) : ℝ := (m.rows.map (fun r => (m.cols.map (fun c => g r c)).sum)).sum

/-- `compute_ppmi`, cell by cell, for non-negative counts with frequencies that are at least the counts. -/
theorem ppmi_cells {m : Mtx κ ℝ} (hm : Valid m) {s : Sp ℝ} (hs : m.body = .sp s) {nfreq cfreq : Dict κ ℝ} (R C : κ → ℝ)
    (hR : ∀ r ∈ m.rows, nfreq.get? r = some (R r)) (hC : ∀ c ∈ m.cols, cfreq.get? c = some (C c)) (hN : 0 < nfreq.values.sum)
    (hcell : ∀ r ∈ m.rows, ∀ c ∈ m.cols, 0 ≤ entry m r c ∧ entry m r c ≤ R r ∧ entry m r c ≤ C c) (positive : Bool) :
    ∃ u, computePpmi m (some nfreq) cfreq positive = .ok u ∧ u.rows = m.rows ∧ u.cols = m.cols ∧
      ∀ r ∈ m.rows, ∀ c ∈ m.cols, entry u r c = if entry m r c = 0 then 0 else
        (if positive then max 0 (Real.log (entry m r c * nfreq.values.sum / (R r * C c))) else Real.log (entry m r c * nfreq.values.sum / (R r * C c))) := by
  let N := nfreq.values.sum
  let val : Nat × Nat → ℝ → ℝ := fun p x => if x = 0 then 0 else
    (if positive then max 0 (Real.log (x * N / (((m.rows[p.1]?).map R).getD 0 * ((m.cols[p.2]?).map C).getD 0)))
      else Real.log (x * N / (((m.rows[p.1]?).map R).getD 0 * ((m.cols[p.2]?).map C).getD 0)))
  have hr : m.rows.mapM (getKey nfreq) = .ok (m.rows.map R) := by
    apply mapM_ok_of
    intro r hr
    unfold getKey
    rw [hR r hr]
  have hc : m.cols.mapM (getKey cfreq) = .ok (m.cols.map C) := by
    apply mapM_ok_of
    intro c hc
    unfold getKey
    rw [hC c hc]
  have hes : s.data.mapM (ppmiEntry positive (m.rows.map R) (m.cols.map C) (freqSum nfreq)) = .ok (s.data.map (fun e => (e.1, val e.1 e.2))) := by
    apply mapM_ok_of
    rintro ⟨⟨i, j⟩, x⟩ he
    have hst : s.stored i j = some x := Dict.get?_of_mem (hm.sp s hs).nodup he
    obtain ⟨hi, hj⟩ := bound_of_stored hm hs hst
    have hi' : m.rows[i]? = some m.rows[i] := List.getElem?_eq_getElem hi
    have hj' : m.cols[j]? = some m.cols[j] := List.getElem?_eq_getElem hj
    have hx : entry m m.rows[i] m.cols[j] = x := by
      rw [entry_of hm.rows hm.cols hi' hj', hs]
      show (s.stored i j).getD 0 = x
      rw [hst]; rfl
    obtain ⟨h0, h1, h2⟩ := hcell _ (List.getElem_mem hi) _ (List.getElem_mem hj)
    rw [hx] at h0 h1 h2
    unfold ppmiEntry getIdx
    simp only [List.getElem?_map, hi', hj', Option.map_some, lift, bind, Except.bind, val, Option.getD_some]
    rcases lt_or_eq_of_le h0 with hp | hz
    · rw [show freqSum nfreq = N from rfl, ppmiCell_eq hp (lt_of_lt_of_le hp h1) (lt_of_lt_of_le hp h2) hN, if_neg hp.ne']
    · subst hz
      have : ppmiCell positive 0 (R m.rows[i]) (C m.cols[j]) (freqSum nfreq) = .ok 0 := by
        unfold ppmiCell
        have hq : (if R m.rows[i] * C m.cols[j] > 0 then 0 * freqSum nfreq / (R m.rows[i] * C m.cols[j]) else 0) = 0 := by simp
        simp only [hq, ne_eq, not_true_eq_false, if_false, bind, Except.bind]
        rw [pyLog_ok one_pos]
        simp
      rw [this]
      simp
  refine ⟨⟨.sp { fmt := .csr, nr := s.nr, nc := s.nc, data := s.data.map (fun e => (e.1, val e.1 e.2)) }, m.rows, m.cols⟩, ?_, rfl, rfl, ?_⟩
  · have hnr : s.nr = m.rows.length := by have := hm.nr; rw [hs] at this; exact this
    have hnc : s.nc = m.cols.length := by have := hm.nc; rw [hs] at this; exact this
    unfold computePpmi
    simp only [hr, hc, hs, hes, lift, bind, Except.bind]
    unfold mkMtx
    simp [Body.nr, Body.nc, hnr, hnc]
  · intro r hr c hc
    obtain ⟨i, hi⟩ := List.mem_iff_getElem?.1 hr
    obtain ⟨j, hj⟩ := List.mem_iff_getElem?.1 hc
    rw [entry_of (m := m) hm.rows hm.cols hi hj, entry_of hm.rows hm.cols (m := ⟨.sp { fmt := .csr, nr := s.nr, nc := s.nc, data := s.data.map (fun e => (e.1, val e.1 e.2)) }, m.rows, m.cols⟩) hi hj, hs]
    show (Dict.get? (s.data.map (fun e => (e.1, val e.1 e.2))) (i, j)).getD 0 = _
    rw [get?_mapVals]
    show ((s.stored i j).map (val (i, j))).getD 0 = _
    have hv : Body.val (.sp s) i j = (s.stored i j).getD 0 := rfl
    rw [hv]
    cases hst : s.stored i j with
    | none => simp
    | some x => simp only [Option.map_some, Option.getD_some, val, hi, hj]; rfl

/-- The inequality behind it. -/
theorem log_cell {x e : ℝ} (hx : 0 < x) (he : 0 < e) : x - e ≤ x * Real.log (x / e) ∧ (x - e = x * Real.log (x / e) → x = e) := by
  have hq : 0 < e / x := div_pos he hx
  have hl : Real.log (x / e) = - Real.log (e / x) := by rw [← Real.log_inv, inv_div]
  rw [hl]
  constructor
  · have := Real.log_le_sub_one_of_pos hq
    have h2 := mul_le_mul_of_nonneg_left this hx.le
    have h3 : x * (e / x - 1) = e - x := by field_simp
    linarith
  · intro h
    by_contra hne
    have hq1 : e / x ≠ 1 := by
      intro h1
      exact hne ((div_eq_one_iff_eq hx.ne').1 h1).symm
    have := Real.log_lt_sub_one_of_pos hq hq1
    have h2 := mul_lt_mul_of_pos_left this hx
    have h3 : x * (e / x - 1) = e - x := by field_simp
    linarith

/-- A sum of differences that are at least 0 is 0 only if all are. -/
theorem cells_le {m : Mtx κ ℝ} {g h : κ → κ → ℝ} (hle : ∀ r ∈ m.rows, ∀ c ∈ m.cols, g r c ≤ h r c) :
    cells m g ≤ cells m h ∧ (cells m g = cells m h → ∀ r ∈ m.rows, ∀ c ∈ m.cols, g r c = h r c) := by
  have one : ∀ (α : Type) (l : List α) (g h : α → ℝ), (∀ a ∈ l, g a ≤ h a) → (l.map g).sum ≤ (l.map h).sum ∧
      ((l.map g).sum = (l.map h).sum → ∀ a ∈ l, g a = h a) := by
    intro α l g h
    induction l with
    | nil => simp
    | cons a l ih =>
      intro hl
      obtain ⟨i1, i2⟩ := ih (fun b hb => hl b (by simp [hb]))
      have ha := hl a (by simp)
      simp only [List.map_cons, List.sum_cons]
      refine ⟨by linarith, fun e b hb => ?_⟩
      rcases List.mem_cons.1 hb with rfl | hb
      · linarith
      · exact i2 (by linarith) b hb
  have inner := fun r hr => one κ m.cols (g r) (h r) (hle r hr)
  obtain ⟨o1, o2⟩ := one κ m.rows (fun r => (m.cols.map (fun c => g r c)).sum) (fun r => (m.cols.map (fun c => h r c)).sum) (fun r hr => (inner r hr).1)
  exact ⟨o1, fun e r hr c hc => (inner r hr).2 (o2 e r hr) c hc⟩

theorem info_swap {α β : Type} (l : List α) (k : List β) (g : α → β → ℝ) :
    (l.map (fun a => (k.map (fun b => g a b)).sum)).sum = (k.map (fun b => (l.map (fun a => g a b)).sum)).sum := by
  induction l with
  | nil => simp
  | cons a l ih =>
    simp only [List.map_cons, List.sum_cons, ih]
    rw [List.sum_map_add]

/-- **C257**: with `positive=False` and the frequencies that the matrix itself has, the association of every pair, weighted
by how often the pair occurs, adds up to at least 0, and to 0 exactly if every pair occurs as often as expected by chance. -/
theorem C257_information {m : Mtx κ ℝ} (hm : Valid m) {s : Sp ℝ} (hs : m.body = .sp s) {nfreq cfreq : Dict κ ℝ}
    (hf : Marginals m nfreq cfreq) (hN : 0 < nfreq.values.sum) (h0 : ∀ r ∈ m.rows, ∀ c ∈ m.cols, 0 ≤ entry m r c) :
    ∃ u, computePpmi m (some nfreq) cfreq false = .ok u ∧ u.rows = m.rows ∧ u.cols = m.cols ∧
      0 ≤ cells m (fun r c => entry m r c * entry u r c) ∧
      (cells m (fun r c => entry m r c * entry u r c) = 0 ↔ ∀ r ∈ m.rows, ∀ c ∈ m.cols,
        entry m r c * cells m (entry m) = (m.cols.map (fun c' => entry m r c')).sum * (m.rows.map (fun r' => entry m r' c)).sum) := by
  let R : κ → ℝ := fun r => (m.cols.map (fun c => entry m r c)).sum
  let C : κ → ℝ := fun c => (m.rows.map (fun r => entry m r c)).sum
  have hxR : ∀ r ∈ m.rows, ∀ c ∈ m.cols, entry m r c ≤ R r := by
    intro r hr c hc
    refine List.single_le_sum ?_ _ (List.mem_map.2 ⟨c, hc, rfl⟩)
    intro x hx
    obtain ⟨c', hc', rfl⟩ := List.mem_map.1 hx
    exact h0 r hr c' hc'
  have hxC : ∀ r ∈ m.rows, ∀ c ∈ m.cols, entry m r c ≤ C c := by
    intro r hr c hc
    refine List.single_le_sum ?_ _ (List.mem_map.2 ⟨r, hr, rfl⟩)
    intro x hx
    obtain ⟨r', hr', rfl⟩ := List.mem_map.1 hx
    exact h0 r' hr' c hc
  obtain ⟨u, hu, hur, huc, hcell⟩ := ppmi_cells hm hs R C hf.row hf.col hN (fun r hr c hc => ⟨h0 r hr c hc, hxR r hr c hc, hxC r hr c hc⟩) false
  have hNc : nfreq.values.sum = cells m (entry m) := hf.all
  generalize nfreq.values.sum = N at hN hcell hNc
  have hterm : ∀ r ∈ m.rows, ∀ c ∈ m.cols, entry m r c - R r * C c / N ≤ entry m r c * entry u r c ∧
      (entry m r c - R r * C c / N = entry m r c * entry u r c ↔ entry m r c * N = R r * C c) := by
    intro r hr c hc
    have hv := hcell r hr c hc
    have a0 := h0 r hr c hc
    have a1 := hxR r hr c hc
    have a2 := hxC r hr c hc
    rcases lt_or_eq_of_le a0 with hp | hz
    · have hR : 0 < R r := lt_of_lt_of_le hp a1
      have hC : 0 < C c := lt_of_lt_of_le hp a2
      have he : 0 < R r * C c / N := div_pos (mul_pos hR hC) hN
      rw [if_neg hp.ne'] at hv
      simp only [Bool.false_eq_true, if_false] at hv
      have hq : entry m r c * N / (R r * C c) = entry m r c / (R r * C c / N) := by field_simp
      rw [hv, hq]
      refine ⟨(log_cell hp he).1, fun h => ?_, fun h => ?_⟩
      · have := (log_cell hp he).2 h
        rw [this]; field_simp
      · have : entry m r c = R r * C c / N := by rw [← h]; field_simp
        rw [← this, div_self hp.ne']; simp
    · rw [← hz] at a1 a2 ⊢
      have hnn : 0 ≤ R r * C c / N := div_nonneg (mul_nonneg a1 a2) hN.le
      refine ⟨by simpa using hnn, fun h => ?_, fun h => ?_⟩
      · have h1 : R r * C c / N = 0 := by linarith
        rcases div_eq_zero_iff.1 h1 with h2 | h2
        · simp [h2]
        · exact absurd h2 hN.ne'
      · have h1 : R r * C c = 0 := by linarith
        rw [h1]; simp
  have hsum : cells m (fun r c => entry m r c - R r * C c / N) = 0 := by
    have hRs : (m.rows.map R).sum = N := by rw [hNc]; rfl
    have hCs : (m.cols.map C).sum = N := by
      rw [hNc]
      exact (info_swap m.rows m.cols (entry m)).symm
    have h1 : ∀ r, (m.cols.map (fun c => entry m r c - R r * C c / N)).sum = R r - R r := by
      intro r
      have : (m.cols.map (fun c => entry m r c - R r * C c / N)).sum = (m.cols.map (fun c => entry m r c)).sum - (R r / N) * (m.cols.map C).sum := by
        rw [← List.sum_map_mul_left]
        generalize m.cols = l
        induction l with
        | nil => simp
        | cons c l ih => simp only [List.map_cons, List.sum_cons, ih]; ring
      rw [this, hCs]
      have : R r / N * N = R r := by field_simp
      rw [this]
    unfold cells
    simp only [h1, sub_self]
    simp
  obtain ⟨c1, c2⟩ := cells_le (fun r hr c hc => (hterm r hr c hc).1)
  refine ⟨u, hu, hur, huc, by rw [hsum] at c1; exact c1, fun h r hr c hc => ?_, fun h => ?_⟩
  · rw [← hNc]
    exact (hterm r hr c hc).2.1 (c2 (by rw [hsum, h]) r hr c hc)
  · rw [← hsum]
    unfold cells
    refine congrArg List.sum (List.map_congr_left (fun r hr => congrArg List.sum (List.map_congr_left (fun c hc => ?_))))
    exact ((hterm r hr c hc).2.2 (by rw [hNc]; exact h r hr c hc)).symm

/-- The sums that the library gives are the frequencies that are meant, unless there is only one row or one column. -/
theorem C257_sums {m : Mtx κ ℝ} (hm : Valid m) (h1 : m.rows.length ≠ 1) (h2 : m.cols.length ≠ 1) :
    ∃ nfreq cfreq, rowSums m = .ok nfreq ∧ colSums m = .ok cfreq ∧ Marginals m nfreq cfreq ∧ nfreq.values.sum = Matrix.total m := by
  obtain ⟨nf, a1, a2, a3⟩ := C53_row_sums_partial hm h1
  obtain ⟨cf, b1, _, b3⟩ := C53_col_sums_partial hm h2
  have hw : Dict.WF nf := by
    unfold Dict.WF
    rw [a2]
    exact hm.rows
  have hv : nf.values = m.rows.map (fun r => (m.cols.map (fun c => entry m r c)).sum) := by
    rw [← a2]
    unfold Dict.values Dict.keys
    rw [List.map_map]
    refine List.map_congr_left fun e he => ?_
    have e1 : Dict.get? nf e.1 = some e.2 := Dict.get?_of_mem hw he
    have e2 := a3 e.1 (by rw [← a2]; exact List.mem_map.2 ⟨e, he, rfl⟩)
    rw [e1] at e2
    exact Option.some.inj e2
  exact ⟨nf, cf, a1, b1, ⟨a3, b3, by rw [hv]⟩, by rw [hv, (C53_total hm).1]⟩

/-- Two words (1, 2), two contexts (5, 6); 1 occurs three times with 5. -/
def infoMtx : Mtx Nat ℝ := ⟨.sp { fmt := .csr, nr := 2, nc := 2, data := [((0, 0), 3), ((0, 1), 1), ((1, 1), 2)] }, [1, 2], [5, 6]⟩

theorem infoMtx_valid : Valid infoMtx := by
  refine ⟨rfl, rfl, by simp [infoMtx], by simp [infoMtx], ?_⟩
  intro s hs
  simp only [infoMtx, Body.sp.injEq] at hs
  subst hs
  exact ⟨by unfold Dict.WF; simp, by simp⟩

theorem infoMtx_entries : entry infoMtx 1 5 = 3 ∧ entry infoMtx 1 6 = 1 ∧ entry infoMtx 2 5 = 0 ∧ entry infoMtx 2 6 = 2 := by
  refine ⟨?_, ?_, ?_, ?_⟩ <;> rfl

theorem infoMtx_marginals : Marginals infoMtx [(1, 4), (2, 2)] [(5, 3), (6, 3)] := by
  obtain ⟨a, b, c, d⟩ := infoMtx_entries
  have hr : infoMtx.rows = [1, 2] := rfl
  have hc : infoMtx.cols = [5, 6] := rfl
  constructor
  · simp [hr, hc, a, b, c, d, Dict.get?_cons]; norm_num
  · simp [hr, hc, a, b, c, d, Dict.get?_cons]; norm_num
  · simp [hr, hc, a, b, c, d, Dict.values]; norm_num

/-- All hypotheses are met; the pairs do not occur as often as expected by chance, so the sum is positive. -/
example : ∃ u, computePpmi infoMtx (some [(1, 4), (2, 2)]) [(5, 3), (6, 3)] false = .ok u ∧
    0 < cells infoMtx (fun r c => entry infoMtx r c * entry u r c) := by
  obtain ⟨a, b, c, d⟩ := infoMtx_entries
  have hr : infoMtx.rows = [1, 2] := rfl
  have hc : infoMtx.cols = [5, 6] := rfl
  obtain ⟨u, h1, _, _, h2, h3⟩ := C257_information infoMtx_valid rfl infoMtx_marginals (by simp [Dict.values]; norm_num)
    (by simp [hr, hc, a, b, c, d])
  refine ⟨u, h1, lt_of_le_of_ne h2 fun h => ?_⟩
  have := h3.1 h.symm 2 (by simp [hr]) 5 (by simp [hc])
  simp [hr, hc, a, c, d] at this

end Verif.Assoc
