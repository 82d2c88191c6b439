import Verif.Assoc.Distance
import Verif.Assoc.PropsWeights
import Verif.Assoc.PropsTextbook
import Verif.Matrix.PropsToken
import Mathlib.Algebra.Order.BigOperators.Group.Finset

set_option linter.unusedSectionVars false

/-! # Property theorems C123 (sums as frequencies) and C124 (single scores) -/

namespace Verif.Assoc
open Verif.Py Verif.Matrix

variable {κ : Type} [LinearOrder κ]

/-! ## C123 -/

/-- Specification: sum of a row, sum of a column and sum of all values of an array. -/
noncomputable def rowOf (s : Sp ℝ) (i : Nat) : ℝ := ∑ j ∈ Finset.range s.nc, s.val i j
noncomputable def colOf (s : Sp ℝ) (j : Nat) : ℝ := ∑ i ∈ Finset.range s.nr, s.val i j
noncomputable def allOf (s : Sp ℝ) : ℝ := ∑ i ∈ Finset.range s.nr, rowOf s i

theorem sum_list_range (n : Nat) (f : Nat → ℝ) : ((List.range n).map f).sum = ∑ j ∈ Finset.range n, f j := by
  induction n with
  | zero => rfl
  | succ n ih => rw [List.range_succ, List.map_append, List.sum_append, ih, Finset.sum_range_succ]; simp

theorem spRowSums_at (s : Sp ℝ) {i : Nat} (hi : i < s.nr) : (spRowSums s)[i]? = some (rowOf s i) := by
  unfold spRowSums rowOf
  rw [List.getElem?_map, List.getElem?_range hi, Option.map_some, sum_list_range]

theorem spColSums_at (s : Sp ℝ) {j : Nat} (hj : j < s.nc) : (spColSums s)[j]? = some (colOf s j) := by
  unfold spColSums colOf
  rw [List.getElem?_map, List.getElem?_range hj, Option.map_some, sum_list_range]

theorem mem_bound {s : Sp ℝ} (hw : s.WF) {i j : Nat} {x : ℝ} (h : s.stored i j = some x) : i < s.nr ∧ j < s.nc :=
  hw.bound (i, j) (by rw [← Dict.get?_isSome_iff]; unfold Sp.stored at h; rw [h]; rfl)

theorem raw_eq {s : Sp ℝ} (hr : s.nr ≠ 1) (hc : s.nc ≠ 1) (n : ℝ) (meas : String) :
    calcAssociationRaw s none none (some n) meas = calcAssociation (.sp s) (spRowSums s) (spColSums s) n meas := by
  unfold calcAssociationRaw calcAssociation
  have e1 : (spRowSums s).length ≠ 1 := by simpa [spRowSums] using hr
  have e2 : (spColSums s).length ≠ 1 := by simpa [spColSums] using hc
  cases parseMeas meas with
  | none => rfl
  | some μ =>
    have : assocRound μ.func s none none (some n) = assocCell μ.func (spRowSums s) (spColSums s) n := by
      funext e
      simp only [assocRound, assocCell, marginal, squeezedAt, if_neg e1, if_neg e2]
    simp only [this]

/-- **C123 (partial)**: called without frequencies but with a total, on an array with neither one row nor one column,
`calc_association` takes the sums of rows and columns as frequencies: it returns a value exactly where the array stores
one, the measure of the table made of that value, the sum of its row, the sum of its column and the total.
Missing: the total must be given, and arrays with one row or one column fail (`C123_no_total`, `C123_one_row_or_column`). -/
theorem C123_partial {s t : Sp ℝ} (hw : s.WF) (hr : s.nr ≠ 1) (hc : s.nc ≠ 1) {n : ℝ} {meas : String} {μ : Meas}
    (hp : parseMeas meas = some μ) (h : calcAssociationRaw s none none (some n) meas = .ok t) :
    t.nr = s.nr ∧ t.nc = s.nc ∧ t.fmt = .csr ∧
    ∀ i j, (s.stored i j = none → t.stored i j = none) ∧
      ∀ x, s.stored i j = some x → ∃ v,
        μ.func ⟨x, colOf s j - x, rowOf s i - x, n - (rowOf s i - x) - (colOf s j - x) - x⟩ = .ok v ∧ t.stored i j = some v := by
  rw [raw_eq hr hc] at h
  unfold calcAssociation at h
  simp only [hp] at h
  cases hes : s.data.mapM (assocCell μ.func (spRowSums s) (spColSums s) n) with
  | error e => rw [hes] at h; cases h
  | ok es =>
  rw [hes] at h
  simp only [bind, Except.bind, Except.ok.injEq] at h
  subst h
  have hf2 := forall2_get? (assocCell_fst (f := μ.func) (rv := spRowSums s) (cv := spColSums s) (n := n)) ((mapM_ok_iff _ _ _).1 hes)
  refine ⟨rfl, rfl, rfl, fun i j => ⟨(hf2.2 (i, j)).1, fun x hx => ?_⟩⟩
  obtain ⟨v, hv, hv'⟩ := (hf2.2 (i, j)).2 x hx
  obtain ⟨hi, hj⟩ := mem_bound hw hx
  exact ⟨v, assocCell_ok hv (spRowSums_at s hi) (spColSums_at s hj), hv'⟩

theorem val_nonneg {s : Sp ℝ} (hnn : ∀ i j x, s.stored i j = some x → 0 ≤ x) (i j : Nat) : 0 ≤ s.val i j := by
  unfold Sp.val
  cases hs : s.stored i j with
  | none => exact le_refl _
  | some y => exact hnn i j y hs

/-- The table of a stored value of an array without negative values, with the sum of the array as the total, has no
negative cell. -/
theorem sums_table {s : Sp ℝ} (hw : s.WF) (hnn : ∀ i j x, s.stored i j = some x → 0 ≤ x) {i j : Nat} {x : ℝ}
    (hx : s.stored i j = some x) :
    NonNeg ⟨x, colOf s j - x, rowOf s i - x, allOf s - (rowOf s i - x) - (colOf s j - x) - x⟩ ∧
      total ⟨x, colOf s j - x, rowOf s i - x, allOf s - (rowOf s i - x) - (colOf s j - x) - x⟩ = allOf s := by
  obtain ⟨hi, hj⟩ := mem_bound hw hx
  have v0 := val_nonneg hnn
  have hxv : s.val i j = x := by unfold Sp.val; rw [hx]; rfl
  have h0 : 0 ≤ x := hnn i j x hx
  have hR : x ≤ rowOf s i := by
    rw [← hxv]
    exact Finset.single_le_sum (f := fun k => s.val i k) (fun k _ => v0 i k) (Finset.mem_range.2 hj)
  have hC : x ≤ colOf s j := by
    rw [← hxv]
    exact Finset.single_le_sum (f := fun k => s.val k j) (fun k _ => v0 k j) (Finset.mem_range.2 hi)
  have hA : rowOf s i + colOf s j - x ≤ allOf s := by
    unfold allOf
    rw [← Finset.add_sum_erase _ _ (Finset.mem_range.2 hi)]
    have h1 : colOf s j = x + ∑ k ∈ (Finset.range s.nr).erase i, s.val k j := by
      unfold colOf
      rw [← Finset.add_sum_erase _ _ (Finset.mem_range.2 hi), hxv]
    have h2 : ∑ k ∈ (Finset.range s.nr).erase i, s.val k j ≤ ∑ k ∈ (Finset.range s.nr).erase i, rowOf s k :=
      Finset.sum_le_sum (fun k _ => Finset.single_le_sum (f := fun c => s.val k c) (fun c _ => v0 k c) (Finset.mem_range.2 hj))
    linarith
  refine ⟨⟨h0, by simp only; linarith, by simp only; linarith, by simp only; linarith⟩, ?_⟩
  unfold total
  simp only
  ring

/-- **C123 (partial)**: with the sum of the array as the total, `pmi` and `ppmi` are defined for every array of
positive stored values. -/
theorem C123_defined_partial {s : Sp ℝ} (hw : s.WF) (hr : s.nr ≠ 1) (hc : s.nc ≠ 1)
    (hpos : ∀ i j x, s.stored i j = some x → 0 < x) {meas : String} (hm : meas = "pmi" ∨ meas = "ppmi") :
    ∃ t, calcAssociationRaw s none none (some (allOf s)) meas = .ok t := by
  rw [raw_eq hr hc]
  have hnn : ∀ i j x, s.stored i j = some x → 0 ≤ x := fun i j x h => (hpos i j x h).le
  obtain ⟨μ, hp, hμ⟩ : ∃ μ, parseMeas meas = some μ ∧ (μ = .pmi ∨ μ = .ppmi) := by
    rcases hm with rfl | rfl
    · exact ⟨.pmi, by simp [parseMeas], Or.inl rfl⟩
    · exact ⟨.ppmi, by simp [parseMeas], Or.inr rfl⟩
  have : ∀ e ∈ s.data, ∃ b, assocCell μ.func (spRowSums s) (spColSums s) (allOf s) e = .ok b := by
    rintro ⟨⟨i, j⟩, x⟩ he
    have hst : s.stored i j = some x := Dict.get?_of_mem hw.nodup he
    obtain ⟨hi, hj⟩ := mem_bound hw hst
    obtain ⟨h1, h2⟩ := sums_table hw hnn hst
    have hT : 0 < allOf s := by
      rw [← h2]
      have := hpos i j x hst
      have a := h1.h21
      have b := h1.h12
      have c := h1.h22
      unfold total
      linarith
    obtain ⟨p, k1, k2⟩ := C30_defined h1 (by rw [h2]; exact hT)
    have hv : ∃ v, μ.func (cellTable x (rowOf s i) (colOf s j) (allOf s)) = .ok v := by
      rcases hμ with rfl | rfl
      · exact ⟨_, k1⟩
      · exact ⟨_, k2⟩
    obtain ⟨v, hv⟩ := hv
    refine ⟨((i, j), v), ?_⟩
    unfold assocCell getIdx
    simp only [spRowSums_at s hi, spColSums_at s hj, lift, bind, Except.bind, hv]
  choose! g hg using this
  unfold calcAssociation
  simp only [hp]
  rw [mapM_ok_of _ g _ hg]
  exact ⟨_, rfl⟩

/-- **C123 is false** as documented: without a total the call fails for every array that stores anything. -/
theorem C123_no_total {s : Sp ℝ} (hw : s.WF) (hr : s.nr ≠ 1) (hc : s.nc ≠ 1) (hd : s.data ≠ []) {meas : String} {μ : Meas}
    (hp : parseMeas meas = some μ) : calcAssociationRaw s none none none meas = .error (.py .typeError) := by
  have e1 : (spRowSums s).length ≠ 1 := by simpa [spRowSums] using hr
  have e2 : (spColSums s).length ≠ 1 := by simpa [spColSums] using hc
  unfold calcAssociationRaw
  simp only [hp]
  cases hs : s.data with
  | nil => exact absurd hs hd
  | cons e es =>
    obtain ⟨⟨i, j⟩, x⟩ := e
    have hst : s.stored i j = some x := Dict.get?_of_mem hw.nodup (by rw [hs]; exact List.mem_cons_self ..)
    obtain ⟨hi, hj⟩ := mem_bound hw hst
    rw [List.mapM_cons]
    have : assocRound μ.func s none none none ((i, j), x) = .error (.py .typeError) := by
      simp only [assocRound, marginal, squeezedAt, if_neg e1, if_neg e2, getIdx, spRowSums_at s hi, spColSums_at s hj, lift, bind,
        Except.bind]
    rw [this]
    rfl

/-- **C123 is false**: an array with one row or one column fails with an `IndexError`, whatever the total. -/
theorem C123_one_row_or_column {s : Sp ℝ} (hw : s.WF) (h1 : s.nr = 1 ∨ s.nc = 1) (hd : s.data ≠ []) {meas : String} {μ : Meas}
    (hp : parseMeas meas = some μ) (N : Option ℝ) : calcAssociationRaw s none none N meas = .error (.py .indexError) := by
  unfold calcAssociationRaw
  simp only [hp]
  cases hs : s.data with
  | nil => exact absurd hs hd
  | cons e es =>
    obtain ⟨⟨i, j⟩, x⟩ := e
    have hst : s.stored i j = some x := Dict.get?_of_mem hw.nodup (by rw [hs]; exact List.mem_cons_self ..)
    obtain ⟨hi, hj⟩ := mem_bound hw hst
    rw [List.mapM_cons]
    have : assocRound μ.func s none none N ((i, j), x) = .error (.py .indexError) := by
      by_cases hr : s.nr = 1
      · have e1 : (spRowSums s).length = 1 := by simpa [spRowSums] using hr
        simp only [assocRound, marginal, squeezedAt, if_pos e1, lift, bind, Except.bind]
      · have hc := h1.resolve_left hr
        have e1 : (spRowSums s).length ≠ 1 := by simpa [spRowSums] using hr
        have e2 : (spColSums s).length = 1 := by simpa [spColSums] using hc
        simp only [assocRound, marginal, squeezedAt, if_neg e1, if_pos e2, getIdx, spRowSums_at s hi, lift, bind, Except.bind]
    rw [this]
    rfl

/-- The same array with its frequencies given: a table is made of them, so what fails above is the default only. -/
theorem C123_given (s : Sp ℝ) (rv cv : List ℝ) (n : ℝ) (meas : String) :
    calcAssociationRaw s (some rv) (some cv) (some n) meas = calcAssociation (.sp s) rv cv n meas := by
  unfold calcAssociationRaw calcAssociation
  cases parseMeas meas with
  | none => rfl
  | some μ => rfl

/-- **C123 (partial)**, `compute_ppmi` without column frequencies: for a matrix with a number of columns other than one
it is `compute_ppmi` with the column sums of the matrix (`sum(axis=0)`) as frequencies. -/
theorem C123_ppmi_partial {m : Mtx κ ℝ} (hm : Valid m) (h1 : m.cols.length ≠ 1) (nfreq : Dict κ ℝ) (positive : Bool) :
    ∃ d, colSums m = .ok d ∧ computePpmiSums m nfreq positive = computePpmi m (some nfreq) d positive := by
  obtain ⟨d, k1, k2, k3⟩ := C53_col_sums_partial hm h1
  refine ⟨d, k1, ?_⟩
  unfold computePpmiSums computePpmi
  simp only
  have hcv : m.cols.mapM (getKey d) = .ok (m.cols.map (fun c => (m.rows.map (fun r => entry m r c)).sum)) := by
    apply mapM_ok_of
    intro c hc
    unfold getKey
    rw [k3 c hc]
  cases hrv : m.rows.mapM (getKey nfreq) with
  | error e => rfl
  | ok rv =>
    cases hb : m.body with
    | dn x => simp only [hcv, lift, bind, Except.bind]
    | sp s =>
      simp only [hcv, lift, bind, Except.bind]
      have hnc := hm.nc
      rw [hb] at hnc
      simp only [Body.nc] at hnc
      have e2 : (spColSums s).length ≠ 1 := by simpa [spColSums, hnc] using h1
      have ev : m.cols.map (fun c => (m.rows.map (fun r => entry m r c)).sum) = spColSums s := by
        unfold spColSums
        have hnr := hm.nr
        rw [hb] at hnr
        rw [hnc]
        refine (map_range_names _ _ (fun j c hj => ?_)).symm
        have := col_sum_names hm hj
        rw [hb] at this
        exact this
      have : ppmiEntrySums positive rv s (freqSum nfreq) = ppmiEntry positive rv (spColSums s) (freqSum nfreq) := by
        funext e
        simp only [ppmiEntrySums, ppmiEntry, squeezedAt, if_neg e2]
      rw [ev, this]

/-- **C123 is false** for `compute_ppmi` on a matrix with one column: an `IndexError`. -/
theorem C123_ppmi_one_column {m : Mtx κ ℝ} (hm : Valid m) {s : Sp ℝ} (hb : m.body = .sp s) (h1 : m.cols.length = 1)
    (hd : s.data ≠ []) {nfreq : Dict κ ℝ} (hr : ∀ r ∈ m.rows, r ∈ nfreq.keys) (positive : Bool) :
    computePpmiSums m nfreq positive = .error (.py .indexError) := by
  unfold computePpmiSums
  rw [mapM_getKey_ok hr, hb]
  simp only [lift, bind, Except.bind]
  have hw := hm.sp s hb
  have hnc := hm.nc
  rw [hb] at hnc
  simp only [Body.nc] at hnc
  have e2 : (spColSums s).length = 1 := by simpa [spColSums, hnc] using h1
  cases hs : s.data with
  | nil => exact absurd hs hd
  | cons e es =>
    obtain ⟨⟨i, j⟩, x⟩ := e
    have hst : s.stored i j = some x := Dict.get?_of_mem hw.nodup (by rw [hs]; exact List.mem_cons_self ..)
    obtain ⟨hi, _⟩ := bound_of_stored hm hb hst
    rw [List.mapM_cons]
    have : ppmiEntrySums positive (m.rows.map (fun e => (nfreq.get? e).getD 0)) s (freqSum nfreq) ((i, j), x) = .error (.py .indexError) := by
      simp only [ppmiEntrySums, getIdx, List.getElem?_map, List.getElem?_eq_getElem hi, Option.map_some, squeezedAt, if_pos e2, lift, bind,
        Except.bind]
    rw [this]
    rfl

/-! ## C124 -/

/-- Specification: the Shannon entropy of a list of probabilities, in natural units. -/
noncomputable def shannon (values : List ℝ) : ℝ := -(values.map (fun v => v * Real.log v)).sum

theorem entropy_go (values : List ℝ) (h : ∀ v ∈ values, 0 ≤ v) (e : ℝ) :
    values.foldlM entropyStep e = .ok (e - (values.map (fun v => v * Real.log (adjustVal v))).sum) := by
  induction values generalizing e with
  | nil => simp [pure, Except.pure]
  | cons v vs ih =>
    rw [List.foldlM_cons]
    have : entropyStep e v = .ok (e - v * Real.log (adjustVal v)) := by
      unfold entropyStep
      rw [pyLog_ok (adjustVal_pos (h v (List.mem_cons_self ..)))]
      rfl
    rw [this]
    show vs.foldlM entropyStep _ = _
    rw [ih (fun w hw => h w (List.mem_cons_of_mem _ hw)), List.map_cons, List.sum_cons]
    congr 1
    ring

/-- **C124**, what `entropy` returns for non-negative values: the Shannon entropy, plus a slip of at most 1.0000000002/10^10 for
every value that is exactly 1. -/
theorem C124_entropy_actual {values : List ℝ} (h : ∀ v ∈ values, 0 ≤ v) :
    entropy values = .ok (shannon values + values.count 1 * -Real.log nearOne) ∧
      0 < -Real.log nearOne ∧ -Real.log nearOne ≤ slip := by
  refine ⟨?_, by linarith [log_nearOne.2], by linarith [log_nearOne.1]⟩
  unfold entropy
  rw [entropy_go values h]
  congr 1
  unfold shannon
  clear h
  induction values with
  | nil => simp
  | cons v vs ih =>
    simp only [List.map_cons, List.sum_cons, List.count_cons]
    by_cases h1 : v = 1
    · subst h1
      have e : adjustVal 1 = nearOne := by unfold adjustVal; rw [if_neg one_ne_zero, if_pos rfl]
      rw [e]
      simp only [beq_self_eq_true, if_true, Nat.cast_add, Nat.cast_one, Real.log_one]
      linarith
    · have e : v * Real.log (adjustVal v) = v * Real.log v := by
        by_cases h0 : v = 0
        · subst h0; simp
        · rw [adjustVal_of h0 h1]
      rw [e]
      have : (v == 1) = false := by simpa using h1
      simp only [this, Bool.false_eq_true, if_false, add_zero]
      linarith

/-- Gibbs' inequality against the uniform distribution. -/
theorem shannon_le {values : List ℝ} (h : ∀ v ∈ values, 0 ≤ v) (hs : values.sum = 1) : shannon values ≤ Real.log values.length := by
  have hn : values ≠ [] := by rintro rfl; simp at hs
  have hl : (0 : ℝ) < values.length := by exact_mod_cast List.length_pos_iff.2 hn
  have key : ∀ (vs : List ℝ) (n : ℝ), 0 < n → (∀ v ∈ vs, 0 ≤ v) →
      -(vs.map (fun v => v * Real.log v)).sum ≤ vs.sum * Real.log n + (vs.length / n - vs.sum) := by
    intro vs n hn0 hv
    induction vs with
    | nil => simp
    | cons v vs ih =>
      have i1 := ih (fun w hw => hv w (List.mem_cons_of_mem _ hw))
      have i2 : -(v * Real.log v) ≤ v * Real.log n + (1 / n - v) := by
        rcases eq_or_lt_of_le (hv v (List.mem_cons_self ..)) with h0 | h0
        · rw [← h0]; simp only [zero_mul, neg_zero, zero_add, sub_zero]; positivity
        · have hx : 0 < 1 / (n * v) := by positivity
          have := Real.log_le_sub_one_of_pos hx
          rw [one_div, Real.log_inv, Real.log_mul (ne_of_gt hn0) (ne_of_gt h0)] at this
          have h2 := mul_le_mul_of_nonneg_left this h0.le
          have h3 : v * ((n * v)⁻¹ - 1) = 1 / n - v := by field_simp
          rw [h3] at h2
          linarith
      simp only [List.map_cons, List.sum_cons, List.length_cons, Nat.cast_add, Nat.cast_one]
      have h4 : ((vs.length : ℝ) + 1) / n = vs.length / n + 1 / n := add_div _ _ _
      rw [h4]
      linarith
  have := key values values.length hl h
  rw [hs, div_self (ne_of_gt hl)] at this
  unfold shannon
  linarith

/-- **C124 (partial)**: for the values of a probability distribution none of which is exactly 1, `entropy` returns the
Shannon entropy, which lies between 0 and the logarithm of the number of values.  Missing: a value that is exactly 1. -/
theorem C124_entropy_partial {values : List ℝ} (h : ∀ v ∈ values, 0 ≤ v) (hs : values.sum = 1) (h1 : 1 ∉ values) :
    entropy values = .ok (shannon values) ∧ 0 ≤ shannon values ∧ shannon values ≤ Real.log values.length := by
  refine ⟨?_, ?_, shannon_le h hs⟩
  · rw [(C124_entropy_actual h).1, List.count_eq_zero_of_not_mem h1]
    simp
  · unfold shannon
    have : (values.map (fun v => v * Real.log v)).sum ≤ 0 := by
      have h1 : ∀ v ∈ values, v * Real.log v ≤ 0 := fun v hv =>
        mul_nonpos_of_nonneg_of_nonpos (h v hv) (Real.log_nonpos (h v hv) (hs ▸ List.single_le_sum h v hv))
      clear hs
      induction values with
      | nil => simp
      | cons v vs ih =>
        rw [List.map_cons, List.sum_cons]
        have a := h1 v (List.mem_cons_self ..)
        have b := ih (fun w hw => h w (List.mem_cons_of_mem _ hw)) (fun hm => ‹1 ∉ v :: vs› (List.mem_cons_of_mem _ hm))
          (fun w hw => h1 w (List.mem_cons_of_mem _ hw))
        linarith
    linarith

/-- **C124 is false** for the certain event: its entropy comes out positive, above the logarithm of the number of values. -/
theorem C124_entropy_false : ∃ v, entropy [1] = .ok v ∧ 0 < v ∧ shannon [1] = 0 := by
  obtain ⟨h1, h2, _⟩ := C124_entropy_actual (values := [1]) (by simp)
  refine ⟨_, h1, ?_, by simp [shannon]⟩
  simp [shannon]
  linarith

/-- **C124**, refusal: a negative value is a math domain error. -/
theorem C124_entropy_negative {pre post : List ℝ} {v : ℝ} (h : ∀ w ∈ pre, 0 ≤ w) (hv : v < 0) :
    entropy (pre ++ v :: post) = .error .mathDomain := by
  unfold entropy
  rw [List.foldlM_append, entropy_go pre h]
  show List.foldlM entropyStep _ (v :: post) = _
  rw [List.foldlM_cons]
  have : ∀ e, entropyStep e v = .error .mathDomain := by
    intro e
    unfold entropyStep pyLog
    rw [adjustVal_of (ne_of_lt hv) (by linarith), if_pos hv.le]
    rfl
  rw [this]
  rfl

/-- **C124**: `calc_mi` is the pointwise mutual information of the table in bits, whenever the pair occurs; it is the
textbook value exactly, while `calc_pmi` is that value in natural units within a slip. -/
theorem C124_mi {t : Table} (h : NonNeg t) (h11 : 0 < t.o11) :
    ∃ v p, calcMi t = .ok v ∧ v * Real.log 2 = Real.log (t.o11 * total t / (rowA t * colB t)) ∧
      calcPmi t = .ok p ∧ |p - v * Real.log 2| ≤ slip := by
  have hr : 0 < t.o11 + t.o12 := by linarith [h.h12]
  have hc : 0 < t.o11 + t.o21 := by linarith [h.h21]
  have hn : 0 < t.o11 + t.o21 + t.o12 + t.o22 := by have := h.h21; have := h.h12; have := h.h22; linarith
  have hl : Real.log 2 ≠ 0 := ne_of_gt (Real.log_pos (by norm_num))
  obtain ⟨p, h1, h2⟩ := C64_pmi_near h h11
  have e : t.o11 / ((t.o11 + t.o21) * (t.o11 + t.o12) / (t.o11 + t.o21 + t.o12 + t.o22)) =
      t.o11 * total t / (rowA t * colB t) := by
    unfold total rowA colB
    field_simp
  have e' : t.o11 / expd t (rowA t) (colB t) = t.o11 * total t / (rowA t * colB t) := by
    have : 0 < total t := hn
    unfold expd
    unfold rowA colB
    field_simp
  refine ⟨Real.log (t.o11 * total t / (rowA t * colB t)) / Real.log 2, p, ?_, ?_, h1, ?_⟩
  · unfold calcMi
    simp only
    rw [pyDiv_ok (ne_of_gt hn)]
    show (pyDiv t.o11 _ >>= _) = _
    rw [pyDiv_ok (by positivity)]
    show (pyLog _ >>= _) = _
    rw [pyLog_ok (by positivity), e]
    rfl
  · field_simp
  · rw [div_mul_cancel₀ _ hl, ← e']
    exact h2

/-- **C124**: a pair that does not occur has no value: a division by zero if one of the two items does not occur, and
a math domain error otherwise (where `calc_pmi` gives a large negative number). -/
theorem C124_mi_zero {t : Table} (h : NonNeg t) (h11 : t.o11 = 0) :
    calcMi t = .error (if rowA t = 0 ∨ colB t = 0 then .zeroDivision else .mathDomain) := by
  have h12 := h.h12
  have h21 := h.h21
  have h22 := h.h22
  unfold rowA colB
  rw [h11, zero_add, zero_add]
  unfold calcMi
  simp only [h11, zero_add]
  by_cases hz : t.o12 = 0 ∨ t.o21 = 0
  · rw [if_pos hz]
    by_cases hn : t.o21 + t.o12 + t.o22 = 0
    · unfold pyDiv
      rw [if_pos hn]
      rfl
    · rw [pyDiv_ok hn]
      have : t.o21 * t.o12 / (t.o21 + t.o12 + t.o22) = 0 := by rcases hz with hz | hz <;> rw [hz] <;> simp
      rw [this]
      simp [pyDiv, bind, Except.bind]
  · rw [if_neg hz]
    push Not at hz
    have a : 0 < t.o12 := lt_of_le_of_ne h12 (Ne.symm hz.1)
    have b : 0 < t.o21 := lt_of_le_of_ne h21 (Ne.symm hz.2)
    have hn : t.o21 + t.o12 + t.o22 ≠ 0 := by positivity
    rw [pyDiv_ok hn]
    show (pyDiv 0 (t.o21 * t.o12 / (t.o21 + t.o12 + t.o22)) >>= _) = _
    rw [pyDiv_ok (by positivity), zero_div]
    simp [pyLog, bind, Except.bind]

/-- **C124**, the deprecated `pairwise_association`: for nine of the ten names that `compute_association` knows it gives
the same score of a table; `llik` and unknown names are refused. -/
theorem C124_pairwise (t : Table) (meas : String) :
    (meas ≠ "llik" → ∀ μ, parseMeas meas = some μ → pairwiseAssociation t meas = μ.func t) ∧
    (meas = "llik" ∨ parseMeas meas = none → pairwiseAssociation t meas = .error (.py .notImplemented)) := by
  unfold pairwiseAssociation parsePairMeas
  constructor
  · intro hne μ hμ
    rw [if_neg hne, hμ]
  · rintro (rfl | h)
    · simp
    · rw [h]; simp

/-- `llik` is a name of `compute_association`. -/
example : parseMeas "llik" = some .lik := by simp [parseMeas]

/-- Non-vacuity for C124. -/
example : (∀ v ∈ [(1 / 2 : ℝ), 1 / 4, 1 / 4], 0 ≤ v) ∧ [(1 / 2 : ℝ), 1 / 4, 1 / 4].sum = 1 ∧ (1 : ℝ) ∉ [(1 / 2 : ℝ), 1 / 4, 1 / 4] := by
  refine ⟨by intro v hv; simp at hv; rcases hv with rfl | rfl <;> norm_num, by norm_num, by norm_num⟩

example : NonNeg ⟨2, 1, 1, 5⟩ ∧ (0 : ℝ) < 2 ∧ NonNeg ⟨0, 1, 1, 5⟩ := by
  refine ⟨⟨?_, ?_, ?_, ?_⟩, by norm_num, ⟨?_, ?_, ?_, ?_⟩⟩ <;> norm_num

/-- Non-vacuity for C123: a 2 x 2 array, a 1 x 2 array. -/
example : ∃ s : Sp ℝ, s.WF ∧ s.nr ≠ 1 ∧ s.nc ≠ 1 ∧ s.data ≠ [] ∧ (∀ i j x, s.stored i j = some x → 0 < x) := by
  refine ⟨⟨.csr, 2, 2, [((0, 1), 2), ((1, 0), 3)]⟩, ⟨by unfold Dict.WF; decide, by decide⟩, by decide, by decide, by simp, ?_⟩
  intro i j x h
  have := Dict.mem_of_get? h
  simp at this
  rcases this with ⟨_, rfl⟩ | ⟨_, rfl⟩ <;> norm_num

example : ∃ m : Mtx Nat ℝ, ∃ s, Valid m ∧ m.body = .sp s ∧ m.cols.length = 1 ∧ s.data ≠ [] := by
  refine ⟨⟨.sp ⟨.csr, 1, 1, [((0, 0), 2)]⟩, [7], [3]⟩, ⟨.csr, 1, 1, [((0, 0), 2)]⟩, ⟨rfl, rfl, by simp, by simp, ?_⟩, rfl, rfl, by simp⟩
  intro s hs
  cases hs
  exact ⟨by unfold Dict.WF; decide, by decide⟩

end Verif.Assoc
