import Verif.Matrix.PropsSelect
import Mathlib.Algebra.Ring.Int.Defs

/-!
# Properties of matrices: C25 (threshold), C26 (drop_empty), C27 (token contexts), C53 (sums), C54 (drop), C55 (merge)
-/

namespace Verif.Matrix
open Verif.Py
set_option linter.unusedSectionVars false

variable {κ ν : Type} [LinearOrder κ]

/-! ### C25 -/

section C25
variable [MulZeroOneClass ν] [LinearOrder ν]

theorem get?_map_val {α β γ : Type} [DecidableEq α] (d : Dict α β) (f : α → β → γ) (k : α) :
    Dict.get? (d.map (fun e => (e.1, f e.1 e.2))) k = (Dict.get? d k).map (f k) := by
  induction d with
  | nil => rfl
  | cons e d ih =>
    simp only [List.map_cons, Dict.get?_cons, ih]
    by_cases h : e.1 = k
    · simp [h]
    · simp [h]

theorem keys_map_val {α β γ : Type} [DecidableEq α] (d : Dict α β) (f : α → β → γ) :
    Dict.keys (d.map (fun e => (e.1, f e.1 e.2)) : Dict α γ) = Dict.keys d := by
  unfold Dict.keys
  rw [List.map_map]; rfl

/-- The stored entries of a comparison. -/
theorem cmp_stored {s : Sp ν} (hs : s.WF) {op : Op} {k : ν} (hk : ¬ (k = 0 ∧ (op = .le ∨ op = .ge))) :
    ∃ b, s.cmp op k = .ok b ∧ b.nr = s.nr ∧ b.nc = s.nc ∧
      ∀ i j, b.stored i j = ((s.stored i j).filter (fun v => op.holds v k)).map (fun _ => true) := by
  refine ⟨_, by unfold Sp.cmp; exact if_neg (by tauto), rfl, rfl, ?_⟩
  intro i j
  unfold Sp.stored
  simp only
  rw [get?_map_val (List.filter _ s.data) (fun _ _ => true), Dict.get?_filter hs.nodup]

/-- **C25**.  Thresholding a sparse matrix (which may store zeros) with any comparison and any number, except `>= 0` and
`<= 0`: same items, and at every name pair the value of the original where the original satisfies the comparison and
0 elsewhere. -/
theorem C25_threshold_value [AllClose ν] {m : Mtx κ ν} (hm : Valid m) {s : Sp ν} (hb : m.body = .sp s) {op : Op} {k : ν}
    (hk : ¬ (k = 0 ∧ (op = .le ∨ op = .ge))) :
    ∃ u, threshold m op k = .ok u ∧ Valid u ∧ u.rows = m.rows ∧ u.cols = m.cols ∧
      ∀ r c, entry u r c = if op.holds (entry m r c) k = true then entry m r c else 0 := by
  have hs := hm.sp s hb
  have hnr := hm.nr
  have hnc := hm.nc
  rw [hb] at hnr hnc
  simp only [Body.nr, Body.nc] at hnr hnc
  obtain ⟨b, h1, h2, h3, h4⟩ := cmp_stored hs hk
  have hob : ∀ i j, (b.ofBool : Sp ν).stored i j =
      ((s.stored i j).filter (fun v => op.holds v k)).map (fun _ => (1 : ν)) := by
    intro i j
    unfold Sp.stored Sp.ofBool
    simp only
    rw [get?_map_val b.data (fun _ e => if e = true then (1 : ν) else 0)]
    have := h4 i j
    unfold Sp.stored at this
    rw [this]
    cases Option.filter (fun v => op.holds v k) (Dict.get? s.data (i, j)) <;> simp
  have hmul : ∃ u, s.multiply (b.ofBool : Sp ν) = .ok u ∧ u.nr = s.nr ∧ u.nc = s.nc ∧ u.WF ∧
      ∀ i j, u.val i j = if op.holds (s.val i j) k = true then s.val i j else 0 := by
    unfold Sp.multiply
    split
    · refine ⟨_, rfl, rfl, rfl, ⟨Dict.WF_filter hs.nodup _, ?_⟩, ?_⟩
      · intro p hp
        exact hs.bound p ((Dict.keys_filter_sublist _ _).subset hp)
      · intro i j
        unfold Sp.val Sp.stored
        simp only
        rw [Dict.get?_filter hs.nodup]
        have h5 := hob i j
        unfold Sp.stored at h5
        cases hv : Dict.get? s.data (i, j) with
        | none => simp
        | some v =>
          rw [hv] at h5
          have : Dict.contains (b.ofBool : Sp ν).data (i, j) = op.holds v k := by
            unfold Dict.contains
            rw [h5]
            cases h : op.holds v k <;> simp [h]
          simp only [Option.getD_some]
          cases h : op.holds v k <;> simp [this, h, Option.filter]
    · unfold Sp.elmul
      rw [if_pos (by simp [Sp.ofBool, h2, h3])]
      refine ⟨_, rfl, rfl, rfl, ⟨Dict.WF_filter ?_ _, ?_⟩, ?_⟩
      · unfold Dict.WF
        rw [keys_map_val s.data (fun p v => v * (b.ofBool : Sp ν).val p.1 p.2)]
        exact hs.nodup
      · intro p hp
        have := (Dict.keys_filter_sublist _ _).subset hp
        rw [keys_map_val s.data (fun p v => v * (b.ofBool : Sp ν).val p.1 p.2)] at this
        exact hs.bound p this
      · intro i j
        have hwf : Dict.WF (s.data.map (fun e => (e.1, e.2 * (b.ofBool : Sp ν).val e.1.1 e.1.2))) := by
          unfold Dict.WF
          rw [keys_map_val s.data (fun p v => v * (b.ofBool : Sp ν).val p.1 p.2)]
          exact hs.nodup
        have hval0 : ∀ t : Sp ν, t.val i j = (Dict.get? t.data (i, j)).getD 0 := fun _ => rfl
        rw [hval0, hval0 s]
        simp only
        rw [Dict.get?_filter hwf, get?_map_val s.data (fun p v => v * (b.ofBool : Sp ν).val p.1 p.2)]
        have h5 := hob i j
        cases hv : Dict.get? s.data (i, j) with
        | none => simp
        | some v =>
          unfold Sp.stored at h5
          rw [hv] at h5
          have hval : (b.ofBool : Sp ν).val i j = if op.holds v k = true then 1 else 0 := by
            unfold Sp.val Sp.stored
            rw [h5]
            cases h : op.holds v k <;> simp [h, Option.filter]
          simp only [Option.map_some, Option.getD_some, hval]
          cases h : op.holds v k
          · simp [Option.filter]
          · by_cases h0 : v = 0 <;> simp [h0, Option.filter]
  obtain ⟨u, k1, k2, k3, k4, k5⟩ := hmul
  refine ⟨⟨.sp u, m.rows, m.cols⟩, ?_, ⟨k2.trans hnr, k3.trans hnc, hm.rows, hm.cols, ?_⟩, rfl, rfl, ?_⟩
  · unfold threshold
    rw [hb]
    simp only [h1, k1, bind, Except.bind]
    exact mkMtx_sp (k2.trans hnr) (k3.trans hnc)
  · intro s' h; cases h; exact k4
  · intro r c
    by_cases hr : r ∈ m.rows
    · by_cases hc : c ∈ m.cols
      · obtain ⟨i, hi⟩ := getElem?_of_mem' hr
        obtain ⟨j, hj⟩ := getElem?_of_mem' hc
        rw [entry_of (m := ⟨.sp u, m.rows, m.cols⟩) hm.rows hm.cols hi hj, entry_of hm.rows hm.cols hi hj, hb]
        exact k5 i j
      · rw [entry_col_absent (m := ⟨.sp u, m.rows, m.cols⟩) r hc, entry_col_absent r hc]; simp
    · rw [entry_row_absent (m := ⟨.sp u, m.rows, m.cols⟩) hr, entry_row_absent hr]; simp

/-- **C25** (as users write it).  `m.multiply(m > k)` with `k ≥ 0` keeps exactly the entries above `k`. -/
theorem C25_above [AllClose ν] {m : Mtx κ ν} (hm : Valid m) {s : Sp ν} (hb : m.body = .sp s) (k : ν) :
    ∃ u, threshold m .gt k = .ok u ∧ u.rows = m.rows ∧ u.cols = m.cols ∧
      ∀ r c, (k < entry m r c → entry u r c = entry m r c) ∧ (¬ k < entry m r c → entry u r c = 0) := by
  obtain ⟨u, h1, _, h2, h3, h4⟩ := C25_threshold_value hm hb (op := .gt) (k := k) (by simp)
  refine ⟨u, h1, h2, h3, fun r c => ⟨fun h => ?_, fun h => ?_⟩⟩
  · rw [h4, if_pos (by simpa [Op.holds] using h)]
  · rw [h4, if_neg (by simpa [Op.holds] using h)]

/-- `m >= 0` and `m <= 0` are refused. -/
theorem C25_zero_refused [AllClose ν] {m : Mtx κ ν} {s : Sp ν} (hb : m.body = .sp s) (op : Op)
    (ho : op = .le ∨ op = .ge) : threshold m op 0 = .error .notImplemented := by
  unfold threshold Sp.cmp
  rw [hb]
  rcases ho with rfl | rfl <;> simp [bind, Except.bind]

end C25

/-- A matrix with a stored zero (the branch with the mask) and one without. -/
example : ∃ (m u : Mtx Nat Int) (s : Sp Int), Valid m ∧ m.body = .sp s ∧ threshold m .gt 2 = .ok u ∧ s.stored 0 1 = some 0 ∧
    entry m 1 5 = 3 ∧ entry u 1 5 = 3 ∧ entry m 2 5 = 2 ∧ entry u 2 5 = 0 := by
  refine ⟨⟨.sp ⟨.csr, 2, 2, [((0, 0), 3), ((0, 1), 0), ((1, 0), 2)]⟩, [1, 2], [5, 6]⟩,
    ⟨.sp ⟨.csr, 2, 2, [((0, 0), 3)]⟩, [1, 2], [5, 6]⟩, _, ⟨rfl, rfl, by decide, by decide, ?_⟩, rfl, by rfl, by decide,
    by decide, by decide, by decide, by decide⟩
  intro s hs; cases hs; exact ⟨by decide, by decide⟩

/-! ### C26 -/

section C26
variable [Zero ν] [DecidableEq ν] [AllClose ν]

theorem mem_emptyRows {s : Sp ν} {i : Nat} : i ∈ s.emptyRows false ↔ i < s.nr ∧ ∀ j, j < s.nc → s.val i j = 0 := by
  simp [Sp.emptyRows]

/-- Names of empty rows, from the positions. -/
theorem mem_emptyItems {m : Mtx κ ν} (hm : Valid m) {s : Sp ν} (hb : m.body = .sp s) (r : κ) :
    r ∈ (s.emptyRows false).filterMap (fun i => m.rows[i]?) ↔ r ∈ m.rows ∧ ∀ c, entry m r c = 0 := by
  have hnr := hm.nr
  have hnc := hm.nc
  rw [hb] at hnr hnc
  simp only [Body.nr, Body.nc] at hnr hnc
  rw [List.mem_filterMap]
  constructor
  · rintro ⟨i, hi, hr⟩
    refine ⟨List.mem_of_getElem? hr, ?_⟩
    intro c
    by_cases hc : c ∈ m.cols
    · obtain ⟨j, hj⟩ := getElem?_of_mem' hc
      rw [entry_of hm.rows hm.cols hr hj, hb]
      exact (mem_emptyRows.1 hi).2 j (by rw [hnc]; exact lt_of_getElem? hj)
    · exact entry_col_absent r hc
  · rintro ⟨hr, hz⟩
    obtain ⟨i, hi⟩ := getElem?_of_mem' hr
    refine ⟨i, mem_emptyRows.2 ⟨by rw [hnr]; exact lt_of_getElem? hi, ?_⟩, hi⟩
    intro j hj
    have e : m.cols[j]? = some m.cols[j] := List.getElem?_eq_getElem (by omega)
    have := hz m.cols[j]
    rw [entry_of hm.rows hm.cols hi e, hb] at this
    exact this

open Classical in
/-- The rows with a non-zero entry, in the original order. -/
noncomputable def nonEmptyRows (m : Mtx κ ν) : List κ := m.rows.filter (fun r => decide (∃ c, entry m r c ≠ 0))

open Classical in
/-- The columns with a non-zero entry, in the original order. -/
noncomputable def nonEmptyCols (m : Mtx κ ν) : List κ := m.cols.filter (fun c => decide (∃ r, entry m r c ≠ 0))

/-- **C26** (rows) for compressed sparse matrices: with at least one non-zero entry, the result has exactly the rows
that have a non-zero entry, in the original order, the same columns and the same named entries; without any non-zero
entry (and at least one row) it is `None`. -/
theorem C26_drop_empty_rows_partial {m : Mtx κ ν} (hm : Valid m) (hc : IsCompressed m) :
    ((∃ r c, entry m r c ≠ 0) → ∃ u, dropEmpty m false = .ok (some u) ∧ Valid u ∧ IsCompressed u ∧
      u.rows = nonEmptyRows m ∧ u.cols = m.cols ∧ ∀ r c, entry u r c = entry m r c) ∧
    (m.rows ≠ [] → (∀ r c, entry m r c = 0) → dropEmpty m false = .ok none) := by
  classical
  obtain ⟨s, hb, hf⟩ := hc
  have hmem := fun r => mem_emptyItems hm hb r
  have hrest : m.rows.filter (fun e => decide (e ∉ (s.emptyRows false).filterMap (fun i => m.rows[i]?))) =
      nonEmptyRows m := by
    unfold nonEmptyRows
    apply List.filter_congr
    intro r hr
    apply decide_eq_decide.2
    rw [hmem]
    push Not
    exact ⟨fun h => h hr, fun h _ => h⟩
  have hdef : dropEmpty m false = if ((s.emptyRows false).filterMap (fun i => m.rows[i]?)).isEmpty = true then
      .ok (some m) else submatrix m (some (nonEmptyRows m)) none := by
    unfold dropEmpty dropEmptyRows
    simp only [Bool.not_false, if_true, hb]
    rw [hrest]
  have hkept : kept m.rows (some (nonEmptyRows m)) = nonEmptyRows m := by
    unfold kept
    rw [List.filter_eq_self]
    intro e he
    unfold nonEmptyRows at he
    simpa using (List.mem_filter.1 he).1
  have hsub := C23_submatrix_partial hm ⟨s, hb, hf⟩ (some (nonEmptyRows m)) none
  rw [hkept] at hsub
  constructor
  · rintro ⟨r, c, hrc⟩
    have hr : r ∈ m.rows := by
      by_contra h; exact hrc (entry_row_absent h c)
    rw [hdef]
    split
    · next he =>
      rw [List.isEmpty_iff] at he
      refine ⟨m, rfl, hm, ⟨s, hb, hf⟩, ?_, rfl, fun _ _ => rfl⟩
      unfold nonEmptyRows
      symm
      rw [List.filter_eq_self]
      intro r hr
      have := hmem r
      rw [he] at this
      simp only [List.not_mem_nil, false_iff, not_and, not_forall] at this
      simpa using this hr
    · rcases hsub with ⟨h, _⟩ | ⟨_, _, u, s', h1, h2, h3, h4, h5, h6, h7, h8, h9, h10⟩
      · exfalso
        rcases h with ⟨_, h⟩ | ⟨h, _⟩
        · have : r ∈ nonEmptyRows m := by
            unfold nonEmptyRows
            rw [List.mem_filter]
            exact ⟨hr, by simpa using ⟨c, hrc⟩⟩
          rw [h] at this; cases this
        · exact h rfl
      · have hv : Valid u := by
          refine ⟨by rw [h4]; exact h5, by rw [h4]; exact h6, ?_, ?_, ?_⟩
          · rw [h2]; exact hm.rows.filter _
          · rw [h3]; exact hm.cols
          · intro t ht; rw [h4] at ht; cases ht; exact h7
        refine ⟨u, h1, hv, h8, h2, h3, ?_⟩
        intro r c
        by_cases hr : r ∈ u.rows
        · by_cases hc : c ∈ u.cols
          · have e := h10 r hr c hc
            have hr' : r ∈ m.rows := by
              rw [h2] at hr; unfold nonEmptyRows at hr; exact (List.mem_filter.1 hr).1
            have hc' : c ∈ m.cols := by rw [h3] at hc; exact hc
            rw [getValue_spec hv h8 hr hc, getValue_spec hm ⟨s, hb, hf⟩ hr' hc'] at e
            exact Except.ok.inj e
          · rw [entry_col_absent r hc, entry_col_absent r (by rw [h3] at hc; exact hc)]
        · rw [entry_row_absent hr]
          rw [h2] at hr
          unfold nonEmptyRows at hr
          by_cases hr' : r ∈ m.rows
          · by_contra hne
            exact hr (List.mem_filter.2 ⟨hr', by simpa using ⟨c, fun h => hne h.symm⟩⟩)
          · rw [entry_row_absent hr']
  · intro hne hz
    have hnil : nonEmptyRows m = [] := by
      unfold nonEmptyRows
      rw [List.filter_eq_nil_iff]
      intro r _
      simp [hz]
    rw [hdef]
    split
    · next he =>
      rw [List.isEmpty_iff] at he
      obtain ⟨r, hr⟩ := List.exists_mem_of_ne_nil _ hne
      have := (hmem r).2 ⟨hr, hz r⟩
      rw [he] at this; cases this
    · rcases hsub with ⟨_, h⟩ | ⟨h, _⟩
      · exact h
      · exact absurd hnil (h (by simp))

/-- **C26** (columns): same for columns; without any non-zero entry (and at least one column) it raises
`AttributeError`. -/
theorem C26_drop_empty_cols_partial {m : Mtx κ ν} (hm : Valid m) (hc : IsCompressed m) :
    ((∃ r c, entry m r c ≠ 0) → ∃ u, dropEmpty m true = .ok (some u) ∧ Valid u ∧ IsCompressed u ∧
      u.rows = m.rows ∧ u.cols = nonEmptyCols m ∧ ∀ r c, entry u r c = entry m r c) ∧
    (m.cols ≠ [] → (∀ r c, entry m r c = 0) → dropEmpty m true = .error .attributeError) := by
  classical
  have hns : NotSquare m := by
    obtain ⟨s, hb, _⟩ := hc
    intro d hd; rw [hb] at hd; cases hd
  obtain ⟨t, h1, h2, h3, h4, h5, _⟩ := C24_transpose_partial hm hns
  have hct : IsCompressed t := by
    obtain ⟨s, hb, hf⟩ := hc
    unfold transpose at h1
    rw [hb] at h1
    obtain ⟨k, _, _⟩ := mkMtx_inv h1
    refine ⟨_, k, ?_⟩
    unfold Sp.transpose
    simp only
    cases hs : s.fmt <;> simp_all
  have hrows : nonEmptyRows t = nonEmptyCols m := by
    unfold nonEmptyRows nonEmptyCols
    rw [h2]
    simp only [h5]
  obtain ⟨k1, k2⟩ := C26_drop_empty_rows_partial h4 hct
  have hdef : dropEmpty m true = (do
      let t ← transpose m
      match ← dropEmptyRows t false with
      | none => .error .attributeError
      | some d => do
        let r ← transpose d
        .ok (some r)) := by
    unfold dropEmpty; rfl
  have hdr : dropEmpty t false = dropEmptyRows t false := by unfold dropEmpty; rfl
  rw [hdr] at k1 k2
  constructor
  · rintro ⟨r, c, hrc⟩
    obtain ⟨u, u1, u2, u3, u4, u5, u6⟩ := k1 ⟨c, r, by rw [h5]; exact hrc⟩
    have hnu : NotSquare u := by
      obtain ⟨s, hb, _⟩ := u3
      intro d hd; rw [hb] at hd; cases hd
    obtain ⟨w, w1, w2, w3, w4, w5, _⟩ := C24_transpose_partial u2 hnu
    have hcw : IsCompressed w := by
      obtain ⟨s, hb, hf⟩ := u3
      unfold transpose at w1
      rw [hb] at w1
      obtain ⟨k, _, _⟩ := mkMtx_inv w1
      refine ⟨_, k, ?_⟩
      unfold Sp.transpose
      simp only
      cases hs : s.fmt <;> simp_all
    refine ⟨w, ?_, w4, hcw, by rw [w2, u5, h3], by rw [w3, u4, hrows], fun r c => by rw [w5, u6, h5]⟩
    rw [hdef, h1]
    simp only [bind, Except.bind]
    rw [u1]
    simp only [w1]
  · intro hne hz
    rw [hdef, h1]
    simp only [bind, Except.bind]
    rw [k2 (by rw [h2]; exact hne) (fun r c => by rw [h5]; exact hz _ _)]

/-- **C26** (idempotent): dropping the empty rows twice gives what dropping them once gives. -/
theorem C26_idempotent_partial {m u : Mtx κ ν} (hm : Valid m) (hc : IsCompressed m) (hne : ∃ r c, entry m r c ≠ 0)
    (h : dropEmpty m false = .ok (some u)) : dropEmpty u false = .ok (some u) := by
  classical
  obtain ⟨u', h1, h2, h3, h4, h5, h6⟩ := (C26_drop_empty_rows_partial hm hc).1 hne
  rw [h] at h1
  simp only [Except.ok.injEq, Option.some.injEq] at h1
  subst h1
  obtain ⟨s, hb, hf⟩ := h3
  unfold dropEmpty dropEmptyRows
  simp only [Bool.not_false, if_true, hb]
  have : (s.emptyRows false).filterMap (fun i => u.rows[i]?) = [] := by
    apply List.eq_nil_iff_forall_not_mem.2
    intro r hr
    obtain ⟨hr1, hr2⟩ := (mem_emptyItems h2 hb r).1 hr
    rw [h4] at hr1
    unfold nonEmptyRows at hr1
    have := (List.mem_filter.1 hr1).2
    simp only [decide_eq_true_eq] at this
    obtain ⟨c, hc⟩ := this
    exact hc (by rw [← h6]; exact hr2 c)
  rw [this]
  rfl

/-- **C26** (idempotent, columns): dropping the empty columns twice gives the rows, columns and entries that dropping
them once gives. -/
theorem C26_idempotent_cols_partial {m u : Mtx κ ν} (hm : Valid m) (hc : IsCompressed m) (hne : ∃ r c, entry m r c ≠ 0)
    (h : dropEmpty m true = .ok (some u)) : ∃ w, dropEmpty u true = .ok (some w) ∧ SameNamed w u := by
  classical
  obtain ⟨u', h1, h2, h3, h4, h5, h6⟩ := (C26_drop_empty_cols_partial hm hc).1 hne
  rw [h] at h1
  simp only [Except.ok.injEq, Option.some.injEq] at h1
  subst h1
  obtain ⟨r, c, hrc⟩ := hne
  obtain ⟨w, k1, _, _, k4, k5, k6⟩ := (C26_drop_empty_cols_partial h2 h3).1 ⟨r, c, by rw [h6]; exact hrc⟩
  refine ⟨w, k1, ⟨k4, ?_, k6⟩⟩
  rw [k5]
  unfold nonEmptyCols
  rw [List.filter_eq_self]
  intro c' hc'
  rw [h5] at hc'
  unfold nonEmptyCols at hc'
  have := (List.mem_filter.1 hc').2
  simp only [decide_eq_true_eq] at this ⊢
  obtain ⟨r', hr'⟩ := this
  exact ⟨r', by rw [h6]; exact hr'⟩

/-- **C26**: a dense matrix is refused, on both axes. -/
theorem C26_dense (m : Mtx κ ν) (d : Dn ν) (hb : m.body = .dn d) (axis explicit : Bool) :
    ∃ e, dropEmpty m axis explicit = .error e := by
  cases axis
  · unfold dropEmpty dropEmptyRows
    simp only [Bool.not_false, if_true, hb]
    split <;> exact ⟨_, rfl⟩
  · unfold dropEmpty
    simp only [Bool.not_true, Bool.false_eq_true, if_false]
    cases ht : transpose m with
    | error e => exact ⟨e, rfl⟩
    | ok t =>
      have : ∃ d', t.body = .dn d' := by
        unfold transpose at ht
        rw [hb] at ht
        simp only at ht
        split at ht
        · cases ht
        · obtain ⟨k, _, _⟩ := mkMtx_inv ht
          exact ⟨_, k⟩
      obtain ⟨d', hd'⟩ := this
      simp only [bind, Except.bind]
      unfold dropEmptyRows
      rw [hd']
      simp only
      split
      · split at * <;> simp_all
      · split at * <;> simp_all

end C26

/-- **C26** is false for matrices without non-zero entries: no matrix comes back, and dropping columns raises. -/
theorem C26_false_all_empty : ∃ m : Mtx Nat Int, Valid m ∧ IsCsr m ∧ dropEmpty m false = .ok none ∧
    dropEmpty m true = .error .attributeError := by
  refine ⟨⟨.sp ⟨.csr, 2, 2, []⟩, [1, 2], [5, 6]⟩, ⟨rfl, rfl, by decide, by decide, ?_⟩, ⟨_, rfl, rfl⟩, by rfl, by rfl⟩
  intro s hs; cases hs; exact ⟨by decide, by decide⟩

/-- **C26** is false for `explicit=True`, whose documentation promises to drop rows that have only explicit zeros: it
keeps them. -/
theorem C26_false_explicit : ∃ m : Mtx Nat Int, Valid m ∧ IsCsr m ∧ (∀ c, entry m 2 c = 0) ∧
    ∃ u, dropEmpty m false true = .ok (some u) ∧ 2 ∈ u.rows := by
  refine ⟨⟨.sp ⟨.csr, 2, 1, [((0, 0), 3), ((1, 0), 0)]⟩, [1, 2], [5]⟩, ⟨rfl, rfl, by decide, by decide, ?_⟩,
    ⟨_, rfl, rfl⟩, ?_, _, by rfl, by decide⟩
  · intro s hs; cases hs; exact ⟨by decide, by decide⟩
  · intro c
    by_cases h : c = 5
    · subst h; decide
    · exact entry_col_absent _ (by simpa using h)

example : ∃ (m u : Mtx Nat Int), Valid m ∧ IsCompressed m ∧ (∃ r c, entry m r c ≠ 0) ∧ dropEmpty m false = .ok (some u) ∧
    u.rows = [1, 3] := by
  refine ⟨⟨.sp ⟨.csr, 3, 1, [((0, 0), 3), ((1, 0), 0), ((2, 0), 1)]⟩, [1, 2, 3], [5]⟩,
    ⟨.sp ⟨.csr, 2, 1, [((0, 0), 3), ((1, 0), 1)]⟩, [1, 3], [5]⟩, ⟨rfl, rfl, by decide, by decide, ?_⟩,
    ⟨_, rfl, by decide⟩, ⟨1, 5, by decide⟩, by rfl, rfl⟩
  intro s hs; cases hs; exact ⟨by decide, by decide⟩

end Verif.Matrix
