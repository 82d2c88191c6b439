import Verif.Matrix.PropsSelect

set_option linter.unusedSectionVars false

/-!
# C23, C24, C55 for dense matrices: reading, reordering, appending
-/

namespace Verif.Matrix
open Verif.Py

variable {κ ν : Type} [LinearOrder κ]

theorem mkMtx_dense [AllClose ν] {e : Dn ν} {rows cols : List κ} (hr : e.nr = rows.length) (hc : e.nc = cols.length) :
    mkMtx (.dn e) rows cols = if e.symmetric = true ∧ rows ≠ cols then .error .valueError else .ok ⟨.dn e, rows, cols⟩ := by
  unfold mkMtx
  rw [if_neg (by simpa [Body.nr] using hr), if_neg (by simpa [Body.nc] using hc)]

/-- **C23** (reading dense matrices). -/
theorem C23_dense_read [Zero ν] {m : Mtx κ ν} (hm : Valid m) {d : Dn ν} (hb : m.body = .dn d) {r c : κ} (hr : r ∈ m.rows)
    (hc : c ∈ m.cols) : getValue m r c = .ok (entry m r c) := by
  obtain ⟨i, hi⟩ := idOf_isSome hr
  obtain ⟨j, hj⟩ := idOf_isSome hc
  rw [entry_of hm.rows hm.cols (getElem?_of_idOf hi) (getElem?_of_idOf hj)]
  unfold getValue
  rw [hi, hj, hb]
  rfl

/-- **C24** (reordering rows of a dense matrix that is not symmetric): the rows in the order given with their entries; if the new
array looks symmetric although the names of rows and columns differ, it is refused. -/
theorem C24_dense_reorderRows_partial [Zero ν] [AllClose ν] {m : Mtx κ ν} (hm : Valid m) {d : Dn ν} (hb : m.body = .dn d)
    (hs : d.symmetric = false) {l : List κ} (hl : l ≠ []) (hnd : l.Nodup) (hsub : ∀ e ∈ l, e ∈ m.rows) :
    ∃ e : Dn ν, Valid (⟨.dn e, l, m.cols⟩ : Mtx κ ν) ∧ (∀ r ∈ l, ∀ c, entry (⟨.dn e, l, m.cols⟩ : Mtx κ ν) r c = entry m r c) ∧
      reorderRows m l = if e.symmetric = true ∧ l ≠ m.cols then .error .valueError else .ok ⟨.dn e, l, m.cols⟩ := by
  obtain ⟨idx, h1, h2, h3⟩ := indexList_ok hm.rows hl hsub
  have hnc := hm.nc
  rw [hb] at hnc
  simp only [Body.nc] at hnc
  refine ⟨d.sub (some idx) none, ⟨h2, hnc, hnd, hm.cols, by intro s h; cases h⟩, ?_, ?_⟩
  · intro r hr c
    by_cases hcm : c ∈ m.cols
    · obtain ⟨a, ha⟩ := List.mem_iff_getElem?.1 hr
      obtain ⟨j, hj⟩ := List.mem_iff_getElem?.1 hcm
      obtain ⟨i, hi, hi'⟩ := indexList_get h2 hm.rows h3 ha
      rw [entry_of (m := ⟨.dn (d.sub (some idx) none), l, m.cols⟩) hnd hm.cols ha hj, entry_of hm.rows hm.cols hi' hj, hb]
      simp [Body.val, Dn.sub, List.getD, hi]
    · rw [entry_col_absent (m := ⟨.dn (d.sub (some idx) none), l, m.cols⟩) r hcm, entry_col_absent r hcm]
  · unfold reorderRows
    rw [h1, hb]
    simp only [bind, Except.bind, bodyRows, hs, Bool.false_eq_true, if_false]
    exact mkMtx_dense h2 hnc

/-- **C24** (reordering columns of a dense matrix that is not symmetric). -/
theorem C24_dense_reorderCols_partial [Zero ν] [AllClose ν] {m : Mtx κ ν} (hm : Valid m) {d : Dn ν} (hb : m.body = .dn d)
    (hs : d.symmetric = false) {l : List κ} (hl : l ≠ []) (hnd : l.Nodup) (hsub : ∀ e ∈ l, e ∈ m.cols) :
    ∃ e : Dn ν, Valid (⟨.dn e, m.rows, l⟩ : Mtx κ ν) ∧ (∀ r, ∀ c ∈ l, entry (⟨.dn e, m.rows, l⟩ : Mtx κ ν) r c = entry m r c) ∧
      reorderCols m l = if e.symmetric = true ∧ m.rows ≠ l then .error .valueError else .ok ⟨.dn e, m.rows, l⟩ := by
  obtain ⟨idx, h1, h2, h3⟩ := indexList_ok hm.cols hl hsub
  have hnr := hm.nr
  rw [hb] at hnr
  simp only [Body.nr] at hnr
  refine ⟨d.sub none (some idx), ⟨hnr, h2, hm.rows, hnd, by intro s h; cases h⟩, ?_, ?_⟩
  · intro r c hc
    by_cases hrm : r ∈ m.rows
    · obtain ⟨a, ha⟩ := List.mem_iff_getElem?.1 hc
      obtain ⟨i, hi⟩ := List.mem_iff_getElem?.1 hrm
      obtain ⟨j, hj, hj'⟩ := indexList_get h2 hm.cols h3 ha
      rw [entry_of (m := ⟨.dn (d.sub none (some idx)), m.rows, l⟩) hm.rows hnd hi ha, entry_of hm.rows hm.cols hi hj', hb]
      simp [Body.val, Dn.sub, List.getD, hj]
    · rw [entry_row_absent (m := ⟨.dn (d.sub none (some idx)), m.rows, l⟩) hrm, entry_row_absent hrm]
  · unfold reorderCols
    rw [h1, hb]
    simp only [bind, Except.bind, bodyCols, hs, Bool.false_eq_true, if_false]
    exact mkMtx_dense hnr h2

/-- **C24** (reordering by no names): an `IndexError`, whatever the matrix. -/
theorem C24_reorder_empty [AllClose ν] (m : Mtx κ ν) : reorderRows m [] = .error .indexError ∧ reorderCols m [] = .error .indexError :=
  ⟨rfl, rfl⟩

/-- **C24** (appending rows to a dense matrix that is not symmetric). -/
theorem C24_dense_concatRows_partial [Zero ν] [AllClose ν] {m t : Mtx κ ν} (hm : Valid m) (ht : Valid t) {d e : Dn ν}
    (hb : m.body = .dn d) (hb' : t.body = .dn e) (hs : d.symmetric = false) (hcols : m.cols = t.cols)
    (hdis : ∀ r ∈ m.rows, r ∉ t.rows) :
    ∃ u : Dn ν, Valid (⟨.dn u, m.rows ++ t.rows, m.cols⟩ : Mtx κ ν) ∧
      (∀ r ∈ m.rows, ∀ c, entry (⟨.dn u, m.rows ++ t.rows, m.cols⟩ : Mtx κ ν) r c = entry m r c) ∧
      (∀ r ∈ t.rows, ∀ c, entry (⟨.dn u, m.rows ++ t.rows, m.cols⟩ : Mtx κ ν) r c = entry t r c) ∧
      concatRows m t = if u.symmetric = true ∧ m.rows ++ t.rows ≠ m.cols then .error .valueError
        else .ok ⟨.dn u, m.rows ++ t.rows, m.cols⟩ := by
  have hnr := hm.nr; have hnc := hm.nc; have hnr' := ht.nr; have hnc' := ht.nc
  rw [hb] at hnr hnc; rw [hb'] at hnr' hnc'
  simp only [Body.nr, Body.nc] at hnr hnc hnr' hnc'
  have e1 : d.nr + e.nr = (m.rows ++ t.rows).length := by simp [hnr, hnr']
  have hnd : (m.rows ++ t.rows).Nodup := List.Nodup.append hm.rows ht.rows (fun x h h' => hdis x h h')
  let u : Dn ν := { nr := d.nr + e.nr, nc := d.nc, elem := fun i j => if i < d.nr then d.elem i j else e.elem (i - d.nr) j }
  refine ⟨u, ⟨e1, hnc, hnd, hm.cols, by intro s h; cases h⟩, ?_, ?_, ?_⟩
  · intro r hr c
    by_cases hcm : c ∈ m.cols
    · obtain ⟨i, hi⟩ := List.mem_iff_getElem?.1 hr
      obtain ⟨j, hj⟩ := List.mem_iff_getElem?.1 hcm
      have hlt := lt_of_getElem? hi
      rw [entry_of (m := ⟨.dn u, m.rows ++ t.rows, m.cols⟩) hnd hm.cols (by rw [List.getElem?_append_left hlt]; exact hi) hj,
        entry_of hm.rows hm.cols hi hj, hb]
      show (if i < d.nr then d.elem i j else _) = d.elem i j
      rw [if_pos (by omega)]
    · rw [entry_col_absent (m := ⟨.dn u, m.rows ++ t.rows, m.cols⟩) r hcm, entry_col_absent r hcm]
  · intro r hr c
    by_cases hcm : c ∈ m.cols
    · obtain ⟨i, hi⟩ := List.mem_iff_getElem?.1 hr
      obtain ⟨j, hj⟩ := List.mem_iff_getElem?.1 hcm
      rw [entry_of (m := ⟨.dn u, m.rows ++ t.rows, m.cols⟩) hnd hm.cols (i := m.rows.length + i)
          (by rw [List.getElem?_append_right (by omega), Nat.add_sub_cancel_left]; exact hi) hj,
        entry_of ht.rows ht.cols hi (hcols ▸ hj), hb']
      show (if m.rows.length + i < d.nr then _ else e.elem (m.rows.length + i - d.nr) j) = e.elem i j
      rw [if_neg (by omega), hnr, Nat.add_sub_cancel_left]
    · rw [entry_col_absent (m := ⟨.dn u, m.rows ++ t.rows, m.cols⟩) r hcm, entry_col_absent r (hcols ▸ hcm)]
  · unfold concatRows bodyVcat
    rw [hb, hb']
    simp only [hs, Bool.false_eq_true, if_false]
    rw [if_pos (by rw [hnc, hnc', hcols])]
    simp only [bind, Except.bind]
    rw [if_neg (by simpa using hcols)]
    exact mkMtx_dense e1 hnc

/-- **C24** (appending columns to a dense matrix that is not symmetric). -/
theorem C24_dense_concatCols_partial [Zero ν] [AllClose ν] {m t : Mtx κ ν} (hm : Valid m) (ht : Valid t) {d e : Dn ν}
    (hb : m.body = .dn d) (hb' : t.body = .dn e) (hs : d.symmetric = false) (hrows : m.rows = t.rows)
    (hdis : ∀ c ∈ m.cols, c ∉ t.cols) :
    ∃ u : Dn ν, Valid (⟨.dn u, m.rows, m.cols ++ t.cols⟩ : Mtx κ ν) ∧
      (∀ r, ∀ c ∈ m.cols, entry (⟨.dn u, m.rows, m.cols ++ t.cols⟩ : Mtx κ ν) r c = entry m r c) ∧
      (∀ r, ∀ c ∈ t.cols, entry (⟨.dn u, m.rows, m.cols ++ t.cols⟩ : Mtx κ ν) r c = entry t r c) ∧
      concatCols m t = if u.symmetric = true ∧ m.rows ≠ m.cols ++ t.cols then .error .valueError
        else .ok ⟨.dn u, m.rows, m.cols ++ t.cols⟩ := by
  have hnr := hm.nr; have hnc := hm.nc; have hnr' := ht.nr; have hnc' := ht.nc
  rw [hb] at hnr hnc; rw [hb'] at hnr' hnc'
  simp only [Body.nr, Body.nc] at hnr hnc hnr' hnc'
  have e1 : d.nc + e.nc = (m.cols ++ t.cols).length := by simp [hnc, hnc']
  have hnd : (m.cols ++ t.cols).Nodup := List.Nodup.append hm.cols ht.cols (fun x h h' => hdis x h h')
  let u : Dn ν := { nr := d.nr, nc := d.nc + e.nc, elem := fun i j => if j < d.nc then d.elem i j else e.elem i (j - d.nc) }
  refine ⟨u, ⟨hnr, e1, hm.rows, hnd, by intro s h; cases h⟩, ?_, ?_, ?_⟩
  · intro r c hc
    by_cases hrm : r ∈ m.rows
    · obtain ⟨i, hi⟩ := List.mem_iff_getElem?.1 hrm
      obtain ⟨j, hj⟩ := List.mem_iff_getElem?.1 hc
      have hlt := lt_of_getElem? hj
      rw [entry_of (m := ⟨.dn u, m.rows, m.cols ++ t.cols⟩) hm.rows hnd hi (by rw [List.getElem?_append_left hlt]; exact hj),
        entry_of hm.rows hm.cols hi hj, hb]
      show (if j < d.nc then d.elem i j else _) = d.elem i j
      rw [if_pos (by omega)]
    · rw [entry_row_absent (m := ⟨.dn u, m.rows, m.cols ++ t.cols⟩) hrm, entry_row_absent hrm]
  · intro r c hc
    by_cases hrm : r ∈ m.rows
    · obtain ⟨i, hi⟩ := List.mem_iff_getElem?.1 hrm
      obtain ⟨j, hj⟩ := List.mem_iff_getElem?.1 hc
      rw [entry_of (m := ⟨.dn u, m.rows, m.cols ++ t.cols⟩) hm.rows hnd (j := m.cols.length + j) hi
          (by rw [List.getElem?_append_right (by omega), Nat.add_sub_cancel_left]; exact hj),
        entry_of ht.rows ht.cols (hrows ▸ hi) hj, hb']
      show (if m.cols.length + j < d.nc then _ else e.elem i (m.cols.length + j - d.nc)) = e.elem i j
      rw [if_neg (by omega), hnc, Nat.add_sub_cancel_left]
    · rw [entry_row_absent (m := ⟨.dn u, m.rows, m.cols ++ t.cols⟩) hrm, entry_row_absent (hrows ▸ hrm)]
  · unfold concatCols bodyHcat
    rw [hb, hb']
    simp only [hs, Bool.false_eq_true, if_false]
    rw [if_pos (by rw [hnr, hnr', hrows])]
    simp only [bind, Except.bind]
    rw [if_neg (by simpa using hrows)]
    exact mkMtx_dense hnr e1

/-- **C55** is false for dense matrices: they are not merged. -/
theorem C55_dense_refused [Add ν] [Zero ν] [NPVal ν] [AllClose ν] (m t : Mtx κ ν) {d : Dn ν} (hb : m.body = .dn d) :
    mergeByName m t = .error .notImplemented := by
  unfold mergeByName
  rw [hb]

/-- Two rectangular arrays. -/
def wideM : Mtx Nat Int := ⟨.dn ⟨2, 3, fun i j => 10 * i + j⟩, [1, 2], [5, 6, 7]⟩
def wideT : Mtx Nat Int := ⟨.dn ⟨2, 3, fun _ _ => 9⟩, [3, 4], [5, 6, 7]⟩

/-- They meet the hypotheses of the theorems above. -/
example : Valid wideM ∧ Valid wideT ∧ (∃ d, wideM.body = .dn d ∧ d.symmetric = false) ∧ (∃ e, wideT.body = .dn e) ∧
    wideM.cols = wideT.cols ∧ (∀ r ∈ wideM.rows, r ∉ wideT.rows) ∧ [2, 1].Nodup ∧ (∀ e ∈ [2, 1], e ∈ wideM.rows) ∧
    entry wideM 2 6 = 11 :=
  ⟨⟨rfl, rfl, by decide, by decide, by intro s h; cases h⟩, ⟨rfl, rfl, by decide, by decide, by intro s h; cases h⟩,
    ⟨_, rfl, by decide +kernel⟩, ⟨_, rfl⟩, rfl, by decide, by decide, by decide, by decide +kernel⟩

/-- The columns reordered: what is read at `(1, 7)` is what was there. -/
example : (do let u ← reorderCols wideM [7, 5]; getValue u 1 7) = .ok 2 := by decide +kernel

end Verif.Matrix
