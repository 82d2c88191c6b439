import Verif.Matrix.Ops
import Verif.Matrix.PropsFilter

/-!
# C130 (comparison with a number), C131 (`multiply`)
-/

namespace Verif.Matrix
open Verif.Py
set_option linter.unusedSectionVars false

variable {κ ν : Type} [LinearOrder κ] [Semiring ν] [LinearOrder ν] [AllClose ν]

/-! ### Specification -/

/-- The mark at a row name and a column name. -/
def mark (u : Mtx κ Bool) (r c : κ) : Bool :=
  match u.rows.idxOf? r, u.cols.idxOf? c with
  | some i, some j => match u.body with
    | .sp s => (s.stored i j).getD false
    | .dn d => d.elem i j
  | _, _ => false

/-- The names of the two matrices are the same, in the same order. -/
def SameNames (m t : Mtx κ ν) : Prop := m.rows = t.rows ∧ m.cols = t.cols

theorem mark_of {u : Mtx κ Bool} (hr : u.rows.Nodup) (hc : u.cols.Nodup) {i j : Nat} {r c : κ}
    (hi : u.rows[i]? = some r) (hj : u.cols[j]? = some c) :
    mark u r c = match u.body with
      | .sp s => (s.stored i j).getD false
      | .dn d => d.elem i j := by
  unfold mark
  rw [idxOf?_of_nodup hr hi, idxOf?_of_nodup hc hj]

theorem mkMtx_dn {d : Dn ν} {rows cols : List κ} (hr : d.nr = rows.length) (hc : d.nc = cols.length)
    (h : d.symmetric = true → rows = cols) : mkMtx (.dn d) rows cols = .ok ⟨.dn d, rows, cols⟩ := by
  unfold mkMtx
  rw [if_neg (by simp [Body.nr, hr]), if_neg (by simp [Body.nc, hc])]
  simp only
  rw [if_neg (by tauto)]

theorem mkMtx_dnB {d : Dn Bool} {rows cols : List κ} (hr : d.nr = rows.length) (hc : d.nc = cols.length)
    (h : d.symmetric = true → rows = cols) : mkMtx (.dn d) rows cols = .ok ⟨.dn d, rows, cols⟩ := by
  unfold mkMtx
  rw [if_neg (by simp [Body.nr, hr]), if_neg (by simp [Body.nc, hc])]
  simp only
  rw [if_neg (by tauto)]

/-! ### C130 -/

/-- **C130** (sparse).  Comparing a sparse matrix with a number, except for `>= 0` and `<= 0`, gives a matrix of the same items
in which exactly the entries that are *stored* and satisfy the comparison are marked. -/
theorem C130_sparse {m : Mtx κ ν} (hm : Valid m) {s : Sp ν} (hb : m.body = .sp s) {op : Op} {k : ν}
    (hk : ¬ (k = 0 ∧ (op = .le ∨ op = .ge))) :
    ∃ u, compare m op (some k) = .ok u ∧ u.rows = m.rows ∧ u.cols = m.cols ∧
      ∀ r ∈ m.rows, ∀ c ∈ m.cols, mark u r c = ((storedEntry m r c).map (fun v => op.holds v k)).getD false := by
  have hs := hm.sp s hb
  have hnr := hm.nr
  have hnc := hm.nc
  rw [hb] at hnr hnc
  simp only [Body.nr, Body.nc] at hnr hnc
  obtain ⟨b, h1, h2, h3, h4⟩ := cmp_stored hs hk
  refine ⟨⟨.sp b, m.rows, m.cols⟩, ?_, rfl, rfl, ?_⟩
  · unfold compare
    simp only [hb]
    rw [h1]
    exact mkMtx_sp (h2.trans hnr) (h3.trans hnc)
  · intro r hr c hc
    obtain ⟨i, hi⟩ := getElem?_of_mem' hr
    obtain ⟨j, hj⟩ := getElem?_of_mem' hc
    rw [mark_of (u := ⟨.sp b, m.rows, m.cols⟩) hm.rows hm.cols hi hj, storedEntry_of hm.rows hm.cols hb hi hj]
    simp only
    rw [h4]
    cases s.stored i j with
    | none => rfl
    | some v => cases h : op.holds v k <;> simp [Option.filter, h]

/-- **C130** (what a user relies on, sparse).  If 0 does not satisfy the comparison, exactly the entries that satisfy it are
marked. -/
theorem C130_sparse_partial {m : Mtx κ ν} (hm : Valid m) {s : Sp ν} (hb : m.body = .sp s) {op : Op} {k : ν}
    (h0 : op.holds 0 k = false) :
    ∃ u, compare m op (some k) = .ok u ∧ u.rows = m.rows ∧ u.cols = m.cols ∧
      ∀ r ∈ m.rows, ∀ c ∈ m.cols, mark u r c = op.holds (entry m r c) k := by
  have hk : ¬ (k = 0 ∧ (op = .le ∨ op = .ge)) := by
    rintro ⟨rfl, rfl | rfl⟩ <;> simp [Op.holds] at h0
  obtain ⟨u, h1, h2, h3, h4⟩ := C130_sparse hm hb hk
  refine ⟨u, h1, h2, h3, ?_⟩
  intro r hr c hc
  rw [h4 r hr c hc, entry_eq_stored hb]
  cases storedEntry m r c with
  | none => simp [h0]
  | some v => rfl

/-- **C130** (arrays).  Comparing an array that does not look symmetric gives a matrix of the same items in which exactly the
entries that satisfy the comparison are marked — unless the marks look symmetric while rows and columns have different names. -/
theorem C130_dense_partial {m : Mtx κ ν} (hm : Valid m) {d : Dn ν} (hb : m.body = .dn d) (hd : d.symmetric = false) {op : Op}
    {k : ν} (hsym : (d.cmp op k).symmetric = true → m.rows = m.cols) :
    ∃ u, compare m op (some k) = .ok u ∧ u.rows = m.rows ∧ u.cols = m.cols ∧
      ∀ r ∈ m.rows, ∀ c ∈ m.cols, mark u r c = op.holds (entry m r c) k := by
  have hnr := hm.nr
  have hnc := hm.nc
  rw [hb] at hnr hnc
  simp only [Body.nr, Body.nc] at hnr hnc
  refine ⟨⟨.dn (d.cmp op k), m.rows, m.cols⟩, ?_, rfl, rfl, ?_⟩
  · unfold compare
    simp only [hb]
    rw [if_neg (by rw [hd]; simp)]
    exact mkMtx_dnB hnr hnc hsym
  · intro r hr c hc
    obtain ⟨i, hi⟩ := getElem?_of_mem' hr
    obtain ⟨j, hj⟩ := getElem?_of_mem' hc
    rw [mark_of (u := ⟨.dn (d.cmp op k), m.rows, m.cols⟩) hm.rows hm.cols hi hj, entry_of hm.rows hm.cols hi hj, hb]
    rfl

/-- **C130** (refusals).  A right side that is no `int` or `float`: `ValueError`; `>= 0` and `<= 0` of a sparse matrix and any
comparison of an array that looks symmetric: `NotImplementedError`; marks that look symmetric under different names:
`ValueError`. -/
theorem C130_refused {m : Mtx κ ν} (hm : Valid m) (op : Op) :
    compare m op none = .error .valueError ∧
    (∀ s, m.body = .sp s → (op = .le ∨ op = .ge) → compare m op (some 0) = .error .notImplemented) ∧
    (∀ d k, m.body = .dn d → d.symmetric = true → compare m op (some k) = .error .notImplemented) ∧
    (∀ d k, m.body = .dn d → d.symmetric = false → (d.cmp op k).symmetric = true → m.rows ≠ m.cols →
      compare m op (some k) = .error .valueError) := by
  refine ⟨rfl, ?_, ?_, ?_⟩
  · intro s hb hop
    unfold compare
    simp only [hb]
    have : s.cmp op 0 = .error .notImplemented := by
      unfold Sp.cmp
      rcases hop with rfl | rfl <;> simp
    rw [this]; rfl
  · intro d k hb hd
    unfold compare
    simp only [hb]
    rw [if_pos hd]
  · intro d k hb hd hs hne
    have hnr := hm.nr
    have hnc := hm.nc
    rw [hb] at hnr hnc
    simp only [Body.nr, Body.nc] at hnr hnc
    unfold compare
    simp only [hb]
    rw [if_neg (by rw [hd]; simp)]
    unfold mkMtx
    rw [if_neg (by simp [Body.nr, Dn.cmp, hnr]), if_neg (by simp [Body.nc, Dn.cmp, hnc])]
    simp only
    rw [if_pos ⟨hs, hne⟩]

/-- A sparse matrix with two entries. -/
def opSp : Mtx Nat Int := ⟨.sp { fmt := .csr, nr := 2, nc := 2, data := [((0, 0), 3), ((1, 1), 7)] }, [1, 2], [8, 9]⟩

/-- The same as an array. -/
def opDn : Mtx Nat Int :=
  ⟨.dn { nr := 2, nc := 2, elem := fun i j => if i = 0 then (if j = 0 then 3 else 1) else (if j = 0 then 0 else 7) }, [1, 2], [8, 9]⟩

theorem opSp_valid : Valid opSp := by
  refine ⟨rfl, rfl, by decide, by decide, ?_⟩
  intro s h; cases h
  exact ⟨by unfold Dict.WF; decide, by decide⟩

theorem opDn_valid : Valid opDn := ⟨rfl, rfl, by decide, by decide, fun s h => by cases h⟩

/-- The claim for every number is false: the entry (1, 9) is 0, which is less than 5, but is not marked. -/
theorem C130_counterexample :
    ∃ u, compare opSp .lt (some 5) = .ok u ∧ entry opSp 1 9 = 0 ∧ mark u 1 9 = false ∧ mark u 1 8 = true := by
  exact ⟨_, rfl, by decide, by decide, by decide⟩

/-- For an array, marks may look symmetric: here all entries but none are below 9, under different names. -/
theorem C130_dense_counterexample : compare opDn .lt (some 9) = .error .valueError := by
  refine (C130_refused opDn_valid .lt).2.2.2 _ 9 rfl (by decide) (by decide) (by decide)

example : ∃ u, compare opSp .gt (some 5) = .ok u ∧ u.rows = opSp.rows ∧ u.cols = opSp.cols ∧
    ∀ r ∈ opSp.rows, ∀ c ∈ opSp.cols, mark u r c = Op.gt.holds (entry opSp r c) 5 :=
  C130_sparse_partial opSp_valid rfl (by decide)

example : ∃ u, compare opDn .gt (some 0) = .ok u ∧ u.rows = opDn.rows ∧ u.cols = opDn.cols ∧
    ∀ r ∈ opDn.rows, ∀ c ∈ opDn.cols, mark u r c = Op.gt.holds (entry opDn r c) 0 :=
  C130_dense_partial opDn_valid rfl (by decide) (fun h => absurd h (by decide))

/-! ### C131 -/

/-- Names do not matter to `multiply`, only positions do. -/
theorem C131_names_ignored (m t : Mtx κ ν) (rows cols : List κ) :
    multiply m ⟨t.body, rows, cols⟩ = multiply m t := rfl

/-- The position-wise law behind the theorems on sparse matrices. -/
theorem multiply_sp {m t : Mtx κ ν} (hm : Valid m) (ht : Valid t) (hn : SameNames m t) {s s' : Sp ν} (hb : m.body = .sp s)
    (hb' : t.body = .sp s') :
    ∃ u, multiply m t = .ok u ∧ Valid u ∧ u.rows = m.rows ∧ u.cols = m.cols ∧
      ∀ r c, entry u r c = if (∃ e ∈ s.data, e.2 = 0) then (if (storedEntry t r c).isSome then entry m r c else 0)
        else entry m r c * entry t r c := by
  have hs := hm.sp s hb
  have hnr := hm.nr
  have hnc := hm.nc
  have hnr' := ht.nr
  have hnc' := ht.nc
  rw [hb] at hnr hnc
  rw [hb'] at hnr' hnc'
  simp only [Body.nr, Body.nc] at hnr hnc hnr' hnc'
  have hmul : ∃ u, s.multiply s' = .ok u ∧ u.nr = s.nr ∧ u.nc = s.nc ∧ u.WF ∧
      ∀ i j, u.val i j = if (∃ e ∈ s.data, e.2 = 0) then (if (s'.stored i j).isSome then s.val i j else 0)
        else s.val i j * s'.val i j := by
    unfold Sp.multiply
    have hany : (s.data.values.any (fun v => decide (v = 0))) = true ↔ ∃ e ∈ s.data, e.2 = 0 := by
      unfold Dict.values
      rw [List.any_map, List.any_eq_true]
      simp
    by_cases h0 : ∃ e ∈ s.data, e.2 = 0
    · rw [if_pos (hany.2 h0)]
      refine ⟨_, rfl, rfl, rfl, ⟨Dict.WF_filter hs.nodup _, ?_⟩, ?_⟩
      · intro p hp
        exact hs.bound p ((Dict.keys_filter_sublist _ _).subset hp)
      · intro i j
        rw [if_pos h0]
        unfold Sp.val Sp.stored
        simp only
        rw [Dict.get?_filter hs.nodup]
        cases hv : Dict.get? s.data (i, j) with
        | none => simp
        | some v =>
          unfold Dict.contains
          cases hc : Dict.get? s'.data (i, j) <;> simp [Option.filter, hc]
    · rw [if_neg (by rw [hany]; exact h0)]
      unfold Sp.elmul
      rw [if_pos ⟨by rw [hnr, hnr', hn.1], by rw [hnc, hnc', hn.2]⟩]
      have hwf : Dict.WF (s.data.map (fun e => (e.1, e.2 * s'.val e.1.1 e.1.2))) := by
        unfold Dict.WF
        rw [keys_map_val s.data (fun p v => v * s'.val p.1 p.2)]
        exact hs.nodup
      refine ⟨_, rfl, rfl, rfl, ⟨Dict.WF_filter hwf _, ?_⟩, ?_⟩
      · intro p hp
        have := (Dict.keys_filter_sublist _ _).subset hp
        rw [keys_map_val s.data (fun p v => v * s'.val p.1 p.2)] at this
        exact hs.bound p this
      · intro i j
        rw [if_neg h0]
        have hval0 : ∀ t : Sp ν, t.val i j = (Dict.get? t.data (i, j)).getD 0 := fun _ => rfl
        rw [hval0, hval0 s]
        simp only
        rw [Dict.get?_filter hwf, get?_map_val s.data (fun p v => v * s'.val p.1 p.2)]
        cases hv : Dict.get? s.data (i, j) with
        | none => simp
        | some v =>
          by_cases hz : v * s'.val i j = 0
          · simp [Option.filter, hz]
          · simp [Option.filter, hz]
  obtain ⟨u, k1, k2, k3, k4, k5⟩ := hmul
  refine ⟨⟨.sp u, m.rows, m.cols⟩, ?_, ⟨k2.trans hnr, k3.trans hnc, hm.rows, hm.cols, ?_⟩, rfl, rfl, ?_⟩
  · unfold multiply bodyMul
    rw [hb, hb']
    simp only [k1, bind, Except.bind, Except.map]
    exact mkMtx_sp (k2.trans hnr) (k3.trans hnc)
  · intro s' h; cases h; exact k4
  · intro r c
    by_cases hr : r ∈ m.rows
    · by_cases hc : c ∈ m.cols
      · obtain ⟨i, hi⟩ := getElem?_of_mem' hr
        obtain ⟨j, hj⟩ := getElem?_of_mem' hc
        rw [entry_of (m := ⟨.sp u, m.rows, m.cols⟩) hm.rows hm.cols hi hj, entry_of hm.rows hm.cols hi hj,
          entry_of ht.rows ht.cols (hn.1 ▸ hi) (hn.2 ▸ hj), storedEntry_of ht.rows ht.cols hb' (hn.1 ▸ hi) (hn.2 ▸ hj), hb, hb']
        exact k5 i j
      · rw [entry_col_absent (m := ⟨.sp u, m.rows, m.cols⟩) r hc, entry_col_absent r hc]; simp
    · rw [entry_row_absent (m := ⟨.sp u, m.rows, m.cols⟩) hr, entry_row_absent hr]; simp

/-- **C131** (sparse).  For two sparse matrices of the same names, the first of which stores no zeros: each entry of the product is
the product of the entries. -/
theorem C131_sparse_partial {m t : Mtx κ ν} (hm : Valid m) (ht : Valid t) (hn : SameNames m t) {s s' : Sp ν}
    (hb : m.body = .sp s) (hb' : t.body = .sp s') (h0 : ∀ e ∈ s.data, e.2 ≠ 0) :
    ∃ u, multiply m t = .ok u ∧ Valid u ∧ u.rows = m.rows ∧ u.cols = m.cols ∧
      ∀ r c, entry u r c = entry m r c * entry t r c := by
  obtain ⟨u, h1, h2, h3, h4, h5⟩ := multiply_sp hm ht hn hb hb'
  refine ⟨u, h1, h2, h3, h4, ?_⟩
  intro r c
  rw [h5, if_neg]
  rintro ⟨e, he, hz⟩
  exact h0 e he hz

/-- **C131** (stored zeros).  If the first matrix stores a zero anywhere, the result holds its entries unmultiplied wherever the
other stores one. -/
theorem C131_stored_zero {m t : Mtx κ ν} (hm : Valid m) (ht : Valid t) (hn : SameNames m t) {s s' : Sp ν}
    (hb : m.body = .sp s) (hb' : t.body = .sp s') (h0 : ∃ e ∈ s.data, e.2 = 0) :
    ∃ u, multiply m t = .ok u ∧ Valid u ∧ u.rows = m.rows ∧ u.cols = m.cols ∧
      ∀ r c, entry u r c = if (storedEntry t r c).isSome then entry m r c else 0 := by
  obtain ⟨u, h1, h2, h3, h4, h5⟩ := multiply_sp hm ht hn hb hb'
  refine ⟨u, h1, h2, h3, h4, ?_⟩
  intro r c
  rw [h5, if_pos h0]

/-- **C131** (arrays).  For two arrays of the same names, the first of which does not look symmetric: each entry of the product is
the product of the entries, unless the product looks symmetric while rows and columns have different names. -/
theorem C131_dense_partial {m t : Mtx κ ν} (hm : Valid m) (ht : Valid t) (hn : SameNames m t) {d e : Dn ν}
    (hb : m.body = .dn d) (hb' : t.body = .dn e) (hd : d.symmetric = false) :
    (∃ u, multiply m t = .ok u ∧ u.rows = m.rows ∧ u.cols = m.cols ∧
      ∀ r c, entry u r c = entry m r c * entry t r c) ∨ (multiply m t = .error .valueError ∧ m.rows ≠ m.cols) := by
  have hnr := hm.nr
  have hnc := hm.nc
  have hnr' := ht.nr
  have hnc' := ht.nc
  rw [hb] at hnr hnc
  rw [hb'] at hnr' hnc'
  simp only [Body.nr, Body.nc] at hnr hnc hnr' hnc'
  have e1 : d.nr = e.nr := by rw [hnr, hnr', hn.1]
  have e2 : d.nc = e.nc := by rw [hnc, hnc', hn.2]
  have hmul : ∃ u, d.mul e = .ok u ∧ u.nr = d.nr ∧ u.nc = d.nc ∧
      ∀ i j, i < d.nr → j < d.nc → u.elem i j = d.elem i j * e.elem i j := by
    unfold Dn.mul castDim
    rw [if_pos e1, if_pos e2]
    refine ⟨_, rfl, rfl, rfl, ?_⟩
    intro i j hi hj
    simp only [Dn.cast]
    have hi1 : (if d.nr = 1 then 0 else i) = i := by split <;> omega
    have hj1 : (if d.nc = 1 then 0 else j) = j := by split <;> omega
    have hi2 : (if e.nr = 1 then 0 else i) = i := by split <;> omega
    have hj2 : (if e.nc = 1 then 0 else j) = j := by split <;> omega
    rw [hi1, hj1, hi2, hj2]
  obtain ⟨u, k1, k2, k3, k5⟩ := hmul
  have hmt : multiply m t = mkMtx (.dn u) m.rows m.cols := by
    unfold multiply bodyMul
    rw [hb, hb']
    simp only
    rw [if_neg (by rw [hd]; simp), k1]
    rfl
  by_cases hsym : u.symmetric = true → m.rows = m.cols
  · left
    refine ⟨⟨.dn u, m.rows, m.cols⟩, ?_, rfl, rfl, ?_⟩
    · rw [hmt]
      exact mkMtx_dn (k2.trans hnr) (k3.trans hnc) hsym
    · intro r c
      by_cases hr : r ∈ m.rows
      · by_cases hc : c ∈ m.cols
        · obtain ⟨i, hi⟩ := getElem?_of_mem' hr
          obtain ⟨j, hj⟩ := getElem?_of_mem' hc
          rw [entry_of (m := ⟨.dn u, m.rows, m.cols⟩) hm.rows hm.cols hi hj, entry_of hm.rows hm.cols hi hj,
            entry_of ht.rows ht.cols (hn.1 ▸ hi) (hn.2 ▸ hj), hb, hb']
          exact k5 i j (by rw [hnr]; exact lt_of_getElem? hi) (by rw [hnc]; exact lt_of_getElem? hj)
        · rw [entry_col_absent (m := ⟨.dn u, m.rows, m.cols⟩) r hc, entry_col_absent r hc]; simp
      · rw [entry_row_absent (m := ⟨.dn u, m.rows, m.cols⟩) hr, entry_row_absent hr]; simp
  · right
    have hs : u.symmetric = true := by by_contra h; exact hsym (fun h' => absurd h' h)
    have hne : m.rows ≠ m.cols := fun h => hsym (fun _ => h)
    refine ⟨?_, hne⟩
    rw [hmt]
    unfold mkMtx
    rw [if_neg (by simp [Body.nr, k2, hnr]), if_neg (by simp [Body.nc, k3, hnc])]
    simp only
    rw [if_pos ⟨hs, hne⟩]

/-- **C131** (sparse times array).  For a sparse matrix that stores no zeros and an array of the same names each entry of the
product is the product of the entries. -/
theorem C131_mixed_partial {m t : Mtx κ ν} (hm : Valid m) (ht : Valid t) (hn : SameNames m t) {s : Sp ν} {d : Dn ν}
    (hb : m.body = .sp s) (hb' : t.body = .dn d) (h0 : ∀ e ∈ s.data, e.2 ≠ 0) :
    ∃ u, multiply m t = .ok u ∧ u.rows = m.rows ∧ u.cols = m.cols ∧
      ∀ r c, entry u r c = entry m r c * entry t r c := by
  have hnr := hm.nr
  have hnc := hm.nc
  have hnr' := ht.nr
  have hnc' := ht.nc
  rw [hb] at hnr hnc
  rw [hb'] at hnr' hnc'
  simp only [Body.nr, Body.nc] at hnr hnc hnr' hnc'
  let u : Sp ν := { s with fmt := .coo, data := s.data.map (fun e => (e.1, e.2 * d.elem e.1.1 e.1.2)) }
  refine ⟨⟨.sp u, m.rows, m.cols⟩, ?_, rfl, rfl, ?_⟩
  · unfold multiply bodyMul
    rw [hb, hb']
    simp only
    rw [if_neg]
    · unfold Sp.mulDn
      rw [if_pos ⟨by rw [hnr, hnr', hn.1], by rw [hnc, hnc', hn.2]⟩]
      exact mkMtx_sp (s := u) hnr hnc
    · unfold Dict.values
      rw [List.any_map, List.any_eq_true]
      rintro ⟨e, he, hz⟩
      exact h0 e he (by simpa using hz)
  · intro r c
    by_cases hr : r ∈ m.rows
    · by_cases hc : c ∈ m.cols
      · obtain ⟨i, hi⟩ := getElem?_of_mem' hr
        obtain ⟨j, hj⟩ := getElem?_of_mem' hc
        rw [entry_of (m := ⟨.sp u, m.rows, m.cols⟩) hm.rows hm.cols hi hj, entry_of hm.rows hm.cols hi hj,
          entry_of ht.rows ht.cols (hn.1 ▸ hi) (hn.2 ▸ hj), hb, hb']
        show (Dict.get? (s.data.map (fun e => (e.1, e.2 * d.elem e.1.1 e.1.2))) (i, j)).getD 0 =
          (Dict.get? s.data (i, j)).getD 0 * d.elem i j
        rw [get?_map_val s.data (fun p v => v * d.elem p.1 p.2)]
        cases Dict.get? s.data (i, j) <;> simp
      · rw [entry_col_absent (m := ⟨.sp u, m.rows, m.cols⟩) r hc, entry_col_absent r hc]; simp
    · rw [entry_row_absent (m := ⟨.sp u, m.rows, m.cols⟩) hr, entry_row_absent hr]; simp

/-- **C131** (array times sparse).  Multiplying a square array that does not look symmetric by a sparse matrix gives the *matrix*
product. -/
theorem C131_matrix_product {m t : Mtx κ ν} (hm : Valid m) (ht : Valid t) (hn : SameNames m t) {d : Dn ν} {s : Sp ν}
    (hb : m.body = .dn d) (hb' : t.body = .sp s) (hd : d.symmetric = false) (hsq : m.cols = m.rows) :
    ∃ u, multiply m t = .ok u ∧ u.rows = m.rows ∧ u.cols = m.cols ∧
      ∀ r ∈ m.rows, ∀ c ∈ m.cols, entry u r c = (m.cols.map (fun k => entry m r k * entry t k c)).sum := by
  have hnr := hm.nr
  have hnc := hm.nc
  have hnr' := ht.nr
  have hnc' := ht.nc
  rw [hb] at hnr hnc
  rw [hb'] at hnr' hnc'
  simp only [Body.nr, Body.nc] at hnr hnc hnr' hnc'
  have e1 : d.nc = s.nr := by rw [hnc, hnr', ← hn.1, hsq]
  let u : Dn ν := { nr := d.nr, nc := s.nc, elem := fun i j => ((List.range d.nc).map (fun k => d.elem i k * s.val k j)).sum }
  refine ⟨⟨.dn u, m.rows, m.cols⟩, ?_, rfl, rfl, ?_⟩
  · unfold multiply bodyMul
    rw [hb, hb']
    simp only
    rw [if_neg (by rw [hd]; simp)]
    unfold Dn.mulSp
    rw [if_pos e1]
    exact mkMtx_dn (d := u) hnr (by rw [hn.2]; exact hnc') (fun _ => hsq.symm)
  · intro r hr c hc
    obtain ⟨i, hi⟩ := getElem?_of_mem' hr
    obtain ⟨j, hj⟩ := getElem?_of_mem' hc
    rw [entry_of (m := ⟨.dn u, m.rows, m.cols⟩) hm.rows hm.cols hi hj]
    show ((List.range d.nc).map (fun k => d.elem i k * s.val k j)).sum = _
    congr 1
    rw [hnc]
    apply List.ext_getElem?
    intro k
    rw [List.getElem?_map, List.getElem?_map]
    by_cases hk : k < m.cols.length
    · rw [List.getElem?_range hk, List.getElem?_eq_getElem hk]
      simp only [Option.map_some]
      have hk1 : m.cols[k]? = some m.cols[k] := List.getElem?_eq_getElem hk
      rw [entry_of hm.rows hm.cols hi hk1, entry_of ht.rows ht.cols (i := k) (j := j) (by rw [← hn.1, ← hsq]; exact hk1) (hn.2 ▸ hj),
        hb, hb']
      rfl
    · rw [List.getElem?_eq_none (by simpa using hk), List.getElem?_eq_none (by simpa using hk)]
      rfl

/-- **C131** (refusals).  An array that looks symmetric: `NotImplementedError`; a sparse matrix that stores a zero times an array:
`AttributeError`. -/
theorem C131_refused (m t : Mtx κ ν) :
    (∀ d, m.body = .dn d → d.symmetric = true → multiply m t = .error .notImplemented) ∧
    (∀ s d, m.body = .sp s → t.body = .dn d → (∃ e ∈ s.data, e.2 = 0) → multiply m t = .error .attributeError) := by
  constructor
  · intro d hb hd
    unfold multiply bodyMul
    rw [hb]
    cases t.body <;> simp only <;> rw [if_pos hd] <;> rfl
  · rintro s d hb hb' ⟨e, he, hz⟩
    unfold multiply bodyMul
    rw [hb, hb']
    simp only
    rw [if_pos]
    · rfl
    · unfold Dict.values
      rw [List.any_map, List.any_eq_true]
      exact ⟨e, he, by simp [hz]⟩

/-- A sparse matrix with a stored zero. -/
def opZero : Mtx Nat Int :=
  ⟨.sp { fmt := .csr, nr := 2, nc := 2, data := [((0, 0), 3), ((1, 0), 0), ((1, 1), 7)] }, [1, 2], [8, 9]⟩

theorem opZero_valid : Valid opZero := by
  refine ⟨rfl, rfl, by decide, by decide, ?_⟩
  intro s h; cases h
  exact ⟨by unfold Dict.WF; decide, by decide⟩

/-- The claim is false in two ways: with a stored zero the entries are not multiplied (3 instead of 9), and names are not
looked at (the columns of the second matrix are in another order, and the entry 3 at (1, 8) is multiplied by the entry 7 at
(1, 9)). -/
theorem C131_counterexample :
    (∃ u, multiply opZero opSp = .ok u ∧ entry opZero 1 8 * entry opSp 1 8 = 9 ∧ entry u 1 8 = 3) ∧
    (∃ u, multiply opSp ⟨.sp { fmt := .csr, nr := 2, nc := 2, data := [((0, 0), 7)] }, [1, 2], [9, 8]⟩ = .ok u ∧
      entry opSp 1 8 * entry (⟨.sp { fmt := .csr, nr := 2, nc := 2, data := [((0, 0), 7)] }, [1, 2], [9, 8]⟩ : Mtx Nat Int) 1 8 = 0 ∧
      entry u 1 8 = 21) := by
  exact ⟨⟨_, rfl, by decide, by decide⟩, ⟨_, rfl, by decide, by decide⟩⟩

/-- An array times the same numbers as a sparse matrix: the matrix product (3·3 + 1·0 = 9 at (1, 1), and 3·1 + 1·7 = 10 instead
of 1·1 at (1, 2)). -/
theorem C131_product_counterexample :
    ∃ u, multiply (⟨opDn.body, [1, 2], [1, 2]⟩ : Mtx Nat Int)
        ⟨.sp { fmt := .csr, nr := 2, nc := 2, data := [((0, 0), 3), ((0, 1), 1), ((1, 1), 7)] }, [1, 2], [1, 2]⟩ = .ok u ∧
      entry u 1 2 = 10 := by
  exact ⟨_, rfl, by decide⟩

example : ∃ u, multiply opSp opZero = .ok u ∧ Valid u ∧ u.rows = opSp.rows ∧ u.cols = opSp.cols ∧
    ∀ r c, entry u r c = entry opSp r c * entry opZero r c :=
  C131_sparse_partial opSp_valid opZero_valid ⟨rfl, rfl⟩ rfl rfl (by decide)

example : ∃ u, multiply opZero opSp = .ok u ∧ Valid u ∧ u.rows = opZero.rows ∧ u.cols = opZero.cols ∧
    ∀ r c, entry u r c = if (storedEntry opSp r c).isSome then entry opZero r c else 0 :=
  C131_stored_zero opZero_valid opSp_valid ⟨rfl, rfl⟩ rfl rfl ⟨((1, 0), 0), by decide, rfl⟩

example : (∃ u, multiply opDn opDn = .ok u ∧ u.rows = opDn.rows ∧ u.cols = opDn.cols ∧
      ∀ r c, entry u r c = entry opDn r c * entry opDn r c) ∨ (multiply opDn opDn = .error .valueError ∧ opDn.rows ≠ opDn.cols) :=
  C131_dense_partial opDn_valid opDn_valid ⟨rfl, rfl⟩ rfl rfl (by decide)

example : ∃ u, multiply opSp opDn = .ok u ∧ u.rows = opSp.rows ∧ u.cols = opSp.cols ∧
    ∀ r c, entry u r c = entry opSp r c * entry opDn r c :=
  C131_mixed_partial opSp_valid opDn_valid ⟨rfl, rfl⟩ rfl rfl (by decide)

end Verif.Matrix
