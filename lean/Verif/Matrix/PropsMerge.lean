import Verif.Matrix.PropsToken

/-!
# Properties of matrices: C55 (`merge`) and C56 (`merge_matrices`)
-/

namespace Verif.Matrix
open Verif.Py
set_option linter.unusedSectionVars false

variable {κ ν : Type} [LinearOrder κ]

/-! ### Adding nested dicts -/

section dicts
variable [AddMonoid ν]

/-- Specification of adding an optional value into an optional value. -/
def plus (a b : Option ν) : Option ν := match b with
  | none => a
  | some y => some (a.getD 0 + y)

theorem plus_getD (a b : Option ν) : (plus a b).getD 0 = a.getD 0 + b.getD 0 := by
  cases b <;> simp [plus]

theorem plus_isSome (a b : Option ν) : (plus a b).isSome = (a.isSome || b.isSome) := by
  cases a <;> cases b <;> simp [plus]

theorem at2_addEntry (d : Dict κ (Dict κ ν)) (r : κ) (cv : κ × ν) (r' c' : κ) :
    at2 (addEntry r d cv) r' c' = if r = r' ∧ cv.1 = c' then some ((at2 d r cv.1).getD 0 + cv.2) else at2 d r' c' := by
  unfold addEntry
  simp only
  rw [at2_set]
  have : (Dict.get? ((Dict.get? d r).getD []) cv.1) = at2 d r cv.1 := by
    unfold at2; cases Dict.get? d r <;> rfl
  rw [this]

theorem at2_foldl_addEntry (r : κ) (row : Dict κ ν) (hrow : Dict.WF row) (d : Dict κ (Dict κ ν)) (hd : WF2 d) :
    WF2 (row.foldl (addEntry r) d) ∧
    ∀ r' c', at2 (row.foldl (addEntry r) d) r' c' = if r = r' then plus (at2 d r' c') (row.get? c') else at2 d r' c' := by
  induction row generalizing d with
  | nil => exact ⟨hd, by intro r' c'; simp [plus]⟩
  | cons cv row ih =>
    have hw : Dict.WF row ∧ cv.1 ∉ Dict.keys row := by
      unfold Dict.WF at hrow
      rw [Dict.keys_cons, List.nodup_cons] at hrow
      exact ⟨hrow.2, hrow.1⟩
    obtain ⟨h1, h2⟩ := ih hw.1 (addEntry r d cv) (WF2_set hd _ _ _)
    refine ⟨h1, ?_⟩
    intro r' c'
    rw [List.foldl_cons, h2, at2_addEntry, Dict.get?_cons]
    by_cases hr : r = r'
    · subst hr
      by_cases hc : cv.1 = c'
      · subst hc
        have : Dict.get? row cv.1 = none := (Dict.get?_eq_none_iff _ _).2 hw.2
        simp [this, plus]
      · simp [hc]
    · simp [hr]

theorem at2_addRow (d : Dict κ (Dict κ ν)) (hd : WF2 d) (rv : κ × Dict κ ν) (hrow : Dict.WF rv.2) :
    WF2 (addRow d rv) ∧
    ∀ r' c', at2 (addRow d rv) r' c' = if rv.1 = r' then plus (at2 d r' c') (rv.2.get? c') else at2 d r' c' := by
  have h0 : WF2 (if d.contains rv.1 then d else d.set rv.1 []) ∧
      ∀ r' c', at2 (if d.contains rv.1 then d else d.set rv.1 []) r' c' = at2 d r' c' := by
    by_cases h : d.contains rv.1 = true
    · rw [if_pos h]; exact ⟨hd, fun _ _ => rfl⟩
    · rw [if_neg h]
      have hn : Dict.get? d rv.1 = none := by
        rw [Dict.get?_eq_none_iff, ← Dict.contains_iff]; exact h
      refine ⟨⟨Dict.WF_set hd.outer _ _, ?_⟩, ?_⟩
      · rintro ⟨k, row⟩ hp
        have hk := Dict.get?_of_mem (Dict.WF_set hd.outer _ _) hp
        rw [Dict.get?_set] at hk
        split at hk
        · cases hk; exact Dict.WF_nil
        · exact hd.inner _ (Dict.mem_of_get? hk)
      · intro r' c'
        unfold at2
        rw [Dict.get?_set]
        split
        · next heq => subst heq; rw [hn]; rfl
        · rfl
  obtain ⟨h1, h2⟩ := at2_foldl_addEntry rv.1 rv.2 hrow _ h0.1
  exact ⟨h1, fun r' c' => by unfold addRow; rw [h2, h0.2]⟩

theorem at2_mergeDict (a b : Dict κ (Dict κ ν)) (ha : WF2 a) (hb : WF2 b) :
    WF2 (mergeDict a b) ∧ ∀ r c, at2 (mergeDict a b) r c = plus (at2 a r c) (at2 b r c) := by
  unfold mergeDict
  induction b generalizing a with
  | nil => exact ⟨ha, by intro r c; simp [at2, plus]⟩
  | cons rv b ih =>
    have hout := hb.outer
    unfold Dict.WF at hout
    rw [Dict.keys_cons, List.nodup_cons] at hout
    obtain ⟨h1, h2⟩ := at2_addRow a ha rv (hb.inner rv (by simp))
    obtain ⟨h3, h4⟩ := ih (addRow a rv) h1 ⟨hout.2, fun p hp => hb.inner p (by simp [hp])⟩
    refine ⟨h3, ?_⟩
    intro r c
    rw [List.foldl_cons, h4, h2]
    have hcons : at2 (rv :: b) r c = if rv.1 = r then rv.2.get? c else at2 b r c := by
      unfold at2
      rw [Dict.get?_cons]
      split <;> simp
    rw [hcons]
    by_cases h : rv.1 = r
    · subst h
      have : at2 b rv.1 c = none := by
        unfold at2; rw [(Dict.get?_eq_none_iff _ _).2 hout.1]; rfl
      simp [this, plus]
    · simp [h]

end dicts

/-! ### C55 -/

theorem mtxToDict_spec {m : Mtx κ ν} (hm : Valid m) {s : Sp ν} (hb : m.body = .sp s) :
    ∃ d, mtxToDict m = .ok d ∧ spToDict s m.rows m.cols = .ok d ∧ WF2 d ∧ (∀ r c, at2 d r c = storedEntry m r c) := by
  have hnr := hm.nr
  have hnc := hm.nc
  rw [hb] at hnr hnc
  obtain ⟨d, h1, h2, h3, h4⟩ := spToDict_spec (hm.sp s hb) hm.rows hm.cols hnr hnc
  refine ⟨d, ?_, h1, h2, ?_⟩
  · unfold mtxToDict spOf
    rw [hb]
    exact h1
  · intro r c
    by_cases hrc : r ∈ m.rows ∧ c ∈ m.cols
    · obtain ⟨i, hi⟩ := getElem?_of_mem' hrc.1
      obtain ⟨j, hj⟩ := getElem?_of_mem' hrc.2
      rw [h3 i j r c hi hj, storedEntry_of hm.rows hm.cols hb hi hj]
    · have e1 : at2 d r c = none := by
        cases hv : at2 d r c with
        | none => rfl
        | some v => exact absurd (h4 r c v hv) hrc
      rw [e1]
      unfold storedEntry
      rw [hb]
      rw [not_and_or] at hrc
      rcases hrc with h | h
      · rw [idxOf?_none h]
      · rw [idxOf?_none h]; cases List.idxOf? r m.rows <;> rfl

theorem storedEntry_names {m : Mtx κ ν} {r c : κ} {v : ν} (h : storedEntry m r c = some v) : r ∈ m.rows ∧ c ∈ m.cols := by
  unfold storedEntry at h
  constructor
  · by_contra hn
    rw [idxOf?_none hn] at h
    split at h <;> simp_all
  · by_contra hn
    rw [idxOf?_none hn] at h
    split at h <;> simp_all

/-- Building the matrix of a nested dict of integers, read by name. -/
theorem dictToSp_entry {d : Dict κ (Dict κ Int)} (hd : WF2 d) {rows cols : List κ} (hr : rows.Nodup) (hc : cols.Nodup)
    (hcov : ∀ r c v, at2 d r c = some v → r ∈ rows ∧ c ∈ cols) (hne : ∃ r c v, at2 d r c = some v) :
    ∃ s, dictToSp d rows cols = .ok s ∧ Valid (⟨.sp s, rows, cols⟩ : Mtx κ Int) ∧ s.fmt = .csr ∧
      ∀ r c, entry (⟨.sp s, rows, cols⟩ : Mtx κ Int) r c = (at2 d r c).getD 0 := by
  obtain ⟨s, h1, h2, h3, h4, h5, h6⟩ := dictToSp_spec hd (uniform_int d) hr hc hcov hne
  refine ⟨s, h1, ⟨h3, h4, hr, hc, by intro t ht; cases ht; exact h5⟩, h2, ?_⟩
  intro r c
  by_cases hrm : r ∈ rows
  · by_cases hcm : c ∈ cols
    · obtain ⟨i, hi⟩ := getElem?_of_mem' hrm
      obtain ⟨j, hj⟩ := getElem?_of_mem' hcm
      rw [entry_of (m := ⟨.sp s, rows, cols⟩) hr hc hi hj]
      simp only [Body.val, Sp.val, h6 i j r c hi hj]
    · rw [entry_col_absent (m := ⟨.sp s, rows, cols⟩) r hcm]
      cases hv : at2 d r c with
      | none => rfl
      | some v => exact absurd (hcov r c v hv).2 hcm
  · rw [entry_row_absent (m := ⟨.sp s, rows, cols⟩) hrm]
    cases hv : at2 d r c with
    | none => rfl
    | some v => exact absurd (hcov r c v hv).1 hrm

/-- **C55** for sparse integer matrices of any format, at least one of which stores an entry: `m.merge(t)` has the sorted
union of the rows and of the columns, and every named entry is the sum of the operands' entries. -/
theorem C55_merge_partial {m t : Mtx κ Int} (hm : Valid m) (ht : Valid t) {a b : Sp Int} (ha : m.body = .sp a)
    (hb : t.body = .sp b) (hne : a.data ≠ [] ∨ b.data ≠ []) :
    ∃ u, mergeByName m t = .ok u ∧ Valid u ∧ IsCsr u ∧ u.rows = sortedUnion m.rows t.rows ∧
      u.cols = sortedUnion m.cols t.cols ∧ ∀ r c, entry u r c = entry m r c + entry t r c := by
  obtain ⟨d1, _, e1, w1, v1⟩ := mtxToDict_spec hm ha
  obtain ⟨d2, _, e2, w2, v2⟩ := mtxToDict_spec ht hb
  obtain ⟨w, hv⟩ := at2_mergeDict d1 d2 w1 w2
  have hstored : ∀ {m : Mtx κ Int}, Valid m → ∀ {s : Sp Int}, m.body = .sp s → s.data ≠ [] →
      ∃ r c v, storedEntry m r c = some v := by
    intro m hm s hs hne
    cases hd : s.data with
    | nil => exact absurd hd hne
    | cons e rest =>
      have hnr := hm.nr
      have hnc := hm.nc
      rw [hs] at hnr hnc
      simp only [Body.nr, Body.nc] at hnr hnc
      have hbd := (hm.sp s hs).bound e.1 (by rw [hd]; simp)
      have i1 : m.rows[e.1.1]? = some m.rows[e.1.1] := List.getElem?_eq_getElem (by omega)
      have i2 : m.cols[e.1.2]? = some m.cols[e.1.2] := List.getElem?_eq_getElem (by omega)
      exact ⟨_, _, e.2, by
        rw [storedEntry_of hm.rows hm.cols hs i1 i2]
        exact Dict.get?_of_mem (hm.sp s hs).nodup (by rw [hd]; simp)⟩
  obtain ⟨s, k1, k2, k3, k4⟩ := dictToSp_entry (rows := sortedUnion m.rows t.rows) (cols := sortedUnion m.cols t.cols) w
    (sortedUnion_nodup _ _) (sortedUnion_nodup _ _) (by
      intro r c v h
      rw [hv, v1, v2] at h
      rw [sortedUnion_mem, sortedUnion_mem]
      have : (plus (storedEntry m r c) (storedEntry t r c)).isSome = true := by rw [h]; rfl
      rw [plus_isSome, Bool.or_eq_true] at this
      rcases this with h' | h' <;> obtain ⟨x, hx⟩ := Option.isSome_iff_exists.1 h'
      · exact ⟨Or.inl (storedEntry_names hx).1, Or.inl (storedEntry_names hx).2⟩
      · exact ⟨Or.inr (storedEntry_names hx).1, Or.inr (storedEntry_names hx).2⟩) (by
      have : ∃ r c, (plus (storedEntry m r c) (storedEntry t r c)).isSome = true := by
        rcases hne with h | h
        · obtain ⟨r, c, v, h⟩ := hstored hm ha h
          exact ⟨r, c, by rw [plus_isSome, h]; rfl⟩
        · obtain ⟨r, c, v, h⟩ := hstored ht hb h
          exact ⟨r, c, by rw [plus_isSome, h]; simp⟩
      obtain ⟨r, c, h⟩ := this
      obtain ⟨x, hx⟩ := Option.isSome_iff_exists.1 h
      exact ⟨r, c, x, by rw [hv, v1, v2]; exact hx⟩)
  refine ⟨⟨.sp s, sortedUnion m.rows t.rows, sortedUnion m.cols t.cols⟩, ?_, k2, ⟨s, rfl, k3⟩, rfl, rfl, ?_⟩
  · unfold mergeByName
    rw [ha, hb]
    simp only [e1, e2, k1, bind, Except.bind]
    exact mkMtx_sp k2.nr k2.nc
  · intro r c
    rw [k4, hv, plus_getD, v1, v2, ← entry_eq_stored ha, ← entry_eq_stored hb]

/-- **C55** is false when neither operand stores an entry: `ValueError`. -/
theorem C55_false_empty : ∃ m t : Mtx Nat Int, Valid m ∧ Valid t ∧ IsCsr m ∧ IsCsr t ∧
    mergeByName m t = .error .valueError := by
  refine ⟨⟨.sp ⟨.csr, 1, 1, []⟩, [1], [5]⟩, ⟨.sp ⟨.csr, 1, 1, []⟩, [1], [6]⟩, ⟨rfl, rfl, by decide, by decide, ?_⟩,
    ⟨rfl, rfl, by decide, by decide, ?_⟩, ⟨_, rfl, rfl⟩, ⟨_, rfl, rfl⟩, by rfl⟩
  all_goals intro s hs; cases hs; exact ⟨by decide, by decide⟩

example : ∃ (m t u : Mtx Nat Int), Valid m ∧ Valid t ∧ IsCsr m ∧ mergeByName m t = .ok u ∧ entry u 1 5 = 6 ∧ u.rows = [1, 2] := by
  refine ⟨⟨.sp ⟨.csr, 2, 1, [((1, 0), 2), ((0, 0), 9)]⟩, [2, 1], [5]⟩, ⟨.sp ⟨.csc, 1, 2, [((0, 1), 4)]⟩, [1], [6, 5]⟩,
    ⟨.sp ⟨.csr, 2, 2, [((0, 0), 6), ((1, 0), 9)]⟩, [1, 2], [5, 6]⟩, ⟨rfl, rfl, by decide, by decide, ?_⟩,
    ⟨rfl, rfl, by decide, by decide, ?_⟩, ⟨_, rfl, rfl⟩, by rfl, by decide, rfl⟩
  all_goals intro s hs; cases hs; exact ⟨by decide, by decide⟩

/-! ### C56 -/

/-- Sum of the entries of a list of matrices at a name pair. -/
def entrySum (ms : List (Mtx κ Int)) (r c : κ) : Int := (ms.map (fun m => entry m r c)).sum

/-- All matrices of a list hold sparse arrays. -/
def AllSparse (ms : List (Mtx κ ν)) : Prop := ∀ m ∈ ms, ∃ s, m.body = .sp s

/-- Adding up matrices with the same items. -/
theorem foldlM_addMtx {rows cols : List κ} (ts : List (Mtx κ Int)) (hv : ∀ t ∈ ts, Valid t) (hs : AllSparse ts)
    (hi : ∀ t ∈ ts, t.rows = rows ∧ t.cols = cols) {a : Sp Int} (ha : Valid (⟨.sp a, rows, cols⟩ : Mtx κ Int)) :
    ∃ u, ts.foldlM addMtx a = .ok u ∧ Valid (⟨.sp u, rows, cols⟩ : Mtx κ Int) ∧
      ∀ r c, entry (⟨.sp u, rows, cols⟩ : Mtx κ Int) r c = entry (⟨.sp a, rows, cols⟩ : Mtx κ Int) r c + entrySum ts r c := by
  induction ts generalizing a with
  | nil => exact ⟨a, rfl, ha, by intro r c; simp [entrySum]⟩
  | cons t ts ih =>
    obtain ⟨b, hb⟩ := hs t (by simp)
    obtain ⟨i1, i2⟩ := hi t (by simp)
    have ht := hv t (by simp)
    have hnr := ht.nr
    have hnc := ht.nc
    rw [hb, i1] at hnr
    rw [hb, i2] at hnc
    obtain ⟨u, h1, h2, h3, _, _, h5⟩ := add_ok (s := a) (t := b) (ha.nr.trans hnr.symm) (ha.nc.trans hnc.symm)
    have hu : Valid (⟨.sp u, rows, cols⟩ : Mtx κ Int) :=
      ⟨h2.trans ha.nr, h3.trans ha.nc, ha.rows, ha.cols, by
        intro s hs; cases hs; exact add_WF (ha.sp a rfl) (ht.sp b hb) h1⟩
    obtain ⟨w, k1, k2, k3⟩ := ih (fun x hx => hv x (by simp [hx])) (fun x hx => hs x (by simp [hx]))
      (fun x hx => hi x (by simp [hx])) hu
    refine ⟨w, ?_, k2, ?_⟩
    · rw [List.foldlM_cons]
      have : addMtx a t = .ok u := by unfold addMtx spOf; rw [hb]; exact h1
      rw [this]
      exact k1
    · intro r c
      rw [k3]
      have e : entry (⟨.sp u, rows, cols⟩ : Mtx κ Int) r c = entry (⟨.sp a, rows, cols⟩ : Mtx κ Int) r c + entry t r c := by
        by_cases hr : r ∈ rows
        · by_cases hc : c ∈ cols
          · obtain ⟨i, hi'⟩ := getElem?_of_mem' hr
            obtain ⟨j, hj'⟩ := getElem?_of_mem' hc
            rw [entry_of (m := ⟨.sp u, rows, cols⟩) ha.rows ha.cols hi' hj', entry_of ha.rows ha.cols hi' hj',
              entry_of ht.rows ht.cols (i1.symm ▸ hi') (i2.symm ▸ hj'), hb]
            exact val_of_stored (h5 i j)
          · rw [entry_col_absent (m := ⟨.sp u, rows, cols⟩) r hc, entry_col_absent (m := ⟨.sp a, rows, cols⟩) r hc,
              entry_col_absent r (i2.symm ▸ hc)]; rfl
        · rw [entry_row_absent (m := ⟨.sp u, rows, cols⟩) hr, entry_row_absent (m := ⟨.sp a, rows, cols⟩) hr,
            entry_row_absent (i1.symm ▸ hr)]; rfl
      rw [e]
      simp [entrySum, add_assoc]

theorem foldl_mergeDict (ds : List (Dict κ (Dict κ Int))) (hd : ∀ d ∈ ds, WF2 d) (a : Dict κ (Dict κ Int)) (ha : WF2 a) :
    WF2 (ds.foldl mergeDict a) ∧
    ∀ r c, (at2 (ds.foldl mergeDict a) r c).getD 0 = (at2 a r c).getD 0 + (ds.map (fun d => (at2 d r c).getD 0)).sum ∧
      ((at2 (ds.foldl mergeDict a) r c).isSome = true ↔ (at2 a r c).isSome = true ∨ ∃ d ∈ ds, (at2 d r c).isSome = true) := by
  induction ds generalizing a with
  | nil => exact ⟨ha, by intro r c; simp⟩
  | cons d ds ih =>
    obtain ⟨h1, h2⟩ := at2_mergeDict a d ha (hd d (by simp))
    obtain ⟨h3, h4⟩ := ih (fun x hx => hd x (by simp [hx])) (mergeDict a d) h1
    refine ⟨h3, ?_⟩
    intro r c
    obtain ⟨h5, h6⟩ := h4 r c
    rw [List.foldl_cons]
    constructor
    · rw [h5, h2, plus_getD]; simp [add_assoc]
    · rw [h6, h2, plus_isSome, Bool.or_eq_true]; simp [or_assoc]

theorem mapM_mtxToDict (ms : List (Mtx κ Int)) (hv : ∀ m ∈ ms, Valid m) (hs : AllSparse ms) :
    ∃ ds, ms.mapM mtxToDict = .ok ds ∧ (∀ d ∈ ds, WF2 d) ∧
      (∀ r c, (ds.map (fun d => (at2 d r c).getD 0)).sum = entrySum ms r c) ∧
      ∀ r c, (∃ d ∈ ds, (at2 d r c).isSome = true) ↔ ∃ m ∈ ms, (storedEntry m r c).isSome = true := by
  induction ms with
  | nil => exact ⟨[], rfl, by simp, by simp [entrySum], by simp⟩
  | cons m ms ih =>
    obtain ⟨ds, h1, h2, h3, h4⟩ := ih (fun x hx => hv x (by simp [hx])) (fun x hx => hs x (by simp [hx]))
    obtain ⟨s, hb⟩ := hs m (by simp)
    obtain ⟨d, e1, _, e2, e3⟩ := mtxToDict_spec (hv m (by simp)) hb
    refine ⟨d :: ds, ?_, ?_, ?_, ?_⟩
    · rw [List.mapM_cons, e1, h1]; rfl
    · intro x hx
      rcases List.mem_cons.1 hx with rfl | hx
      · exact e2
      · exact h2 x hx
    · intro r c
      have := h3 r c
      unfold entrySum at this ⊢
      simp only [List.map_cons, List.sum_cons, this, e3, entry_eq_stored hb]
    · intro r c
      simp only [List.mem_cons, exists_eq_or_imp, e3, h4]

/-- **C56**.  Merging a non-empty list of sparse integer matrices, one of which stores an entry: the rows and columns of
the result are those of any of the matrices, without repetition, in sorted order unless all item lists agree; every
named entry is the sum of the entries of all matrices. -/
theorem C56_merge_all_partial {ms : List (Mtx κ Int)} (hne : ms ≠ []) (hv : ∀ m ∈ ms, Valid m) (hs : AllSparse ms)
    (hst : ∃ m ∈ ms, ∃ r c v, storedEntry m r c = some v) :
    ∃ u rows cols, mergeAll ms = .ok (some (u, rows, cols)) ∧ Valid (⟨.sp u, rows, cols⟩ : Mtx κ Int) ∧
      (∀ r, r ∈ rows ↔ ∃ m ∈ ms, r ∈ m.rows) ∧ (∀ c, c ∈ cols ↔ ∃ m ∈ ms, c ∈ m.cols) ∧
      ((∀ m ∈ ms, m.rows = rows ∧ m.cols = cols) ∨ (rows.Pairwise (· ≤ ·) ∧ cols.Pairwise (· ≤ ·))) ∧
      ∀ r c, entry (⟨.sp u, rows, cols⟩ : Mtx κ Int) r c = (ms.map (fun m => entry m r c)).sum := by
  match ms, hne with
  | [m], _ =>
    obtain ⟨s, hb⟩ := hs m (by simp)
    have hm := hv m (by simp)
    have e : m = ⟨.sp s, m.rows, m.cols⟩ := by obtain ⟨b, r, c⟩ := m; simp only at hb; rw [hb]
    refine ⟨s, m.rows, m.cols, ?_, e ▸ hm, by simp, by simp, Or.inl (by simp), ?_⟩
    · have : spOf m = .ok s := by unfold spOf; rw [hb]
      unfold mergeAll
      simp only [this]
      rfl
    · intro r c
      rw [← e]; simp
  | m :: t :: ts, _ =>
    by_cases hall : (t :: ts).all (fun x => decide (x.rows = m.rows) && decide (x.cols = m.cols)) = true
    · have hi : ∀ x ∈ t :: ts, x.rows = m.rows ∧ x.cols = m.cols := by
        intro x hx
        have := List.all_eq_true.1 hall x hx
        simpa using this
      obtain ⟨s, hb⟩ := hs m (by simp)
      have hm := hv m (by simp)
      have e : m = ⟨.sp s, m.rows, m.cols⟩ := by obtain ⟨b, r, c⟩ := m; simp only at hb; rw [hb]
      obtain ⟨u, h1, h2, h3⟩ := foldlM_addMtx (t :: ts) (fun x hx => hv x (List.mem_cons_of_mem _ hx))
        (fun x hx => hs x (List.mem_cons_of_mem _ hx)) hi (e ▸ hm : Valid (⟨.sp s, m.rows, m.cols⟩ : Mtx κ Int))
      refine ⟨u, m.rows, m.cols, ?_, h2, ?_, ?_, Or.inl ?_, ?_⟩
      · unfold mergeAll
        simp only
        rw [if_pos hall]
        unfold spOf
        rw [hb]
        simp only [bind, Except.bind]
        rw [h1]
      · intro r
        constructor
        · intro h; exact ⟨m, by simp, h⟩
        · rintro ⟨x, hx, h⟩
          rcases List.mem_cons.1 hx with rfl | hx
          · exact h
          · rw [← (hi x hx).1]; exact h
      · intro r
        constructor
        · intro h; exact ⟨m, by simp, h⟩
        · rintro ⟨x, hx, h⟩
          rcases List.mem_cons.1 hx with rfl | hx
          · exact h
          · rw [← (hi x hx).2]; exact h
      · intro x hx
        rcases List.mem_cons.1 hx with rfl | hx
        · exact ⟨rfl, rfl⟩
        · exact hi x hx
      · intro r c
        rw [h3, ← e]
        rfl
    · obtain ⟨ds, h1, h2, h3, h4⟩ := mapM_mtxToDict (m :: t :: ts) hv hs
      obtain ⟨h5, h6⟩ := foldl_mergeDict ds h2 [] ⟨Dict.WF_nil, by simp⟩
      have hrm : ∀ (f : Mtx κ Int → List κ) r, r ∈ sortedBy id ((m :: t :: ts).flatMap f).dedup ↔
          ∃ x ∈ m :: t :: ts, r ∈ f x := by
        intro f r
        rw [(sortedBy_perm id _).mem_iff, List.mem_dedup, List.mem_flatMap]
      have hnd : ∀ (f : Mtx κ Int → List κ), (sortedBy id ((m :: t :: ts).flatMap f).dedup).Nodup :=
        fun f => (sortedBy_perm id _).nodup_iff.2 (List.nodup_dedup _)
      have hsome : ∀ r c, (at2 (ds.foldl mergeDict []) r c).isSome = true ↔
          ∃ x ∈ m :: t :: ts, (storedEntry x r c).isSome = true := by
        intro r c
        rw [(h6 r c).2, ← h4]
        simp [at2]
      obtain ⟨s, k1, k2, k3, k4⟩ := dictToSp_entry (rows := sortedBy id ((m :: t :: ts).flatMap (fun t => t.rows)).dedup)
        (cols := sortedBy id ((m :: t :: ts).flatMap (fun t => t.cols)).dedup) h5 (hnd _) (hnd _) (by
          intro r c v h
          obtain ⟨x, hx, hxs⟩ := (hsome r c).1 (by rw [h]; rfl)
          obtain ⟨y, hy⟩ := Option.isSome_iff_exists.1 hxs
          rw [hrm, hrm]
          exact ⟨⟨x, hx, (storedEntry_names hy).1⟩, ⟨x, hx, (storedEntry_names hy).2⟩⟩) (by
          obtain ⟨x, hx, r, c, v, h⟩ := hst
          obtain ⟨y, hy⟩ := Option.isSome_iff_exists.1 ((hsome r c).2 ⟨x, hx, by rw [h]; rfl⟩)
          exact ⟨r, c, y, hy⟩)
      refine ⟨s, _, _, ?_, k2, hrm _, hrm _, Or.inr ⟨sortedBy_pairwise id _, sortedBy_pairwise id _⟩, ?_⟩
      · unfold mergeAll
        simp only
        rw [if_neg hall, h1]
        simp only [bind, Except.bind]
        rw [k1]
      · intro r c
        rw [k4, (h6 r c).1, h3]
        simp [at2, entrySum]

/-- **C56** is false when the item lists differ and no matrix stores an entry: `ValueError`. -/
theorem C56_false_empty : ∃ m t : Mtx Nat Int, Valid m ∧ Valid t ∧ IsCsr m ∧ IsCsr t ∧
    mergeAll [m, t] = .error .valueError := by
  refine ⟨⟨.sp ⟨.csr, 1, 1, []⟩, [1], [5]⟩, ⟨.sp ⟨.csr, 1, 1, []⟩, [1], [6]⟩, ⟨rfl, rfl, by decide, by decide, ?_⟩,
    ⟨rfl, rfl, by decide, by decide, ?_⟩, ⟨_, rfl, rfl⟩, ⟨_, rfl, rfl⟩, by rfl⟩
  all_goals intro s hs; cases hs; exact ⟨by decide, by decide⟩

example : ∃ (m t : Mtx Nat Int), Valid m ∧ Valid t ∧ AllSparse [m, t] ∧
    (∃ x ∈ [m, t], ∃ r c v, storedEntry x r c = some v) ∧
    mergeAll [m, t] = .ok (some (⟨.csr, 2, 2, [((0, 0), 6), ((1, 0), 9)]⟩, [1, 2], [5, 6])) := by
  refine ⟨⟨.sp ⟨.csr, 2, 1, [((1, 0), 2), ((0, 0), 9)]⟩, [2, 1], [5]⟩, ⟨.sp ⟨.csc, 1, 2, [((0, 1), 4)]⟩, [1], [6, 5]⟩,
    ⟨rfl, rfl, by decide, by decide, ?_⟩, ⟨rfl, rfl, by decide, by decide, ?_⟩, ?_, ⟨_, List.mem_cons_self, 1, 5, 2, by decide⟩, by rfl⟩
  iterate 2 (intro s hs; cases hs; exact ⟨by decide, by decide⟩)
  intro x hx
  simp only [List.mem_cons, List.not_mem_nil, or_false] at hx
  rcases hx with rfl | rfl <;> exact ⟨_, rfl⟩

end Verif.Matrix
