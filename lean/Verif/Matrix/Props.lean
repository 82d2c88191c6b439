import Verif.Matrix.Named

/-!
# Properties of matrices: C21-C24

`entry m r c` (file `Named.lean`) is the value at a row name and a column name, `storedEntry` the stored entry;
`at2 d r c` is `d[r][c]` of a nested dict.  These are the specification vocabulary.
-/

namespace Verif.Matrix
open Verif.Py
set_option linter.unusedSectionVars false

variable {κ ν : Type} [LinearOrder κ]

instance {κ ν : Type} [DecidableEq κ] (d : Dict κ ν) : Decidable (Dict.WF d) :=
  inferInstanceAs (Decidable (Dict.keys d).Nodup)

/-! ### C21: dict of dicts and sparse matrix -/

/-- **C21** (first half).  For a nested dict whose values have one type that NumPy leaves alone, duplicate-free item
lists in any order that cover it, and at least one value: the sparse matrix has the shape of the lists and at the
position of (row item, column item) it stores exactly the dict's value, nothing where the dict has no value. -/
theorem C21_dict_to_matrix_partial [NPVal ν] {d : Dict κ (Dict κ ν)} (hd : WF2 d) (hu : Uniform d) {rows cols : List κ}
    (hr : rows.Nodup) (hc : cols.Nodup)
    (hcov : ∀ r c v, at2 d r c = some v → r ∈ rows ∧ c ∈ cols) (hne : ∃ r c v, at2 d r c = some v) :
    ∃ s, dictToSp d rows cols = .ok s ∧ s.nr = rows.length ∧ s.nc = cols.length ∧
      ∀ i j r c, rows[i]? = some r → cols[j]? = some c → s.stored i j = at2 d r c := by
  obtain ⟨s, h1, _, h2, h3, _, h4⟩ := dictToSp_spec hd hu hr hc hcov hne
  exact ⟨s, h1, h2, h3, h4⟩

/-- **C21** (round trip).  Turning the sparse matrix back gives a nested dict with the same value at every pair of
names (an empty inner dict leaves no trace). -/
theorem C21_round_trip_partial [NPVal ν] {d : Dict κ (Dict κ ν)} (hd : WF2 d) (hu : Uniform d) {rows cols : List κ}
    (hr : rows.Nodup) (hc : cols.Nodup)
    (hcov : ∀ r c v, at2 d r c = some v → r ∈ rows ∧ c ∈ cols) (hne : ∃ r c v, at2 d r c = some v) :
    ∃ s d', dictToSp d rows cols = .ok s ∧ spToDict s rows cols = .ok d' ∧ ∀ r c, at2 d' r c = at2 d r c := by
  obtain ⟨s, h1, _, h2, h3, hw, h4⟩ := dictToSp_spec hd hu hr hc hcov hne
  obtain ⟨d', h5, _, h6, h7⟩ := spToDict_spec hw hr hc h2 h3
  refine ⟨s, d', h1, h5, ?_⟩
  intro r c
  by_cases hrc : r ∈ rows ∧ c ∈ cols
  · obtain ⟨i, hi⟩ := getElem?_of_mem' hrc.1
    obtain ⟨j, hj⟩ := getElem?_of_mem' hrc.2
    rw [h6 i j r c hi hj, h4 i j r c hi hj]
  · have e1 : at2 d r c = none := by
      cases hv : at2 d r c with
      | none => rfl
      | some v => exact absurd (hcov r c v hv) hrc
    have e2 : at2 d' r c = none := by
      cases hv : at2 d' r c with
      | none => rfl
      | some v => exact absurd (h7 r c v hv) hrc
    rw [e1, e2]

/-- **C21** (other direction).  A sparse matrix with at least one stored entry, all of one type that NumPy leaves
alone, turned into a nested dict and back, stores the same entries (stored zeros included). -/
theorem C21_matrix_round_trip_partial [NPVal ν] {s : Sp ν} (hs : s.WF) {rows cols : List κ} (hr : rows.Nodup)
    (hc : cols.Nodup) (hnr : s.nr = rows.length) (hnc : s.nc = cols.length)
    (hne : s.data ≠ [])
    (hu : ∀ i j v, s.stored i j = some v → (∀ n, NPVal.idx v n = n) ∧
      ∀ i' j' w, s.stored i' j' = some w → NPVal.cast v w = w) :
    ∃ d s', spToDict s rows cols = .ok d ∧ dictToSp d rows cols = .ok s' ∧ s'.nr = s.nr ∧ s'.nc = s.nc ∧
      ∀ i j, s'.stored i j = s.stored i j := by
  obtain ⟨d, h1, h2, h3, h4⟩ := spToDict_spec hs hr hc hnr hnc
  have hat : ∀ r c v, at2 d r c = some v → ∃ i j, rows[i]? = some r ∧ cols[j]? = some c ∧ s.stored i j = some v := by
    intro r c v hv
    obtain ⟨m1, m2⟩ := h4 r c v hv
    obtain ⟨i, hi⟩ := getElem?_of_mem' m1
    obtain ⟨j, hj⟩ := getElem?_of_mem' m2
    exact ⟨i, j, hi, hj, by rw [← h3 i j r c hi hj, hv]⟩
  have hu' : Uniform d := by
    intro r c v hv
    obtain ⟨i, j, hi, hj, hst⟩ := hat r c v hv
    obtain ⟨u1, u2⟩ := hu i j v hst
    refine ⟨u1, ?_⟩
    intro r' c' w hw
    obtain ⟨i', j', _, _, hst'⟩ := hat r' c' w hw
    exact u2 i' j' w hst'
  have hne' : ∃ r c v, at2 d r c = some v := by
    cases hd : s.data with
    | nil => exact absurd hd hne
    | cons e rest =>
      have hm : e.1 ∈ Dict.keys s.data := by rw [hd]; simp
      have hb := hs.bound _ hm
      have e1 : rows[e.1.1]? = some rows[e.1.1] := List.getElem?_eq_getElem (by omega)
      have e2 : cols[e.1.2]? = some cols[e.1.2] := List.getElem?_eq_getElem (by omega)
      refine ⟨rows[e.1.1], cols[e.1.2], e.2, ?_⟩
      rw [h3 _ _ _ _ e1 e2]
      exact Dict.get?_of_mem hs.nodup (by rw [hd]; simp)
  obtain ⟨s', k1, _, k2, k3, kw, k4⟩ := dictToSp_spec h2 hu' hr hc h4 hne'
  refine ⟨d, s', h1, k1, k2.trans hnr.symm, k3.trans hnc.symm, ?_⟩
  intro i j
  by_cases hi : i < rows.length
  · by_cases hj : j < cols.length
    · have e1 : rows[i]? = some rows[i] := List.getElem?_eq_getElem hi
      have e2 : cols[j]? = some cols[j] := List.getElem?_eq_getElem hj
      rw [k4 i j _ _ e1 e2, h3 i j _ _ e1 e2]
    · rw [stored_none_of_col kw i (by omega), stored_none_of_col hs i (by omega)]
  · rw [stored_none_of_row kw (by omega) j, stored_none_of_row hs (by omega) j]

/-- Values that are all Python integers are unchanged. -/
theorem uniform_int (d : Dict κ (Dict κ Int)) : Uniform d := fun _ _ _ _ => ⟨fun _ => rfl, fun _ _ _ _ => rfl⟩

/-- Tagged numbers that are all integers are unchanged. -/
theorem uniform_pyInt (d : Dict κ (Dict κ PyNum)) (h : ∀ r c v, at2 d r c = some v → ∃ z, v = .i z) : Uniform d := by
  intro r c v hv
  obtain ⟨z, rfl⟩ := h r c v hv
  refine ⟨fun _ => rfl, ?_⟩
  intro r' c' w hw
  obtain ⟨z', rfl⟩ := h r' c' w hw
  simp [NPVal.cast, PyNum.toRat, truncRat]

/-- Tagged numbers that are all floats are unchanged. -/
theorem uniform_pyFloat (d : Dict κ (Dict κ PyNum)) (h : ∀ r c v, at2 d r c = some v → ∃ q, v = .f q) : Uniform d := by
  intro r c v hv
  obtain ⟨q, rfl⟩ := h r c v hv
  refine ⟨fun _ => rfl, ?_⟩
  intro r' c' w hw
  obtain ⟨q', rfl⟩ := h r' c' w hw
  rfl

/-- **C21** is false for values of mixed types: the type of the first value (in sorted order) is used for all, so
`{'a': {'x': 1, 'y': 5/2}}` comes back with 2 instead of 5/2. -/
theorem C21_false_mixed : ∃ (d : Dict Nat (Dict Nat PyNum)) (s : Sp PyNum),
    WF2 d ∧ dictToSp d [0] [0, 1] = .ok s ∧ at2 d 0 1 = some (.f (5 / 2)) ∧ s.stored 0 1 = some (.i 2) :=
  ⟨[(0, [(0, .i 1), (1, .f (5 / 2))])],
   ⟨.csr, 1, 2, [((0, 0), .i 1), ((0, 1), .i 2)]⟩,
   ⟨by decide, by decide⟩, by decide +kernel, by decide +kernel, by decide +kernel⟩

/-- **C21** is false for boolean values: the index lists are cast to `bool` too, so the entry of the third row ends
up in the second. -/
theorem C21_false_bool : ∃ (d : Dict Nat (Dict Nat PyNum)) (s : Sp PyNum),
    WF2 d ∧ dictToSp d [0, 1, 2] [0] = .ok s ∧ at2 d 2 0 = some (.b true) ∧ s.stored 2 0 = none ∧
      at2 d 1 0 = none ∧ s.stored 1 0 = some (.b true) :=
  ⟨[(2, [(0, .b true)])], ⟨.csr, 3, 1, [((1, 0), .b true)]⟩, ⟨by decide, by decide⟩, by decide +kernel,
   by decide +kernel, by decide +kernel, by decide +kernel, by decide +kernel⟩

/-- **C21** (errors).  A value under an unknown item is a `KeyError`; a dict without any value is a `ValueError`. -/
theorem C21_unknown_item [NPVal ν] {d : Dict κ (Dict κ ν)} (hd : WF2 d) {rows cols : List κ}
    {r c : κ} {v : ν} (hv : at2 d r c = some v) (hn : r ∉ rows ∨ c ∉ cols) :
    dictToSp d rows cols = .error .keyError := by
  have hm := (mem_dictEntries hd r c v).2 hv
  have hbad : locate (idOf rows) (idOf cols) (r, c, v) = .error .keyError := by
    unfold locate
    rcases hn with h | h
    · simp [(get?_idOf_none rows r).2 h]
    · simp only [(get?_idOf_none cols c).2 h]
      cases (idOf rows).get? r <;> rfl
  have key : ∀ l : List (κ × κ × ν), (r, c, v) ∈ l → l.mapM (locate (idOf rows) (idOf cols)) = .error .keyError := by
    intro l
    induction l with
    | nil => simp
    | cons e l ih =>
      intro hl
      rw [List.mapM_cons]
      cases he : locate (idOf rows) (idOf cols) e with
      | error x =>
        have : x = .keyError := by
          unfold locate at he
          split at he
          · cases he
          · exact (Except.error.inj he).symm
        simp [bind, Except.bind, this]
      | ok y =>
        rcases List.mem_cons.1 hl with rfl | hl
        · rw [hbad] at he; cases he
        · simp [bind, Except.bind, ih hl]
  unfold dictToSp
  simp only [key _ hm, bind, Except.bind]

theorem C21_empty [NPVal ν] {d : Dict κ (Dict κ ν)} (hd : WF2 d) (hn : ∀ r c, at2 d r c = none) (rows cols : List κ) :
    dictToSp d rows cols = .error .valueError := by
  have : dictEntries d = [] := by
    cases h : dictEntries d with
    | nil => rfl
    | cons e l =>
      have := (mem_dictEntries hd e.1 e.2.1 e.2.2).1 (by rw [h]; simp)
      rw [hn] at this; cases this
  unfold dictToSp
  simp [this, bind, Except.bind, pure, Except.pure]

/-- A case that meets the hypotheses of C21: rows and columns not in sorted order, a stored zero. -/
example : ∃ (d : Dict Nat (Dict Nat Int)) (s : Sp Int), WF2 d ∧ Uniform d ∧
    dictToSp d [7, 5] [3, 2] = .ok s ∧ s.stored 1 0 = some 4 ∧ s.stored 0 1 = some 0 ∧ s.stored 0 0 = none :=
  ⟨[(5, [(3, 4)]), (7, [(2, 0)])], ⟨.csr, 2, 2, [((1, 0), 4), ((0, 1), 0)]⟩, ⟨by decide, by decide⟩, uniform_int _,
   by decide +kernel, by decide, by decide, by decide⟩

/-! ### C22: merging two matrices -/

section C22
variable [AddCommMonoid ν] [DecidableEq ν] [AllClose ν]

/-- **C22** for csr matrices (what handlers and loaded files hold): the merged matrix has the rows of the operands,
its columns are exactly the columns of either, without repetition, and in sorted order unless both operands have the
same column list; every named entry is the sum of the operands' entries, an absent one counting as 0. -/
theorem C22_merge_partial {m t : Mtx κ ν} (hm : Valid m) (ht : Valid t) (hcm : IsCsr m) (hct : IsCsr t)
    (hrows : m.rows = t.rows) :
    ∃ u, mergeTwo m t = .ok u ∧ Valid u ∧ IsCsr u ∧ u.rows = m.rows ∧
      (∀ c, c ∈ u.cols ↔ c ∈ m.cols ∨ c ∈ t.cols) ∧ (m.cols = t.cols → u.cols = m.cols) ∧
      (m.cols ≠ t.cols → u.cols.Pairwise (· ≤ ·)) ∧
      ∀ r c, entry u r c = entry m r c + entry t r c := by
  obtain ⟨u, h1, h2, h3, h4, h5, h6⟩ := mergeTwo_csr hm ht hcm hct hrows
  refine ⟨u, h1, h2, h3, h4, ?_, ?_, ?_, h6⟩
  · intro c
    rw [h5]; split
    · next h => rw [← h]; simp
    · exact sortedUnion_mem _ _ _
  · intro h; rw [h5, if_pos h]
  · intro h; rw [h5, if_neg h]; exact sortedUnion_sorted _ _

/-- The columns a merge must have, as a function of the set of columns of the operands. -/
theorem mergeCols_unique {l₁ l₂ : List κ} (h1 : l₁.Nodup) (h2 : l₂.Nodup) (hm : ∀ c, c ∈ l₁ ↔ c ∈ l₂)
    (s1 : l₁.Pairwise (· ≤ ·)) (s2 : l₂.Pairwise (· ≤ ·)) : l₁ = l₂ :=
  eq_of_perm_of_pairwise (fun _ _ _ _ => le_antisymm) ((List.perm_ext_iff_of_nodup h1 h2).2 hm) s1 s2

/-- **C22** (commutative). -/
theorem C22_commutative_partial {m t : Mtx κ ν} (hm : Valid m) (ht : Valid t) (hcm : IsCsr m) (hct : IsCsr t)
    (hrows : m.rows = t.rows) :
    ∃ u v, mergeTwo m t = .ok u ∧ mergeTwo t m = .ok v ∧ SameNamed u v := by
  obtain ⟨u, h1, _, _, h4, h5, h6⟩ := mergeTwo_csr hm ht hcm hct hrows
  obtain ⟨v, k1, _, _, k4, k5, k6⟩ := mergeTwo_csr ht hm hct hcm hrows.symm
  refine ⟨u, v, h1, k1, ⟨by rw [h4, k4, hrows], ?_, fun r c => by rw [h6, k6, add_comm]⟩⟩
  rw [h5, k5]
  by_cases h : m.cols = t.cols
  · simp [h]
  · rw [if_neg h, if_neg (Ne.symm h)]
    refine mergeCols_unique (sortedUnion_nodup _ _) (sortedUnion_nodup _ _) ?_ (sortedUnion_sorted _ _)
      (sortedUnion_sorted _ _)
    intro c; rw [sortedUnion_mem, sortedUnion_mem, or_comm]

/-- **C22** (associative). -/
theorem C22_associative_partial {m t w : Mtx κ ν} (hm : Valid m) (ht : Valid t) (hw : Valid w) (hcm : IsCsr m)
    (hct : IsCsr t) (hcw : IsCsr w) (hrows : m.rows = t.rows) (hrows' : t.rows = w.rows) :
    ∃ mt tw u v, mergeTwo m t = .ok mt ∧ mergeTwo mt w = .ok u ∧ mergeTwo t w = .ok tw ∧ mergeTwo m tw = .ok v ∧
      SameNamed u v := by
  obtain ⟨mt, a1, a2, a3, a4, a5, a6⟩ := mergeTwo_csr hm ht hcm hct hrows
  obtain ⟨tw, b1, b2, b3, b4, b5, b6⟩ := mergeTwo_csr ht hw hct hcw hrows'
  obtain ⟨u, c1, _, _, c4, c5, c6⟩ := mergeTwo_csr a2 hw a3 hcw (a4.trans (hrows.trans hrows'))
  obtain ⟨v, d1, _, _, d4, d5, d6⟩ := mergeTwo_csr hm b2 hcm b3 (hrows.trans b4.symm)
  refine ⟨mt, tw, u, v, a1, c1, b1, d1, ⟨by rw [c4, a4, d4], ?_, fun r c => by rw [c6, a6, d6, b6, add_assoc]⟩⟩
  by_cases e1 : m.cols = t.cols
  · by_cases e2 : t.cols = w.cols
    · rw [c5, a5, d5, b5]; simp [e1, e2]
    · have hu : u.cols = sortedUnion m.cols w.cols := by
        rw [c5, a5, if_pos e1, if_neg (by rw [e1]; exact e2)]
      rw [hu, d5, b5, if_neg e2]
      split
      · next h =>
        refine mergeCols_unique (sortedUnion_nodup _ _) hm.cols ?_ (sortedUnion_sorted _ _)
          (h ▸ sortedUnion_sorted _ _)
        intro c
        rw [sortedUnion_mem]
        conv_rhs => rw [h, sortedUnion_mem]
        rw [e1]
      · refine mergeCols_unique (sortedUnion_nodup _ _) (sortedUnion_nodup _ _) ?_ (sortedUnion_sorted _ _)
          (sortedUnion_sorted _ _)
        intro c; simp only [sortedUnion_mem, e1]; tauto
  · have ha : mt.cols = sortedUnion m.cols t.cols := by rw [a5, if_neg e1]
    have hu : u.cols = sortedUnion (sortedUnion m.cols t.cols) w.cols := by
      rw [c5, ha]
      split
      · next h =>
        refine mergeCols_unique (sortedUnion_nodup _ _) (sortedUnion_nodup _ _) ?_ (sortedUnion_sorted _ _)
          (sortedUnion_sorted _ _)
        intro c; rw [sortedUnion_mem (sortedUnion _ _), ← h]; tauto
      · rfl
    have hv : v.cols.Pairwise (· ≤ ·) ∧ v.cols.Nodup ∧ ∀ c, c ∈ v.cols ↔ c ∈ m.cols ∨ c ∈ t.cols ∨ c ∈ w.cols := by
      rw [d5, b5]
      by_cases e2 : t.cols = w.cols
      · rw [if_pos e2, if_neg e1]
        exact ⟨sortedUnion_sorted _ _, sortedUnion_nodup _ _, by intro c; rw [sortedUnion_mem, ← e2]; tauto⟩
      · rw [if_neg e2]
        split
        · next h =>
          refine ⟨h ▸ sortedUnion_sorted _ _, hm.cols, ?_⟩
          intro c
          have := sortedUnion_mem t.cols w.cols c
          rw [← h] at this
          rw [this]; tauto
        · exact ⟨sortedUnion_sorted _ _, sortedUnion_nodup _ _, by intro c; rw [sortedUnion_mem, sortedUnion_mem]⟩
    rw [hu]
    refine mergeCols_unique (sortedUnion_nodup _ _) hv.2.1 ?_ (sortedUnion_sorted _ _) hv.1
    intro c; rw [hv.2.2, sortedUnion_mem, sortedUnion_mem, or_assoc]

/-- **C22** (refusal).  Operands with different rows are refused. -/
theorem C22_rows_differ (m t : Mtx κ ν) (h : m.rows ≠ t.rows) : mergeTwo m t = .error .notImplemented := by
  unfold mergeTwo
  rw [if_neg (by tauto), if_pos h]

end C22

/-- **C22** is false for a transposed operand (csc storage): the merged matrix silently holds the transposed entries.
Here the left operand is the transpose of a 2 x 2 matrix with the single entry 5 at row 11, column 1. -/
theorem C22_false_transposed : ∃ (m₀ m t u : Mtx Nat Int), Valid m₀ ∧ IsCsr m₀ ∧ transpose m₀ = .ok m ∧ Valid t ∧
    IsCsr t ∧ m.rows = t.rows ∧ mergeTwo m t = .ok u ∧ entry m 1 11 = 5 ∧ entry t 1 11 = 0 ∧ entry u 1 11 = 0 ∧
    entry m 2 10 = 0 ∧ entry t 2 10 = 0 ∧ entry u 2 10 = 5 := by
  refine ⟨⟨.sp ⟨.csr, 2, 2, [((1, 0), 5)]⟩, [10, 11], [1, 2]⟩,
   ⟨.sp ⟨.csc, 2, 2, [((0, 1), 5)]⟩, [1, 2], [10, 11]⟩,
   ⟨.sp ⟨.csr, 2, 2, []⟩, [1, 2], [10, 12]⟩,
   ⟨.sp ⟨.csr, 2, 3, [((1, 0), 5)]⟩, [1, 2], [10, 11, 12]⟩,
   ⟨rfl, rfl, by decide, by decide, ?_⟩, ⟨_, rfl, rfl⟩, rfl, ⟨rfl, rfl, by decide, by decide, ?_⟩, ⟨_, rfl, rfl⟩,
   rfl, by rfl, by decide, by decide, by decide, by decide, by decide, by decide⟩
  · intro s hs; cases hs; exact ⟨by decide, by decide⟩
  · intro s hs; cases hs; exact ⟨by decide, by decide⟩

/-- For a transposed matrix that is not square the merge is a `ValueError`. -/
theorem C22_false_transposed_error : ∃ (m₀ m t : Mtx Nat Int), Valid m₀ ∧ IsCsr m₀ ∧ transpose m₀ = .ok m ∧ Valid t ∧
    IsCsr t ∧ m.rows = t.rows ∧ mergeTwo m t = .error .valueError := by
  refine ⟨⟨.sp ⟨.csr, 1, 2, [((0, 0), 5)]⟩, [10], [1, 2]⟩,
   ⟨.sp ⟨.csc, 2, 1, [((0, 0), 5)]⟩, [1, 2], [10]⟩,
   ⟨.sp ⟨.csr, 2, 2, []⟩, [1, 2], [10, 12]⟩,
   ⟨rfl, rfl, by decide, by decide, ?_⟩, ⟨_, rfl, rfl⟩, rfl, ⟨rfl, rfl, by decide, by decide, ?_⟩, ⟨_, rfl, rfl⟩,
   rfl, by rfl⟩
  · intro s hs; cases hs; exact ⟨by decide, by decide⟩
  · intro s hs; cases hs; exact ⟨by decide, by decide⟩

/-- Two csr matrices with overlapping column lists meet the hypotheses of C22. -/
example : ∃ (m t u : Mtx Nat Int), Valid m ∧ Valid t ∧ IsCsr m ∧ IsCsr t ∧ m.rows = t.rows ∧ m.cols ≠ t.cols ∧
    mergeTwo m t = .ok u ∧ u.cols = [3, 5, 8] ∧ entry m 1 5 = 2 ∧ entry t 1 5 = 4 ∧ entry u 1 5 = 6 := by
  refine ⟨⟨.sp ⟨.csr, 1, 2, [((0, 1), 2), ((0, 0), 7)]⟩, [1], [8, 5]⟩, ⟨.sp ⟨.csr, 1, 2, [((0, 0), 4)]⟩, [1], [5, 3]⟩,
    ⟨.sp ⟨.csr, 1, 3, [((0, 1), 6), ((0, 2), 7)]⟩, [1], [3, 5, 8]⟩, ⟨rfl, rfl, by decide, by decide, ?_⟩,
    ⟨rfl, rfl, by decide, by decide, ?_⟩, ⟨_, rfl, rfl⟩, ⟨_, rfl, rfl⟩, rfl, by decide, by rfl, rfl, by decide,
    by decide, by decide⟩
  · intro s hs; cases hs; exact ⟨by decide, by decide⟩
  · intro s hs; cases hs; exact ⟨by decide, by decide⟩

end Verif.Matrix
