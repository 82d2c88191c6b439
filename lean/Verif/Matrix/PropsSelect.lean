import Verif.Matrix.Props

/-!
# Properties of matrices: C23 (submatrix) and C24 (reorder, transpose, concatenate)
-/

namespace Verif.Matrix
open Verif.Py
set_option linter.unusedSectionVars false

variable {κ ν : Type} [LinearOrder κ]

/-! ### Reading entries -/

/-- Whatever index the name table gives for a name, the item there has that name (also with repeated items). -/
theorem getElem?_of_idOf {items : List κ} {e : κ} {i : Nat} (h : (idOf items).get? e = some i) :
    items[i]? = some e := by
  have key : ∀ (ps : List (κ × Nat)) (d : Dict κ Nat),
      (ps.foldl (fun d p => Dict.set d p.1 p.2) d).get? e = some i → (e, i) ∈ ps ∨ d.get? e = some i := by
    intro ps
    induction ps with
    | nil => intro d h; exact Or.inr h
    | cons p ps ih =>
      intro d h
      rcases ih _ h with h | h
      · exact Or.inl (List.mem_cons_of_mem _ h)
      · rw [Dict.get?_set] at h
        split at h
        · next heq => cases h; subst heq; exact Or.inl (by simp)
        · exact Or.inr h
  rcases key _ _ h with h | h
  · exact List.mem_zipIdx_iff_getElem?.1 h
  · cases h

/-- `m[r, c]` on a compressed sparse matrix, stated by name. -/
theorem getValue_spec [Zero ν] {m : Mtx κ ν} (hm : Valid m) (hc : IsCompressed m) {r c : κ} (hr : r ∈ m.rows)
    (hcc : c ∈ m.cols) : getValue m r c = .ok (entry m r c) := by
  obtain ⟨s, hb, hf⟩ := hc
  obtain ⟨i, hi⟩ := idOf_isSome hr
  obtain ⟨j, hj⟩ := idOf_isSome hcc
  have e1 := getElem?_of_idOf hi
  have e2 := getElem?_of_idOf hj
  unfold getValue
  rw [hi, hj, entry_of hm.rows hm.cols e1 e2, hb]
  simp [hf, Body.val]

/-- An unknown name is a `KeyError`. -/
theorem getValue_unknown [Zero ν] (m : Mtx κ ν) {r c : κ} (h : r ∉ m.rows ∨ c ∉ m.cols) :
    getValue m r c = .error .keyError := by
  unfold getValue
  rcases h with h | h
  · rw [(get?_idOf_none m.rows r).2 h]
  · rw [(get?_idOf_none m.cols c).2 h]
    cases (idOf m.rows).get? r <;> rfl

/-- What the constructor accepts, it keeps. -/
theorem mkMtx_inv [AllClose ν] {b : Body ν} {rows cols : List κ} {u : Mtx κ ν} (h : mkMtx b rows cols = .ok u) :
    u.body = b ∧ u.rows = rows ∧ u.cols = cols := by
  unfold mkMtx at h
  split at h
  · cases h
  · split at h
    · cases h
    · cases b with
      | sp s => cases h; exact ⟨rfl, rfl, rfl⟩
      | dn d =>
        simp only at h
        split at h
        · cases h
        · cases h; exact ⟨rfl, rfl, rfl⟩

/-! ### C23 -/

/-- **C23** for sparse matrices (csr or csc).  `kept items request` are the requested names that exist, in request
order (all items without a request).  If a request keeps nothing the result is `None`; otherwise it has exactly the
kept rows and columns, the stored entry at every position is the original's stored entry for the two names there, and
reading any kept name pair gives what reading it in the original gives, also with repeated names in the requests. -/
theorem C23_submatrix_partial [Zero ν] [AllClose ν] {m : Mtx κ ν} (hm : Valid m) (hc : IsCompressed m)
    (row col : Option (List κ)) :
    (((row ≠ none ∧ kept m.rows row = []) ∨ (col ≠ none ∧ kept m.cols col = [])) ∧
      submatrix m row col = .ok none) ∨
    ((row ≠ none → kept m.rows row ≠ []) ∧ (col ≠ none → kept m.cols col ≠ []) ∧
      ∃ u s, submatrix m row col = .ok (some u) ∧ u.rows = kept m.rows row ∧ u.cols = kept m.cols col ∧
        u.body = .sp s ∧ s.nr = u.rows.length ∧ s.nc = u.cols.length ∧ s.WF ∧ IsCompressed u ∧
        (∀ a b r c, u.rows[a]? = some r → u.cols[b]? = some c → s.stored a b = storedEntry m r c) ∧
        ∀ r ∈ u.rows, ∀ c ∈ u.cols, getValue u r c = getValue m r c) := by
  obtain ⟨s, hb, hf⟩ := hc
  have hnone : ∀ (items : List κ) (req : Option (List κ)),
      (req.map (request items)).any (fun q => q.1.isEmpty) = true ↔ (req ≠ none ∧ kept items req = []) := by
    intro items req
    rw [any_request]
    cases req <;> simp
  unfold submatrix
  simp only
  by_cases h1 : (row.map (request m.rows)).any (fun q => q.1.isEmpty) = true
  · rw [if_pos h1]
    exact Or.inl ⟨Or.inl ((hnone _ _).1 h1), rfl⟩
  · rw [if_neg h1]
    by_cases h2 : (col.map (request m.cols)).any (fun q => q.1.isEmpty) = true
    · rw [if_pos h2]
      exact Or.inl ⟨Or.inr ((hnone _ _).1 h2), rfl⟩
    · rw [if_neg h2]
      refine Or.inr ⟨fun hn he => h1 ((hnone _ _).2 ⟨hn, he⟩), fun hn he => h2 ((hnone _ _).2 ⟨hn, he⟩), ?_⟩
      obtain ⟨s', k1, k2, k3, k4, k5, k6⟩ := bodySub_sp (hm.sp s hb) hf ((row.map (request m.rows)).map Prod.snd)
        ((col.map (request m.cols)).map Prod.snd)
      rw [hb, k1]
      simp only [bind, Except.bind]
      rw [request_kept, request_kept]
      have hnr := hm.nr
      have hnc := hm.nc
      rw [hb] at hnr hnc
      rw [length_request row s.nr hnr] at k4
      rw [length_request col s.nc hnc] at k5
      rw [mkMtx_sp k4 k5]
      have hst : ∀ (a b : Nat) r c, (kept m.rows row)[a]? = some r → (kept m.cols col)[b]? = some c →
          s'.stored a b = storedEntry m r c := by
        intro a b r c ha hb'
        obtain ⟨i, hi, hi'⟩ := src_request hm.rows row ha
        obtain ⟨j, hj, hj'⟩ := src_request hm.cols col hb'
        rw [k6, hi, hj, storedEntry_of hm.rows hm.cols hb hi' hj']
        rfl
      refine ⟨_, s', rfl, rfl, rfl, rfl, k4, k5, k2, ⟨s', rfl, by rw [k3]; exact hf⟩, hst, ?_⟩
      intro r hr c hcc
      rw [getValue_spec hm ⟨s, hb, hf⟩ (kept_sub row hr) (kept_sub col hcc)]
      obtain ⟨i, hi⟩ := idOf_isSome hr
      obtain ⟨j, hj⟩ := idOf_isSome hcc
      simp only at hi hj
      unfold getValue
      simp only [hi, hj]
      rw [if_neg (by rw [k3]; exact hf)]
      rw [entry_eq_stored hb]
      unfold Sp.val
      rw [hst i j r c (getElem?_of_idOf hi) (getElem?_of_idOf hj)]

/-- **C23** for dense matrices with both requests given and keeping something (for an array that is not symmetric one
request is enough): the kept rows and columns with the original elements; but if the selected array looks symmetric
and the kept row and column lists differ, the constructor refuses it with a `ValueError`. -/
theorem C23_dense_partial [Zero ν] [AllClose ν] {m : Mtx κ ν} (hm : Valid m) {d : Dn ν} (hb : m.body = .dn d)
    {row col : Option (List κ)} (hgiven : (row ≠ none ∧ col ≠ none) ∨ (d.symmetric = false ∧ (row ≠ none ∨ col ≠ none)))
    (hr : kept m.rows row ≠ []) (hc : kept m.cols col ≠ []) :
    ∃ e : Dn ν, e.nr = (kept m.rows row).length ∧ e.nc = (kept m.cols col).length ∧
      (∀ a b r c, (kept m.rows row)[a]? = some r → (kept m.cols col)[b]? = some c → e.elem a b = entry m r c) ∧
      submatrix m row col =
        if e.symmetric = true ∧ kept m.rows row ≠ kept m.cols col then .error .valueError
        else .ok (some ⟨.dn e, kept m.rows row, kept m.cols col⟩) := by
  have hnr := hm.nr
  have hnc := hm.nc
  rw [hb] at hnr hnc
  simp only [Body.nr, Body.nc] at hnr hnc
  have h1 : ¬ (row.map (request m.rows)).any (fun q => q.1.isEmpty) = true := by
    rw [any_request]; rintro ⟨_, _, h⟩; exact hr h
  have h2 : ¬ (col.map (request m.cols)).any (fun q => q.1.isEmpty) = true := by
    rw [any_request]; rintro ⟨_, _, h⟩; exact hc h
  refine ⟨d.sub ((row.map (request m.rows)).map Prod.snd) ((col.map (request m.cols)).map Prod.snd), ?_, ?_, ?_, ?_⟩
  · simpa [Dn.sub] using length_request row d.nr hnr
  · simpa [Dn.sub] using length_request col d.nc hnc
  · intro a b r c ha hb'
    obtain ⟨i, hi, hi'⟩ := src_request hm.rows row ha
    obtain ⟨j, hj, hj'⟩ := src_request hm.cols col hb'
    rw [entry_of hm.rows hm.cols hi' hj', hb]
    have hsub : ∀ (l : Option (List Nat)) (a i : Nat), src l a = some i →
        (l.map (fun l => l.getD a 0)).getD a = i := by
      intro l a i h
      cases l with
      | none => simpa [src] using h
      | some l => simp only [src] at h; simp [List.getD, h]
    simp only [Dn.sub, Body.val, hsub _ _ _ hi, hsub _ _ _ hj]
  · unfold submatrix
    simp only
    rw [if_neg h1, if_neg h2, hb]
    have hbs : bodySub (.dn d) ((row.map (request m.rows)).map Prod.snd) ((col.map (request m.cols)).map Prod.snd) =
        .ok (.dn (d.sub ((row.map (request m.rows)).map Prod.snd) ((col.map (request m.cols)).map Prod.snd))) := by
      unfold bodySub
      cases row <;> cases col <;> cases hs : d.symmetric <;> simp_all
    rw [hbs]
    simp only [bind, Except.bind]
    rw [request_kept, request_kept]
    unfold mkMtx
    rw [if_neg (by simpa [Body.nr, Dn.sub] using length_request row d.nr hnr),
      if_neg (by simpa [Body.nc, Dn.sub] using length_request col d.nc hnc)]
    simp only
    split_ifs <;> rfl

/-- **C23** is false for dense matrices: taking row `1` and column `2` of a distance matrix, both existing names,
raises `ValueError`. -/
theorem C23_false_dense : ∃ m : Mtx Nat Int, Valid m ∧ 1 ∈ m.rows ∧ 2 ∈ m.cols ∧
    submatrix m (some [1]) (some [2]) = .error .valueError := by
  refine ⟨⟨.dn ⟨2, 2, fun i j => if i = j then 0 else 3⟩, [1, 2], [1, 2]⟩, ⟨rfl, rfl, by decide, by decide, ?_⟩,
    by decide, by decide, by rfl⟩
  intro s hs; cases hs

/-- **C23** is false for a square dense matrix when only rows are requested: `ValueError`. -/
theorem C23_false_square_rows [AllClose ν] (m : Mtx κ ν) (d : Dn ν) (hb : m.body = .dn d) (hs : d.symmetric = true)
    (h2 : d.nr ≠ 1) (l : List κ) (hl : kept m.rows (some l) ≠ []) :
    submatrix m (some l) none = .error .valueError := by
  unfold submatrix
  simp only [Option.map_some, Option.map_none]
  have h1 : ¬ (Option.any (fun q => q.1.isEmpty) (some (request m.rows l)) = true) := by
    have := any_request (items := m.rows) (some l)
    simp only [Option.map_some] at this
    rw [this]; rintro ⟨_, _, h⟩; exact hl h
  rw [if_neg h1, hb]
  simp [bodySub, hs, h2, bind, Except.bind]

/-- A sparse case: repeated, unknown and reordered names. -/
example : ∃ (m u : Mtx Nat Int), Valid m ∧ IsCompressed m ∧ submatrix m (some [2, 9, 1, 2]) none = .ok (some u) ∧
    u.rows = [2, 1, 2] ∧ u.cols = [5, 6] ∧ getValue u 2 6 = .ok 7 := by
  refine ⟨⟨.sp ⟨.csr, 2, 2, [((1, 1), 7)]⟩, [1, 2], [5, 6]⟩,
    ⟨.sp ⟨.csr, 3, 2, [((0, 1), 7), ((2, 1), 7)]⟩, [2, 1, 2], [5, 6]⟩, ⟨rfl, rfl, by decide, by decide, ?_⟩,
    ⟨_, rfl, by decide⟩, by rfl, rfl, rfl, by rfl⟩
  intro s hs; cases hs; exact ⟨by decide, by decide⟩

/-! ### C24: transpose -/

theorem transpose_transpose_sp (s : Sp ν) : s.transpose.transpose = s := by
  obtain ⟨f, nr, nc, d⟩ := s
  unfold Sp.transpose
  simp only [List.map_map]
  congr 1
  · cases f <;> rfl
  · exact List.map_id _

theorem symmetric_swap [AllClose ν] (d : Dn ν) :
    (Dn.symmetric { nr := d.nc, nc := d.nr, elem := fun i j => d.elem j i }) = d.symmetric := by
  rw [Bool.eq_iff_iff]
  unfold Dn.symmetric
  simp only [Bool.and_eq_true, decide_eq_true_eq, List.all_eq_true, List.mem_range]
  constructor
  · rintro ⟨h, h'⟩; exact ⟨h.symm, fun i hi j hj => h' j hj i hi⟩
  · rintro ⟨h, h'⟩; exact ⟨h.symm, fun i hi j hj => h' j hj i hi⟩

/-- A matrix that the transpose and reorder operations accept: sparse, or dense and not symmetric. -/
def NotSquare [AllClose ν] (m : Mtx κ ν) : Prop := ∀ d, m.body = .dn d → d.symmetric = false

/-- **C24** (transpose) for sparse matrices and dense ones that are not symmetric: the names change places, every
named entry is kept, and transposing again gives the matrix back (array, format and all). -/
theorem C24_transpose_partial [Zero ν] [AllClose ν] {m : Mtx κ ν} (hm : Valid m) (hs : NotSquare m) :
    ∃ u, transpose m = .ok u ∧ u.rows = m.cols ∧ u.cols = m.rows ∧ Valid u ∧
      (∀ r c, entry u c r = entry m r c) ∧ transpose u = .ok m := by
  have hswap : ∀ {u : Mtx κ ν}, u.rows = m.cols → u.cols = m.rows → (∀ i j, u.body.val j i = m.body.val i j) →
      ∀ r c, entry u c r = entry m r c := by
    intro u h1 h2 h3 r c
    unfold entry
    rw [h1, h2]
    cases m.rows.idxOf? r <;> cases m.cols.idxOf? c <;> simp [h3]
  obtain ⟨b, rows, cols⟩ := m
  have hnr := hm.nr
  have hnc := hm.nc
  cases b with
  | sp s =>
    simp only [Body.nr, Body.nc] at hnr hnc
    refine ⟨⟨.sp s.transpose, cols, rows⟩, mkMtx_sp hnc hnr, rfl, rfl, ⟨hnc, hnr, hm.cols, hm.rows, ?_⟩, ?_, ?_⟩
    · intro s' h; cases h; exact WF_transpose (hm.sp s rfl)
    · refine hswap rfl rfl ?_
      intro i j
      simp only [Body.val, Sp.val, stored_transpose]
    · unfold transpose
      simp only [transpose_transpose_sp]
      exact mkMtx_sp hnr hnc
  | dn d =>
    simp only [Body.nr, Body.nc] at hnr hnc
    have hd := hs d rfl
    have hd' := symmetric_swap d
    rw [hd] at hd'
    refine ⟨⟨.dn { nr := d.nc, nc := d.nr, elem := fun i j => d.elem j i }, cols, rows⟩, ?_, rfl, rfl,
      ⟨hnc, hnr, hm.cols, hm.rows, ?_⟩, ?_, ?_⟩
    · unfold transpose mkMtx
      simp only [hd, Bool.false_eq_true, if_false, Body.nr, Body.nc]
      rw [if_neg (by simpa using hnc), if_neg (by simpa using hnr), if_neg (by rw [hd']; simp)]
    · intro s' h; cases h
    · exact hswap rfl rfl (fun i j => rfl)
    · unfold transpose mkMtx
      simp only [hd', Bool.false_eq_true, if_false, Body.nr, Body.nc]
      rw [if_neg (by simpa using hnr), if_neg (by simpa using hnc), if_neg (by rw [hd]; simp)]

/-- **C24** fails for distance and similarity matrices: transposing or reordering any symmetric dense matrix raises
`NotImplementedError`. -/
theorem C24_false_symmetric [AllClose ν] (m : Mtx κ ν) (d : Dn ν) (hb : m.body = .dn d) (hs : d.symmetric = true)
    (l : List κ) (hl : l ≠ []) (hsub : ∀ e ∈ l, e ∈ m.rows) :
    transpose m = .error .notImplemented ∧ reorderRows m l = .error .notImplemented := by
  constructor
  · unfold transpose; rw [hb]; simp [hs]
  · have h1 : l.mapM (getKey (idOf m.rows)) = .ok (l.map (fun e => ((idOf m.rows).get? e).getD 0)) := by
      apply mapM_ok_of
      intro e he
      obtain ⟨i, hi⟩ := idOf_isSome (hsub e he)
      simp [getKey, hi]
    unfold reorderRows indexList
    rw [h1, hb]
    simp [bind, Except.bind, hl, bodyRows, hs]

example : ∃ (m : Mtx Nat Int) (d : Dn Int), m.body = .dn d ∧ d.symmetric = true ∧ m.rows = [1, 2] :=
  ⟨⟨.dn ⟨2, 2, fun i j => if i = j then 0 else 3⟩, [1, 2], [1, 2]⟩, _, rfl, rfl, rfl⟩

/-! ### C24: reorder -/

theorem indexList_ok {items l : List κ} (hn : items.Nodup) (hl : l ≠ []) (hsub : ∀ e ∈ l, e ∈ items) :
    ∃ idx, indexList items l = .ok idx ∧ idx.length = l.length ∧
      ∀ (a i : Nat), idx[a]? = some i → ∃ e, l[a]? = some e ∧ items[i]? = some e := by
  have h1 : l.mapM (getKey (idOf items)) = .ok (l.map (fun e => ((idOf items).get? e).getD 0)) := by
    apply mapM_ok_of
    intro e he
    obtain ⟨i, hi⟩ := idOf_isSome (hsub e he)
    simp [getKey, hi]
  refine ⟨l.map (fun e => ((idOf items).get? e).getD 0), ?_, by simp, ?_⟩
  · unfold indexList
    rw [h1]
    simp [bind, Except.bind, hl]
  · intro a i hi
    rw [List.getElem?_map] at hi
    cases ha : l[a]? with
    | none => rw [ha] at hi; cases hi
    | some e =>
      rw [ha] at hi
      obtain ⟨k, hk⟩ := idOf_isSome (hsub e (List.mem_of_getElem? ha))
      simp only [Option.map_some, hk, Option.getD_some, Option.some.injEq] at hi
      subst hi
      exact ⟨e, rfl, getElem?_of_idOf hk⟩

theorem indexList_get {items l : List κ} {idx : List Nat} (hlen : idx.length = l.length)
    (hn : items.Nodup) (h : ∀ (a i : Nat), idx[a]? = some i → ∃ e, l[a]? = some e ∧ items[i]? = some e) {a : Nat} {e : κ}
    (ha : l[a]? = some e) : ∃ i, idx[a]? = some i ∧ items[i]? = some e := by
  have hlt := lt_of_getElem? ha
  have : idx[a]? = some idx[a] := List.getElem?_eq_getElem (by omega)
  obtain ⟨e', h1, h2⟩ := h a _ this
  rw [ha] at h1; cases h1
  exact ⟨_, this, h2⟩

/-- **C24** (reorder rows) for sparse matrices: for any duplicate-free list of existing row names (a permutation of the
rows in particular) the result has these rows in this order and the named entries of the original. -/
theorem C24_reorderRows_partial [Zero ν] [AllClose ν] {m : Mtx κ ν} (hm : Valid m) (hc : IsCompressed m) {l : List κ}
    (hl : l ≠ []) (hnd : l.Nodup) (hsub : ∀ e ∈ l, e ∈ m.rows) :
    ∃ u, reorderRows m l = .ok u ∧ Valid u ∧ IsCompressed u ∧ u.rows = l ∧ u.cols = m.cols ∧
      ∀ r ∈ l, ∀ c, entry u r c = entry m r c := by
  obtain ⟨s, hb, hf⟩ := hc
  obtain ⟨idx, h1, h2, h3⟩ := indexList_ok hm.rows hl hsub
  have hnc := hm.nc
  rw [hb] at hnc
  simp only [Body.nc] at hnc
  have h4 : (s.rowsAt idx).nr = l.length := h2
  have h5 : (s.rowsAt idx).nc = m.cols.length := hnc
  refine ⟨⟨.sp (s.rowsAt idx), l, m.cols⟩, ?_, ⟨h4, h5, hnd, hm.cols, ?_⟩, ⟨_, rfl, hf⟩, rfl, rfl, ?_⟩
  · unfold reorderRows
    rw [h1, hb]
    simp only [bind, Except.bind, bodyRows, if_neg hf]
    exact mkMtx_sp h4 h5
  · intro s' h; cases h; exact WF_rowsAt (hm.sp s hb) idx
  · intro r hr c
    by_cases hcm : c ∈ m.cols
    · obtain ⟨a, ha⟩ := getElem?_of_mem' hr
      obtain ⟨j, hj⟩ := getElem?_of_mem' hcm
      obtain ⟨i, hi, hi'⟩ := indexList_get h2 hm.rows h3 ha
      rw [entry_of (m := ⟨.sp (s.rowsAt idx), l, m.cols⟩) hnd hm.cols ha hj, entry_of hm.rows hm.cols hi' hj, hb]
      simp [Body.val, Sp.val, stored_rowsAt, hi]
    · rw [entry_col_absent (m := ⟨.sp (s.rowsAt idx), l, m.cols⟩) r hcm, entry_col_absent r hcm]

/-- **C24** (reorder columns). -/
theorem C24_reorderCols_partial [Zero ν] [AllClose ν] {m : Mtx κ ν} (hm : Valid m) (hc : IsCompressed m) {l : List κ}
    (hl : l ≠ []) (hnd : l.Nodup) (hsub : ∀ e ∈ l, e ∈ m.cols) :
    ∃ u, reorderCols m l = .ok u ∧ Valid u ∧ IsCompressed u ∧ u.rows = m.rows ∧ u.cols = l ∧
      ∀ r, ∀ c ∈ l, entry u r c = entry m r c := by
  obtain ⟨s, hb, hf⟩ := hc
  obtain ⟨idx, h1, h2, h3⟩ := indexList_ok hm.cols hl hsub
  have hnr := hm.nr
  rw [hb] at hnr
  simp only [Body.nr] at hnr
  have h4 : (s.colsAt idx).nc = l.length := h2
  have h5 : (s.colsAt idx).nr = m.rows.length := hnr
  refine ⟨⟨.sp (s.colsAt idx), m.rows, l⟩, ?_, ⟨h5, h4, hm.rows, hnd, ?_⟩, ⟨_, rfl, hf⟩, rfl, rfl, ?_⟩
  · unfold reorderCols
    rw [h1, hb]
    simp only [bind, Except.bind, bodyCols, if_neg hf]
    exact mkMtx_sp h5 h4
  · intro s' h; cases h; exact WF_colsAt (hm.sp s hb) idx
  · intro r c hcc
    by_cases hrm : r ∈ m.rows
    · obtain ⟨b, hb'⟩ := getElem?_of_mem' hcc
      obtain ⟨i, hi⟩ := getElem?_of_mem' hrm
      obtain ⟨j, hj, hj'⟩ := indexList_get h2 hm.cols h3 hb'
      rw [entry_of (m := ⟨.sp (s.colsAt idx), m.rows, l⟩) hm.rows hnd hi hb', entry_of hm.rows hm.cols hi hj', hb]
      simp [Body.val, Sp.val, stored_colsAt, hj]
    · rw [entry_row_absent (m := ⟨.sp (s.colsAt idx), m.rows, l⟩) hrm, entry_row_absent hrm]

/-- **C24** (reordering back): after reordering the rows by a permutation, reordering by the original row list gives a
matrix with the original items and entries. -/
theorem C24_reorder_back_partial [Zero ν] [AllClose ν] {m : Mtx κ ν} (hm : Valid m) (hc : IsCompressed m) {l : List κ}
    (hl : l ≠ []) (hp : l.Perm m.rows) :
    ∃ u v, reorderRows m l = .ok u ∧ reorderRows u m.rows = .ok v ∧ SameNamed v m := by
  obtain ⟨u, h1, h2, h3, h4, h5, h6⟩ := C24_reorderRows_partial hm hc hl (hp.nodup_iff.2 hm.rows)
    (fun e he => hp.mem_iff.1 he)
  have hne : m.rows ≠ [] := by intro h; rw [h] at hp; exact hl hp.eq_nil
  obtain ⟨v, k1, k2, k3, k4, k5, k6⟩ := C24_reorderRows_partial h2 h3 hne hm.rows
    (fun e he => by rw [h4]; exact hp.mem_iff.2 he)
  refine ⟨u, v, h1, k1, ⟨k4, k5.trans h5, ?_⟩⟩
  intro r c
  by_cases hr : r ∈ m.rows
  · rw [k6 r hr, h6 r (hp.mem_iff.2 hr)]
  · rw [entry_row_absent (by rw [k4]; exact hr), entry_row_absent hr]

/-- **C24** (columns there and back). -/
theorem C24_reorder_cols_back_partial [Zero ν] [AllClose ν] {m : Mtx κ ν} (hm : Valid m) (hc : IsCompressed m)
    {l : List κ} (hl : l ≠ []) (hp : l.Perm m.cols) :
    ∃ u v, reorderCols m l = .ok u ∧ reorderCols u m.cols = .ok v ∧ SameNamed v m := by
  obtain ⟨u, h1, h2, h3, h4, h5, h6⟩ := C24_reorderCols_partial hm hc hl (hp.nodup_iff.2 hm.cols)
    (fun e he => hp.mem_iff.1 he)
  have hne : m.cols ≠ [] := by intro h; rw [h] at hp; exact hl hp.eq_nil
  obtain ⟨v, k1, k2, k3, k4, k5, k6⟩ := C24_reorderCols_partial h2 h3 hne hm.cols
    (fun e he => by rw [h5]; exact hp.mem_iff.2 he)
  refine ⟨u, v, h1, k1, ⟨k4.trans h4, k5, ?_⟩⟩
  intro r c
  by_cases hr : c ∈ m.cols
  · rw [k6 r c hr, h6 r c (hp.mem_iff.2 hr)]
  · rw [entry_col_absent r (by rw [k5]; exact hr), entry_col_absent r hr]

/-- **C24** (unknown name): an error, whatever the matrix. -/
theorem C24_reorder_unknown [AllClose ν] (m : Mtx κ ν) {l : List κ} {e : κ} (he : e ∈ l) :
    (e ∉ m.rows → reorderRows m l = .error .keyError) ∧ (e ∉ m.cols → reorderCols m l = .error .keyError) := by
  have key : ∀ items : List κ, e ∉ items → ∀ l : List κ, e ∈ l → l.mapM (getKey (idOf items)) = .error .keyError := by
    intro items hn l
    induction l with
    | nil => simp
    | cons x l ih =>
      intro hl
      rw [List.mapM_cons]
      cases hx : getKey (idOf items) x with
      | error y =>
        have : y = .keyError := by
          unfold getKey at hx
          split at hx
          · cases hx
          · exact (Except.error.inj hx).symm
        simp [bind, Except.bind, this]
      | ok y =>
        rcases List.mem_cons.1 hl with rfl | hl
        · unfold getKey at hx
          rw [(get?_idOf_none items e).2 hn] at hx
          cases hx
        · simp [bind, Except.bind, ih hl]
  constructor
  · intro h
    unfold reorderRows indexList
    rw [key _ h l he]
    rfl
  · intro h
    unfold reorderCols indexList
    rw [key _ h l he]
    rfl

example : ∃ (m u v : Mtx Nat Int), Valid m ∧ IsCompressed m ∧ reorderRows m [2, 1] = .ok u ∧ transpose m = .ok v ∧
    entry m 2 6 = 7 ∧ entry u 2 6 = 7 ∧ entry v 6 2 = 7 ∧ [2, 1].Perm m.rows := by
  refine ⟨⟨.sp ⟨.csr, 2, 2, [((1, 1), 7), ((0, 0), 3)]⟩, [1, 2], [5, 6]⟩,
    ⟨.sp ⟨.csr, 2, 2, [((0, 1), 7), ((1, 0), 3)]⟩, [2, 1], [5, 6]⟩,
    ⟨.sp ⟨.csc, 2, 2, [((1, 1), 7), ((0, 0), 3)]⟩, [5, 6], [1, 2]⟩, ⟨rfl, rfl, by decide, by decide, ?_⟩,
    ⟨_, rfl, by decide⟩, by rfl, rfl, by decide, by decide, by decide, by decide⟩
  intro s hs; cases hs; exact ⟨by decide, by decide⟩

/-! ### C24: concatenate -/

theorem get?_map_key {d : Dict (Nat × Nat) ν} (f : Nat × Nat → Nat × Nat) (hf : Function.Injective f) (p : Nat × Nat) :
    Dict.get? (d.map (fun e => (f e.1, e.2))) (f p) = Dict.get? d p := by
  induction d with
  | nil => rfl
  | cons e d ih =>
    simp only [List.map_cons, Dict.get?_cons, ih]
    by_cases h : e.1 = p
    · rw [if_pos h, if_pos (by rw [h])]
    · rw [if_neg h, if_neg (fun h' => h (hf h'))]

theorem get?_map_key_none {d : Dict (Nat × Nat) ν} (f : Nat × Nat → Nat × Nat) (p : Nat × Nat)
    (h : ∀ q ∈ Dict.keys d, f q ≠ p) : Dict.get? (d.map (fun e => (f e.1, e.2))) p = none := by
  rw [Dict.get?_eq_none_iff]
  unfold Dict.keys at h ⊢
  simp only [List.map_map, List.mem_map, Function.comp, not_exists, not_and]
  intro e he
  exact h e.1 (List.mem_map.2 ⟨e, he, rfl⟩)

theorem vstack_stored {s t u : Sp ν} (hs : s.WF) (ht : t.WF) (h : s.vstack t = .ok u) :
    u.nr = s.nr + t.nr ∧ u.nc = s.nc ∧ s.nc = t.nc ∧ u.WF ∧
      (∀ i j, i < s.nr → u.stored i j = s.stored i j) ∧ ∀ i j, u.stored (s.nr + i) j = t.stored i j := by
  unfold Sp.vstack at h
  split at h
  · next hnc =>
    cases h
    have hinj : Function.Injective (fun p : Nat × Nat => (p.1 + s.nr, p.2)) := by
      rintro ⟨a, b⟩ ⟨c, d⟩ h; simp only [Prod.mk.injEq] at h; ext <;> simp <;> omega
    refine ⟨rfl, rfl, hnc, ⟨?_, ?_⟩, ?_, ?_⟩
    · unfold Dict.WF
      rw [Dict.keys_append]
      refine List.nodup_append.2 ⟨hs.nodup, ?_, ?_⟩
      · have := ht.nodup
        unfold Dict.WF Dict.keys at this
        unfold Dict.keys
        rw [List.map_map]
        have e : (Prod.fst ∘ fun p : (Nat × Nat) × ν => ((p.1.1 + s.nr, p.1.2), p.2)) =
            (fun p : Nat × Nat => (p.1 + s.nr, p.2)) ∘ Prod.fst := rfl
        rw [e, ← List.map_map]
        exact this.map hinj
      · rintro a ha b hb rfl
        have h1 := hs.bound a ha
        unfold Dict.keys at hb
        simp only [List.map_map, List.mem_map, Function.comp] at hb
        obtain ⟨e, _, rfl⟩ := hb
        simp only at h1
        omega
    · intro p hp
      rw [Dict.keys_append, List.mem_append] at hp
      rcases hp with hp | hp
      · have := hs.bound p hp; simp only; omega
      · unfold Dict.keys at hp
        simp only [List.map_map, List.mem_map, Function.comp] at hp
        obtain ⟨e, he, rfl⟩ := hp
        have := ht.bound e.1 (List.mem_map.2 ⟨e, he, rfl⟩)
        simp only
        omega
    · intro i j hi
      unfold Sp.stored
      simp only
      rw [Dict.get?_append, get?_map_key_none (fun p : Nat × Nat => (p.1 + s.nr, p.2)), Option.or_none]
      intro q _ hq
      simp only [Prod.mk.injEq] at hq
      omega
    · intro i j
      unfold Sp.stored
      simp only
      rw [Dict.get?_append]
      have e1 : Dict.get? s.data (s.nr + i, j) = none := stored_none_of_row hs (by omega) j
      rw [e1, Option.none_or]
      have := get?_map_key (d := t.data) (fun p : Nat × Nat => (p.1 + s.nr, p.2)) hinj (i, j)
      simpa [Nat.add_comm] using this
  · cases h

theorem hstack_eq (s t : Sp ν) : s.hstack t = (s.transpose.vstack t.transpose).map Sp.transpose := by
  obtain ⟨f, a, b, d⟩ := s
  obtain ⟨g, a', b', d'⟩ := t
  unfold Sp.hstack Sp.vstack
  by_cases h : a = a'
  · subst h
    simp only [Sp.transpose, if_true, Except.map, List.map_append, List.map_map, Function.comp_def]
    cases f <;> cases g <;> simp
  · simp [Sp.transpose, h, Except.map]

theorem hstack_stored {s t u : Sp ν} (hs : s.WF) (ht : t.WF) (h : s.hstack t = .ok u) :
    u.nr = s.nr ∧ u.nc = s.nc + t.nc ∧ s.nr = t.nr ∧ u.WF ∧
      (∀ i j, j < s.nc → u.stored i j = s.stored i j) ∧ ∀ i j, u.stored i (s.nc + j) = t.stored i j := by
  rw [hstack_eq] at h
  cases hv : s.transpose.vstack t.transpose with
  | error e => rw [hv] at h; cases h
  | ok v =>
    rw [hv] at h
    cases h
    obtain ⟨h1, h2, h3, h4, h5, h6⟩ := vstack_stored (WF_transpose hs) (WF_transpose ht) hv
    refine ⟨h2, h1, h3, WF_transpose h4, ?_, ?_⟩
    · intro i j hj
      rw [stored_transpose, h5 j i hj, stored_transpose]
    · intro i j
      rw [stored_transpose]
      have := h6 j i
      rw [stored_transpose] at this
      exact this

/-- **C24** (concatenating rows) for sparse matrices with the same columns: the rows of the second follow those of the
first; the entry for a row name of either matrix is the entry of that matrix (the row names being disjoint). -/
theorem C24_concatRows_partial [Zero ν] [AllClose ν] {m t : Mtx κ ν} (hm : Valid m) (ht : Valid t) {a b : Sp ν}
    (ha : m.body = .sp a) (hb : t.body = .sp b) (hcols : m.cols = t.cols) (hdis : ∀ r ∈ m.rows, r ∉ t.rows) :
    ∃ u, concatRows m t = .ok u ∧ u.rows = m.rows ++ t.rows ∧ u.cols = m.cols ∧ Valid u ∧
      (∀ r ∈ m.rows, ∀ c, entry u r c = entry m r c) ∧ (∀ r ∈ t.rows, ∀ c, entry u r c = entry t r c) ∧
      (IsCsr m → IsCsr t → IsCsr u) := by
  have hnr := hm.nr; have hnc := hm.nc; have hnr' := ht.nr; have hnc' := ht.nc
  rw [ha] at hnr hnc; rw [hb] at hnr' hnc'
  simp only [Body.nr, Body.nc] at hnr hnc hnr' hnc'
  have hv : ∃ u, a.vstack b = .ok u ∧ (a.fmt = .csr → b.fmt = .csr → u.fmt = .csr) := by
    unfold Sp.vstack
    rw [if_pos (by rw [hnc, hnc', hcols])]
    exact ⟨_, rfl, by intro h1 h2; simp [h1, h2]⟩
  obtain ⟨u, hu, huf⟩ := hv
  obtain ⟨h1, h2, h3, h4, h5, h6⟩ := vstack_stored (hm.sp a ha) (ht.sp b hb) hu
  have e1 : u.nr = (m.rows ++ t.rows).length := by simp [h1, hnr, hnr']
  have e2 : u.nc = m.cols.length := by rw [h2, hnc]
  have hnd : (m.rows ++ t.rows).Nodup :=
    List.nodup_append.2 ⟨hm.rows, ht.rows, by rintro x hx y hy rfl; exact hdis x hx hy⟩
  refine ⟨⟨.sp u, m.rows ++ t.rows, m.cols⟩, ?_, rfl, rfl, ⟨e1, e2, hnd, hm.cols, ?_⟩, ?_, ?_, ?_⟩
  · unfold concatRows bodyVcat
    rw [ha, hb]
    simp only [hu, Except.map, bind, Except.bind]
    rw [if_neg (by simpa using hcols), mkMtx_sp e1 e2]
  · intro s hs; cases hs; exact h4
  · intro r hr c
    by_cases hcm : c ∈ m.cols
    · obtain ⟨i, hi⟩ := getElem?_of_mem' hr
      obtain ⟨j, hj⟩ := getElem?_of_mem' hcm
      have hlt := lt_of_getElem? hi
      rw [entry_of (m := ⟨.sp u, m.rows ++ t.rows, m.cols⟩) hnd hm.cols
        (by rw [List.getElem?_append_left hlt]; exact hi) hj, entry_of hm.rows hm.cols hi hj, ha]
      simp only [Body.val, Sp.val, h5 i j (by omega)]
    · rw [entry_col_absent (m := ⟨.sp u, m.rows ++ t.rows, m.cols⟩) r hcm, entry_col_absent r hcm]
  · intro r hr c
    by_cases hcm : c ∈ m.cols
    · obtain ⟨i, hi⟩ := getElem?_of_mem' hr
      obtain ⟨j, hj⟩ := getElem?_of_mem' hcm
      rw [entry_of (m := ⟨.sp u, m.rows ++ t.rows, m.cols⟩) hnd hm.cols (i := a.nr + i)
        (by rw [hnr, List.getElem?_append_right (by omega)]; simpa using hi) hj,
        entry_of ht.rows ht.cols hi (hcols ▸ hj), hb]
      simp only [Body.val, Sp.val, h6 i j]
    · rw [entry_col_absent (m := ⟨.sp u, m.rows ++ t.rows, m.cols⟩) r hcm, entry_col_absent r (hcols ▸ hcm)]
  · rintro ⟨a', ha', hfa⟩ ⟨b', hb', hfb⟩
    rw [ha] at ha'; cases ha'
    rw [hb] at hb'; cases hb'
    exact ⟨u, rfl, huf hfa hfb⟩

/-- **C24** (concatenating columns) for sparse matrices with the same rows. -/
theorem C24_concatCols_partial [Zero ν] [AllClose ν] {m t : Mtx κ ν} (hm : Valid m) (ht : Valid t) {a b : Sp ν}
    (ha : m.body = .sp a) (hb : t.body = .sp b) (hrows : m.rows = t.rows) (hdis : ∀ r ∈ m.cols, r ∉ t.cols) :
    ∃ u, concatCols m t = .ok u ∧ u.rows = m.rows ∧ u.cols = m.cols ++ t.cols ∧ Valid u ∧
      (∀ r, ∀ c ∈ m.cols, entry u r c = entry m r c) ∧ (∀ r, ∀ c ∈ t.cols, entry u r c = entry t r c) := by
  have hnr := hm.nr; have hnc := hm.nc; have hnr' := ht.nr; have hnc' := ht.nc
  rw [ha] at hnr hnc; rw [hb] at hnr' hnc'
  simp only [Body.nr, Body.nc] at hnr hnc hnr' hnc'
  have hv : ∃ u, a.hstack b = .ok u := by
    unfold Sp.hstack
    rw [if_pos (by rw [hnr, hnr', hrows])]
    exact ⟨_, rfl⟩
  obtain ⟨u, hu⟩ := hv
  obtain ⟨h1, h2, h3, h4, h5, h6⟩ := hstack_stored (hm.sp a ha) (ht.sp b hb) hu
  have e1 : u.nr = m.rows.length := by rw [h1, hnr]
  have e2 : u.nc = (m.cols ++ t.cols).length := by simp [h2, hnc, hnc']
  have hnd : (m.cols ++ t.cols).Nodup :=
    List.nodup_append.2 ⟨hm.cols, ht.cols, by rintro x hx y hy rfl; exact hdis x hx hy⟩
  refine ⟨⟨.sp u, m.rows, m.cols ++ t.cols⟩, ?_, rfl, rfl, ⟨e1, e2, hm.rows, hnd, ?_⟩, ?_, ?_⟩
  · unfold concatCols bodyHcat
    rw [ha, hb]
    simp only [hu, Except.map, bind, Except.bind]
    rw [if_neg (by simpa using hrows), mkMtx_sp e1 e2]
  · intro s hs; cases hs; exact h4
  · intro r c hcm
    by_cases hr : r ∈ m.rows
    · obtain ⟨i, hi⟩ := getElem?_of_mem' hr
      obtain ⟨j, hj⟩ := getElem?_of_mem' hcm
      have hlt := lt_of_getElem? hj
      rw [entry_of (m := ⟨.sp u, m.rows, m.cols ++ t.cols⟩) hm.rows hnd hi
        (by rw [List.getElem?_append_left hlt]; exact hj), entry_of hm.rows hm.cols hi hj, ha]
      simp only [Body.val, Sp.val, h5 i j (by omega)]
    · rw [entry_row_absent (m := ⟨.sp u, m.rows, m.cols ++ t.cols⟩) hr, entry_row_absent hr]
  · intro r c hcm
    by_cases hr : r ∈ m.rows
    · obtain ⟨i, hi⟩ := getElem?_of_mem' hr
      obtain ⟨j, hj⟩ := getElem?_of_mem' hcm
      rw [entry_of (m := ⟨.sp u, m.rows, m.cols ++ t.cols⟩) hm.rows hnd (j := a.nc + j) hi
        (by rw [hnc, List.getElem?_append_right (by omega)]; simpa using hj),
        entry_of ht.rows ht.cols (hrows ▸ hi) hj, hb]
      simp only [Body.val, Sp.val, h6 i j]
    · rw [entry_row_absent (m := ⟨.sp u, m.rows, m.cols ++ t.cols⟩) hr, entry_row_absent (hrows ▸ hr)]

/-- **C24** fails after concatenating the columns of two csr matrices: no entry of the result can be read. -/
theorem C24_false_concatCols_read [Zero ν] [AllClose ν] {m t u : Mtx κ ν} (hcm : IsCsr m) (hct : IsCsr t)
    (h : concatCols m t = .ok u) (r c : κ) (hr : r ∈ u.rows) (hc : c ∈ u.cols) :
    getValue u r c = .error .typeError := by
  obtain ⟨a, ha, hfa⟩ := hcm
  obtain ⟨b, hb, hfb⟩ := hct
  obtain ⟨i, hi⟩ := idOf_isSome hr
  obtain ⟨j, hj⟩ := idOf_isSome hc
  unfold concatCols bodyHcat Sp.hstack at h
  rw [ha, hb] at h
  simp only [hfa, hfb] at h
  by_cases hn : a.nr = b.nr
  · rw [if_pos hn, if_neg (by decide)] at h
    simp only [Except.map, bind, Except.bind] at h
    split at h
    · cases h
    · obtain ⟨h1, _, _⟩ := mkMtx_inv h
      unfold getValue
      rw [hi, hj, h1]
      simp
  · simp [hn, Except.map, bind, Except.bind] at h

/-- **C24** (refusal): concatenating rows of matrices with different columns is an error. -/
theorem C24_concat_refuses [AllClose ν] (m t : Mtx κ ν) (h : m.cols ≠ t.cols) : ∃ e, concatRows m t = .error e := by
  unfold concatRows
  cases bodyVcat m.body t.body with
  | error e => exact ⟨e, rfl⟩
  | ok b => exact ⟨.assertionError, by simp only [bind, Except.bind, if_pos h]⟩

example : ∃ (m t u v : Mtx Nat Int), Valid m ∧ Valid t ∧ IsCsr m ∧ IsCsr t ∧ m.cols = t.cols ∧ (∀ r ∈ m.rows, r ∉ t.rows) ∧
    concatRows m t = .ok u ∧ entry u 3 6 = 4 ∧ entry u 2 6 = 7 ∧ concatCols m m = .ok v := by
  refine ⟨⟨.sp ⟨.csr, 2, 2, [((1, 1), 7), ((0, 0), 3)]⟩, [1, 2], [5, 6]⟩, ⟨.sp ⟨.csr, 1, 2, [((0, 1), 4)]⟩, [3], [5, 6]⟩,
    ⟨.sp ⟨.csr, 3, 2, [((1, 1), 7), ((0, 0), 3), ((2, 1), 4)]⟩, [1, 2, 3], [5, 6]⟩,
    ⟨.sp ⟨.coo, 2, 4, [((1, 1), 7), ((0, 0), 3), ((1, 3), 7), ((0, 2), 3)]⟩, [1, 2], [5, 6, 5, 6]⟩,
    ⟨rfl, rfl, by decide, by decide, ?_⟩, ⟨rfl, rfl, by decide, by decide, ?_⟩,
    ⟨_, rfl, rfl⟩, ⟨_, rfl, rfl⟩, rfl, by decide, by rfl, by decide, by decide, by rfl⟩
  · intro s hs; cases hs; exact ⟨by decide, by decide⟩
  · intro s hs; cases hs; exact ⟨by decide, by decide⟩

end Verif.Matrix
