import Verif.Matrix.PropsAccess

/-!
# C126, C127: the printed table and the description of a matrix
-/

namespace Verif.Matrix
open Verif.Py
set_option linter.unusedSectionVars false

variable {κ ν : Type} [LinearOrder κ]

/-! ### Specification -/

/-- The items shown: all of them if no number (or 0) is asked for, else the first ones. -/
def firstOf (n : Option Nat) (l : List κ) : List κ :=
  match n with
  | none => l
  | some k => if k = 0 then l else l.take k

/-- What stands in the cell of a row and a column. -/
def shown [Zero ν] (m : Mtx κ ν) (r c : κ) : Cell κ ν :=
  match m.body with
  | .sp _ => match storedEntry m r c with
    | some v => .num v
    | none => .nan
  | .dn _ => .num (entry m r c)

/-- The table for the rows `R` and columns `C`. -/
def tableOf [Zero ν] (m : Mtx κ ν) (R C : List κ) : List (List (Cell κ ν)) :=
  let last : List (Cell κ ν) := if C.length < m.cols.length then [.dots] else []
  let header := (.shape m.rows.length m.cols.length :: C.map .item) ++ last
  let below : List (List (Cell κ ν)) := if R.length < m.rows.length then [header.map (fun _ => .dots)] else []
  header :: R.map (fun r => (.item r :: C.map (shown m r)) ++ last) ++ below

/-! ### Lemmas -/

/-- A table with given first cells and cells. -/
def mkTable (hd : Nat → Cell κ ν) (f : Nat → Nat → Cell κ ν) (k l : Nat) : List (List (Cell κ ν)) :=
  (List.range k).map (fun i => hd i :: (List.range l).map (f i))

theorem putCell_mkTable (hd : Nat → Cell κ ν) (f : Nat → Nat → Cell κ ν) {k l i j : Nat} (hi : i < k) (hj : j < l) (v : ν) :
    putCell (mkTable hd f k l) ((i, j), v) =
      .ok (mkTable hd (fun a b => if (i, j) = (a, b) then .num v else f a b) k l) := by
  unfold putCell
  have h1 : (mkTable hd f k l)[i]? = some (hd i :: (List.range l).map (f i)) := by
    simp [mkTable, hi]
  simp only [h1]
  rw [if_pos (by simp [hj])]
  congr 1
  apply List.ext_getElem?
  intro a
  rw [List.getElem?_set]
  by_cases ha : i = a
  · subst ha
    rw [if_pos rfl, if_pos (by simp [mkTable, hi])]
    simp only [mkTable, List.getElem?_map, List.getElem?_range hi, Option.map_some, List.set_cons_succ]
    congr 2
    apply List.ext_getElem?
    intro b
    rw [List.getElem?_set]
    by_cases hb : j = b
    · subst hb
      rw [if_pos rfl, if_pos (by simp [hj])]
      simp [hj]
    · rw [if_neg hb]
      by_cases hbl : b < l
      · simp [hbl, hb]
      · simp [hbl]
  · rw [if_neg ha]
    by_cases hak : a < k
    · simp [mkTable, hak, ha]
    · simp [mkTable, hak]

theorem fold_putCell (hd : Nat → Cell κ ν) (k l : Nat) (es : Dict (Nat × Nat) ν) (hwf : Dict.WF es)
    (hb : ∀ p ∈ Dict.keys es, p.1 < k ∧ p.2 < l) (f : Nat → Nat → Cell κ ν) :
    es.foldlM putCell (mkTable hd f k l) =
      .ok (mkTable hd (fun a b => match Dict.get? es (a, b) with | some v => .num v | none => f a b) k l) := by
  induction es generalizing f with
  | nil => rfl
  | cons e es ih =>
    obtain ⟨⟨i, j⟩, v⟩ := e
    have h0 := hb (i, j) (by simp [Dict.keys])
    have hwf' : Dict.WF es := by
      unfold Dict.WF Dict.keys at hwf ⊢
      exact (List.nodup_cons.1 hwf).2
    have hnot : Dict.get? es (i, j) = none := by
      rw [Dict.get?_eq_none_iff]
      unfold Dict.WF Dict.keys at hwf
      exact (List.nodup_cons.1 hwf).1
    rw [List.foldlM_cons, putCell_mkTable hd f h0.1 h0.2]
    show es.foldlM putCell _ = _
    rw [ih hwf' (fun p hp => hb p (by simp only [Dict.keys, List.map_cons, List.mem_cons] at hp ⊢; exact Or.inr hp))]
    congr 2
    funext a b
    rw [Dict.get?_cons]
    by_cases hab : (i, j) = (a, b)
    · rw [if_pos hab, ← hab, hnot]
      obtain ⟨rfl, rfl⟩ := Prod.mk.inj hab
      simp
    · simp only [if_neg hab]

theorem clampEnd_of_le {n k : Nat} (h : k ≤ n) : clampEnd n (k : Int) = k := by
  unfold clampEnd
  rw [if_neg (by omega)]
  omega

/-- The number of rows or columns shown. -/
theorem shownCount_spec (n : Option Nat) (l : List κ) :
    shownCount (n.map Int.ofNat) l.length = ((firstOf n l).length : Int) ∧
    firstOf n l = l.take (firstOf n l).length ∧ (firstOf n l).length ≤ l.length := by
  cases n with
  | none => simp [shownCount, firstOf]
  | some k =>
    by_cases hk : k = 0
    · subst hk; simp [shownCount, firstOf]
    · simp only [shownCount, firstOf, Option.map_some, if_neg hk]
      rw [if_neg (by simp; omega)]
      simp [List.length_take]

theorem take_at (l : List κ) (k : Nat) (h : k ≤ l.length) : At l (List.range k) (l.take k) := by
  unfold At
  rw [List.forall₂_iff_get]
  refine ⟨by simp; omega, ?_⟩
  intro i h1 h2
  simp only [List.get_eq_getElem, List.getElem_range, List.getElem_take]
  rw [List.getElem?_eq_getElem]

theorem dotRow_spec (cut : Bool) (h : List (Cell κ ν)) (t : List (List (Cell κ ν))) :
    dotRow cut (h :: t) = (h :: t) ++ (if cut then [h.map (fun _ => .dots)] else []) := by
  unfold dotRow
  cases cut
  · simp
  · simp [List.map_const']

theorem content_spec [Zero ν] {m : Mtx κ ν} (hm : Valid m) {k l : Nat} (hk : k ≤ m.rows.length) (hl : l ≤ m.cols.length) :
    content m.body m.rows k l =
      .ok ((m.rows.take k).map (fun r => .item r :: (m.cols.take l).map (shown m r))) := by
  have hR := take_at m.rows k hk
  have hC := take_at m.cols l hl
  cases hb : m.body with
  | sp s =>
    have hnr : s.nr = m.rows.length := by have := hm.nr; rw [hb] at this; exact this
    have hnc : s.nc = m.cols.length := by have := hm.nc; rw [hb] at this; exact this
    have hwf := hm.sp s hb
    let hd : Nat → Cell κ ν := fun i => match m.rows[i]? with | some r => .item r | none => .nan
    have h1 : (List.range k).mapM (emptyRow (ν := ν) m.rows (l : Int)) = .ok (mkTable hd (fun _ _ => .nan) k l) := by
      apply mapM_ok_of
      intro i hi
      have hi := List.mem_range.1 hi
      have hri : m.rows[i]? = some (m.rows[i]'(by omega)) := List.getElem?_eq_getElem (by omega)
      unfold emptyRow
      simp only [hri, hd]
      simp [List.map_const']
    have hes : ∀ p, Dict.get? (shownEntries s (k : Int) (l : Int)) p =
        if p.1 < k ∧ p.2 < l then s.data.get? p else none := by
      intro p
      unfold shownEntries
      rw [hnr, hnc, clampEnd_of_le hk, clampEnd_of_le hl, Dict.get?_filter hwf.nodup]
      cases hg : s.data.get? p with
      | none => by_cases hp : p.1 < k ∧ p.2 < l <;> simp [hp]
      | some v => by_cases hp : p.1 < k ∧ p.2 < l <;> simp [hp]
    have hbd : ∀ p ∈ Dict.keys (shownEntries s (k : Int) (l : Int)), p.1 < k ∧ p.2 < l := by
      intro p hp
      by_contra hc
      have h := hes p
      rw [if_neg hc, Dict.get?_eq_none_iff] at h
      exact h hp
    have h2 := fold_putCell hd k l (shownEntries s (k : Int) (l : Int))
      (by unfold shownEntries; exact Dict.WF_filter hwf.nodup _) hbd (fun _ _ => .nan)
    unfold content spContent
    simp only [Int.toNat_natCast]
    rw [h1]
    show (shownEntries s (k : Int) (l : Int)).foldlM putCell _ = _
    rw [h2]
    congr 1
    unfold mkTable
    have hrow : ∀ i r, m.rows[i]? = some r → i < k →
        (hd i :: (List.range l).map (fun b => match Dict.get? (shownEntries s (k : Int) (l : Int)) (i, b) with
          | some v => (Cell.num v : Cell κ ν) | none => .nan)) =
        .item r :: (m.cols.take l).map (shown m r) := by
      intro i r hi hik
      congr 1
      · simp only [hd, hi]
      · refine at_map (items := m.cols.take l) ?_ ?_
        · have := at_all (m.cols.take l)
          rw [List.length_take, Nat.min_eq_left hl] at this
          exact this
        intro j c hj
        have hjl := lt_of_getElem? hj
        rw [List.length_take, Nat.min_eq_left hl] at hjl
        rw [List.getElem?_take, if_pos hjl] at hj
        rw [hes, if_pos ⟨hik, hjl⟩]
        unfold shown
        rw [hb]
        simp only
        rw [storedEntry_of hm.rows hm.cols hb hi hj]
        rfl
    refine at_map (items := m.rows.take k) ?_ ?_
    · have := at_all (m.rows.take k)
      rw [List.length_take, Nat.min_eq_left hk] at this
      exact this
    intro i r hi
    have hik := lt_of_getElem? hi
    rw [List.length_take, Nat.min_eq_left hk] at hik
    rw [List.getElem?_take, if_pos hik] at hi
    exact hrow i r hi hik
  | dn d =>
    have hnr : d.nr = m.rows.length := by have := hm.nr; rw [hb] at this; exact this
    have hnc : d.nc = m.cols.length := by have := hm.nc; rw [hb] at this; exact this
    unfold content dnContent
    simp only
    rw [hnr, clampEnd_of_le hk]
    let g : Nat → List (Cell κ ν) := fun i => match m.rows[i]? with
      | some r => .item r :: (m.cols.take l).map (shown m r)
      | none => []
    have h1 : (List.range k).mapM (dnRow d m.rows (l : Int)) = .ok ((List.range k).map g) := by
      apply mapM_ok_of
      intro i hi
      have hi := List.mem_range.1 hi
      have hri : m.rows[i]? = some (m.rows[i]'(by omega)) := List.getElem?_eq_getElem (by omega)
      unfold dnRow
      simp only [hri, g]
      rw [hnc, clampEnd_of_le hl]
      congr 2
      refine at_map hC ?_
      intro j c hj
      unfold shown
      rw [hb]
      simp only
      rw [entry_of hm.rows hm.cols hri hj, hb]
      rfl
    rw [h1]
    congr 1
    refine at_map hR ?_
    intro i r hi
    simp only [g, hi]

/-! ### C126 -/

/-- **C126** (what is shown).  The printed table has the shape and the column items shown in its first line, one line per
row shown with its item first, in each cell the stored number — of a sparse matrix `NaN` where nothing is stored —,
a last column of dots exactly if columns are left out, and a last line of dots exactly if rows are left out.  Without a
number, or with 0, everything is shown. -/
theorem C126_table_partial [Zero ν] {m : Mtx κ ν} (hm : Valid m) (n_rows n_cols : Option Nat) :
    printTable m (n_rows.map Int.ofNat) (n_cols.map Int.ofNat) =
      .ok (tableOf m (firstOf n_rows m.rows) (firstOf n_cols m.cols)) := by
  obtain ⟨a1, a2, a3⟩ := shownCount_spec n_rows m.rows
  obtain ⟨b1, b2, b3⟩ := shownCount_spec n_cols m.cols
  unfold printTable
  rw [hm.nr, hm.nc, a1, b1]
  simp only [content_spec hm a3 b3, bind, Except.bind]
  rw [← a2, ← b2]
  have hup : upTo m.cols ((firstOf n_cols m.cols).length : Int) = firstOf n_cols m.cols := by
    unfold upTo
    rw [clampEnd_of_le b3, ← b2]
  rw [hup]
  congr 1
  unfold tableOf dotCols
  by_cases hc : (firstOf n_cols m.cols).length < m.cols.length <;>
    by_cases hr : (firstOf n_rows m.rows).length < m.rows.length <;>
    simp [hc, hr, dotRow_spec, List.map_map, Function.comp_def]

/-- **C126** (`NaN` is not a value).  In the printed table of a sparse matrix a cell reads `NaN` exactly where nothing is
stored, and there the matrix's entry is 0; in the table of an array no cell reads `NaN`. -/
theorem C126_nan_is_zero [Zero ν] (m : Mtx κ ν) (r c : κ) :
    (∀ s, m.body = .sp s → (shown m r c = .nan ↔ storedEntry m r c = none) ∧ (shown m r c = .nan → entry m r c = 0)) ∧
    (∀ s, m.body = .sp s → shown m r c ≠ .nan → shown m r c = .num (entry m r c)) ∧
    (∀ d, m.body = .dn d → shown m r c = .num (entry m r c)) := by
  refine ⟨?_, ?_, ?_⟩
  · intro s hb
    rw [entry_eq_stored hb]
    unfold shown
    rw [hb]
    cases hs : storedEntry m r c with
    | none => simp
    | some v => simp
  · intro s hb h
    rw [entry_eq_stored hb]
    unfold shown at h ⊢
    rw [hb] at h ⊢
    cases hs : storedEntry m r c with
    | none => rw [hs] at h; exact absurd rfl h
    | some v => rfl
  · intro d hb
    unfold shown
    rw [hb]

/-- The claim as a user would make it — the table shows the entries of the matrix — is false: the entry is 0, the table
says `NaN`, and an array with the same entries says 0. -/
theorem C126_counterexample :
    entry accSp 10 5 = 0 ∧ shown accSp 10 5 = .nan ∧ shown accDn 10 5 = .num 0 ∧
    printTable accSp (some 1) (some 2) =
      .ok [[.shape 2 3, .item 5, .item 6, .dots], [.item 10, .nan, .num 4, .dots], [.dots, .dots, .dots, .dots]] ∧
    printTable accDn (some 1) (some 2) =
      .ok [[.shape 2 3, .item 5, .item 6, .dots], [.item 10, .num 0, .num 4, .dots], [.dots, .dots, .dots, .dots]] := by
  decide +kernel

/-- **C126** (negative numbers).  A negative number of rows leaves that many rows out for an array, but for a sparse
matrix it fails with `IndexError` as soon as something is stored in the rows and columns that would be shown. -/
theorem C126_negative {m : Mtx κ ν} {s : Sp ν} (hb : m.body = .sp s) {z : Int} (hz : z < 0) (n_cols : Option Int)
    {i j : Nat} (hstored : s.stored i j ≠ none) (hi : (i : Int) < s.nr + z)
    (hj : j < clampEnd s.nc (shownCount n_cols s.nc)) :
    printTable m (some z) n_cols = .error .indexError := by
  unfold printTable
  rw [hb]
  have h0 : shownCount (some z) s.nr = z := by
    unfold shownCount
    simp only
    rw [if_neg (by omega)]
    omega
  simp only [Body.nr, Body.nc, h0]
  unfold content spContent
  have h1 : z.toNat = 0 := by omega
  simp only [h1, List.range_zero, List.mapM_nil, pure, Except.pure, bind, Except.bind]
  have hne : shownEntries s z (shownCount n_cols s.nc) ≠ [] := by
    intro he
    unfold Sp.stored at hstored
    cases hg : s.data.get? (i, j) with
    | none => exact hstored hg
    | some v =>
      have hmem := Dict.mem_of_get? hg
      have : ((i, j), v) ∈ shownEntries s z (shownCount n_cols s.nc) := by
        unfold shownEntries
        refine List.mem_filter.2 ⟨hmem, ?_⟩
        have : clampEnd s.nr z = (z + s.nr).toNat := by unfold clampEnd; rw [if_pos hz]
        simp only [this, decide_eq_true_eq]
        exact ⟨by omega, hj⟩
      rw [he] at this
      cases this
  cases he : shownEntries s z (shownCount n_cols s.nc) with
  | nil => exact absurd he hne
  | cons e es => rfl

/-- The hypotheses are met, and an array behaves otherwise. -/
example : printTable accSp (some (-1)) none = .error .indexError ∧
    printTable accDn (some (-1)) none =
      .ok [[.shape 2 3, .item 5, .item 6, .item 7], [.item 10, .num 0, .num 4, .num 0], [.dots, .dots, .dots, .dots]] :=
  ⟨C126_negative (m := accSp) (z := -1) (s := { fmt := .csr, nr := 2, nc := 3, data := [((0, 1), 4), ((1, 0), 1), ((1, 1), 2), ((1, 2), 3)] }) rfl
    (by decide) none (i := 0) (j := 1) (by decide) (by decide) (by decide), by decide +kernel⟩

example : Valid accSp ∧ (10 ∈ accSp.rows) ∧ 5 ∈ accSp.cols ∧
    tableOf accSp (firstOf (some 1) accSp.rows) (firstOf none accSp.cols) =
      [[.shape 2 3, .item 5, .item 6, .item 7], [.item 10, .nan, .num 4, .nan], [.dots, .dots, .dots, .dots]] :=
  ⟨accSp_valid, by decide, by decide, by decide +kernel⟩

/-! ### C127 -/

/-- The number of cells of a matrix that are not zero, by name. -/
noncomputable def nonzeroCells [Zero ν] (m : Mtx κ ν) : Nat := by
  classical
  exact ((m.rows.flatMap (fun r => m.cols.map (fun c => (r, c)))).filter (fun p => decide (entry m p.1 p.2 ≠ 0))).length

/-- The number of cells of a matrix at which something is stored, by name. -/
def storedCells (m : Mtx κ ν) : Nat :=
  ((m.rows.flatMap (fun r => m.cols.map (fun c => (r, c)))).filter (fun p => (storedEntry m p.1 p.2).isSome)).length

theorem pairs_nodup (R C : List κ) (hR : R.Nodup) (hC : C.Nodup) :
    (R.flatMap (fun r => C.map (fun c => (r, c)))).Nodup := by
  rw [List.nodup_flatMap]
  refine ⟨fun r _ => hC.map (fun a b h => (Prod.mk.inj h).2), ?_⟩
  refine hR.imp ?_
  intro a b hab
  rw [Function.onFun, List.disjoint_left]
  intro p hp hq
  obtain ⟨c, _, rfl⟩ := List.mem_map.1 hp
  obtain ⟨c', _, h⟩ := List.mem_map.1 hq
  exact hab (Prod.mk.inj h).1.symm

theorem storedCells_eq {m : Mtx κ ν} (hm : Valid m) {s : Sp ν} (hb : m.body = .sp s) : storedCells m = s.data.length := by
  have hnr : s.nr = m.rows.length := by have := hm.nr; rw [hb] at this; exact this
  have hnc : s.nc = m.cols.length := by have := hm.nc; rw [hb] at this; exact this
  have hwf := hm.sp s hb
  let f : (Nat × Nat) → Option (κ × κ) := fun p => match m.rows[p.1]?, m.cols[p.2]? with
    | some r, some c => some (r, c)
    | _, _ => none
  have hkeys : s.data.length = (Dict.keys s.data).length := by simp [Dict.keys]
  have hloc : ∀ p ∈ Dict.keys s.data, ∃ r c, m.rows[p.1]? = some r ∧ m.cols[p.2]? = some c := by
    intro p hp
    obtain ⟨h1, h2⟩ := hwf.bound p hp
    exact ⟨_, _, List.getElem?_eq_getElem (by omega), List.getElem?_eq_getElem (by omega)⟩
  have hinj : ((Dict.keys s.data).map f).Nodup := by
    refine List.Nodup.map_on ?_ hwf.nodup
    intro p hp q hq h
    obtain ⟨r, c, h1, h2⟩ := hloc p hp
    obtain ⟨r', c', h3, h4⟩ := hloc q hq
    simp only [f, h1, h2, h3, h4, Option.some.injEq, Prod.mk.injEq] at h
    obtain ⟨rfl, rfl⟩ := h
    exact Prod.ext (getElem?_inj_of_nodup hm.rows h1 h3) (getElem?_inj_of_nodup hm.cols h2 h4)
  rw [hkeys, ← List.length_map (f := f)]
  unfold storedCells
  rw [← List.length_map (f := some)]
  refine (List.perm_ext_iff_of_nodup ?_ hinj).2 ?_ |>.length_eq
  · exact (List.Nodup.filter _ (pairs_nodup _ _ hm.rows hm.cols)).map (fun a b h => Option.some.inj h)
  · intro o
    rw [List.mem_map, List.mem_map]
    constructor
    · rintro ⟨⟨r, c⟩, hp, rfl⟩
      rw [List.mem_filter] at hp
      obtain ⟨hmem, hst⟩ := hp
      obtain ⟨r', hr, h'⟩ := List.mem_flatMap.1 hmem
      obtain ⟨c', hcc, h12⟩ := List.mem_map.1 h'
      obtain ⟨rfl, rfl⟩ := Prod.mk.inj h12
      obtain ⟨i, hi⟩ := getElem?_of_mem' hr
      obtain ⟨j, hj⟩ := getElem?_of_mem' hcc
      simp only at hst
      rw [storedEntry_of hm.rows hm.cols hb hi hj] at hst
      refine ⟨(i, j), ?_, by simp [f, hi, hj]⟩
      rw [← Dict.get?_isSome_iff]
      exact hst
    · rintro ⟨p, hp, rfl⟩
      obtain ⟨r, c, h1, h2⟩ := hloc p hp
      refine ⟨(r, c), ?_, by simp [f, h1, h2]⟩
      rw [List.mem_filter]
      refine ⟨?_, ?_⟩
      · simp only [List.mem_flatMap, List.mem_map]
        exact ⟨r, List.mem_of_getElem? h1, c, List.mem_of_getElem? h2, rfl⟩
      · simp only
        rw [storedEntry_of hm.rows hm.cols hb h1 h2]
        exact (Dict.get?_isSome_iff _ _).2 hp

/-- **C127** (what `describe` reports).  For a matrix with at least one row and one column it reports the shape, whether
the matrix is sparse, and as number of elements and as density the number of stored cells of a sparse matrix, and all
cells of an array (whose density is thus always 100). -/
theorem C127_partial [Zero ν] {m : Mtx κ ν} (hm : Valid m) (hr : m.rows ≠ []) (hc : m.cols ≠ []) :
    (∀ s, m.body = .sp s → describe m = some (m.rows.length, m.cols.length, true, storedCells m,
      ((storedCells m * 100 : Nat) : ℚ) / ((m.rows.length * m.cols.length : Nat) : ℚ))) ∧
    (∀ d, m.body = .dn d → describe m = some (m.rows.length, m.cols.length, false, m.rows.length * m.cols.length, 100)) := by
  have h0 : m.rows.length * m.cols.length ≠ 0 := by
    simp [List.length_eq_zero_iff, hr, hc]
  constructor
  · intro s hb
    rw [storedCells_eq hm hb]
    unfold describe
    rw [hm.nr, hm.nc, if_neg h0, hb]
  · intro d hb
    have hnr : d.nr = m.rows.length := by have := hm.nr; rw [hb] at this; exact this
    have hnc : d.nc = m.cols.length := by have := hm.nc; rw [hb] at this; exact this
    unfold describe
    rw [hm.nr, hm.nc, if_neg h0, hb]
    simp only [hnr, hnc]
    have hq : ((m.rows.length * m.cols.length : Nat) : ℚ) ≠ 0 := by exact_mod_cast h0
    have : ((m.rows.length * m.cols.length * 100 : Nat) : ℚ) / ((m.rows.length * m.cols.length : Nat) : ℚ) = 100 := by
      rw [Nat.cast_mul, mul_div_assoc, mul_comm, div_mul_cancel₀ _ hq]
      norm_num
    rw [this]

/-- **C127** (matrices without cells).  `describe` divides by zero. -/
theorem C127_empty (m : Mtx κ ν) (hm : Valid m) : describe m = none ↔ m.rows = [] ∨ m.cols = [] := by
  unfold describe
  rw [hm.nr, hm.nc]
  by_cases h : m.rows.length * m.cols.length = 0
  · rw [if_pos h]
    simpa [List.length_eq_zero_iff] using h
  · rw [if_neg h]
    simpa [List.length_eq_zero_iff] using h

/-- The claim as a user would make it — the density is the share of the cells that are not zero — is false for arrays and
for sparse matrices that store zeros. -/
theorem C127_counterexample :
    ∃ m t : Mtx Nat Int, Valid m ∧ Valid t ∧ (∀ r ∈ m.rows, ∀ c ∈ m.cols, entry m r c = 0) ∧
      (∀ r ∈ t.rows, ∀ c ∈ t.cols, entry t r c = 0) ∧
      describe m = some (1, 2, true, 1, 50) ∧ describe t = some (1, 2, false, 2, 100) := by
  refine ⟨⟨.sp { fmt := .csr, nr := 1, nc := 2, data := [((0, 0), 0)] }, [10], [5, 6]⟩,
    ⟨.dn { nr := 1, nc := 2, elem := fun _ _ => 0 }, [10], [5, 6]⟩, ⟨rfl, rfl, by decide, by decide, ?_⟩,
    ⟨rfl, rfl, by decide, by decide, fun s hs => by cases hs⟩, by decide +kernel, by decide +kernel, ?_, ?_⟩
  · intro s hs; cases hs; exact ⟨by unfold Dict.WF; decide, by decide⟩
  · unfold describe; norm_num [Body.nr, Body.nc]
  · unfold describe; norm_num [Body.nr, Body.nc]

/-- Where a sparse matrix stores no zeros the density is the share of the cells that are not zero. -/
theorem C127_nonzero_partial [Zero ν] {m : Mtx κ ν} {s : Sp ν} (hb : m.body = .sp s)
    (hz : ∀ r c, storedEntry m r c ≠ some 0) : storedCells m = nonzeroCells m := by
  classical
  unfold storedCells nonzeroCells
  congr 1
  apply List.filter_congr
  rintro ⟨r, c⟩ _
  simp only
  rw [entry_eq_stored hb]
  cases h : storedEntry m r c with
  | none => simp
  | some v =>
    have := hz r c
    rw [h] at this
    simp only [Option.isSome_some, Option.getD_some]
    symm
    rw [decide_eq_true_iff]
    intro h0
    exact this (by rw [h0])

example : Valid accSp ∧ accSp.rows ≠ [] ∧ accSp.cols ≠ [] ∧ (∀ r ∈ accSp.rows, ∀ c ∈ accSp.cols, storedEntry accSp r c ≠ some 0) ∧
    storedCells accSp = 4 :=
  ⟨accSp_valid, by decide, by decide, by decide +kernel, by decide +kernel⟩

end Verif.Matrix
