import Verif.Matrix.Csv
import Verif.Matrix.Named
import Mathlib.Data.List.ProdSigma

/-! # Property theorems C158 (text tables) -/

set_option linter.unusedSectionVars false

namespace Verif.Matrix.Csv
open Verif.Py Verif.Matrix

variable {ν : Type}

/-! ### Specification -/

/-- What is trusted of pandas: numbers and `nan` that are written in a column are read back, and header names that differ
are kept. -/
structure Faithful (P : Pandas ν) : Prop where
  column : ∀ l : List (Cell ν), (∀ s, Cell.text s ∉ l) → P.infer (l.map P.field) = l
  header : ∀ l : List Txt, l.Nodup → P.mangle l = l
  fill : ∀ s, P.fill ≠ .text s

/-- The names of a matrix that come back: the row names do not look like numbers or missing values to pandas, no column name is
empty or `Unnamed: 0`. -/
structure PlainNames (P : Pandas ν) (m : Mtx Txt ν) : Prop where
  rows : P.infer m.rows = m.rows.map .text
  cols : m.cols.Nodup
  empty : [] ∉ m.cols
  unnamed : "Unnamed: 0".toList ∉ m.cols

/-- The shape of the array is that of the names. -/
def Shaped (m : Mtx Txt ν) : Prop := m.body.nr = m.rows.length ∧ m.body.nc = m.cols.length

/-- A name as it is read. -/
def asText (s : Txt) : Lbl ν := .of (.text s)

/-! ### Lemmas -/

theorem cellOf_notext {P : Pandas ν} (hP : Faithful P) (b : Body ν) (i j : Nat) (s : Txt) : cellOf P b i j ≠ .text s := by
  unfold cellOf
  cases b with
  | sp t =>
    simp only
    cases t.stored i j with
    | none => exact hP.fill s
    | some v => simp
  | dn d => simp

theorem zipIdx_snd {α β : Type} (l : List α) (g : Nat → β) : l.zipIdx.map (fun p => g p.2) = (List.range l.length).map g := by
  apply List.ext_getElem
  · simp
  · intro i h1 h2
    simp

theorem zipIdx_fst {α : Type} (l : List α) : l.zipIdx.map (fun p => p.1) = l := by
  apply List.ext_getElem
  · simp
  · intro i h1 h2
    simp

theorem line_length (P : Pandas ν) (f : Frame Txt ν) (b : Bool) (r : Txt) (i : Nat) :
    (line P f b r i).length = (if b then 1 else 0) + f.columns.length := by
  unfold line
  cases b <;> simp
  omega

theorem line_zero (P : Pandas ν) (f : Frame Txt ν) (r : Txt) (i : Nat) : (line P f true r i).getD 0 [] = r := rfl

theorem line_succ (P : Pandas ν) (f : Frame Txt ν) (r : Txt) (i : Nat) {j : Nat} (hj : j < f.columns.length) :
    (line P f true r i).getD (j + 1) [] = P.field (f.cell i j) := by
  unfold line
  simp [List.getD, hj]

theorem line_plain (P : Pandas ν) (f : Frame Txt ν) (r : Txt) (i : Nat) {j : Nat} (hj : j < f.columns.length) :
    (line P f false r i).getD j [] = P.field (f.cell i j) := by
  unfold line
  simp [List.getD, hj]

/-- The lines below the header. -/
def bodyLines (P : Pandas ν) (m : Mtx Txt ν) (b : Bool) : List (List Txt) :=
  m.rows.zipIdx.map (fun p => line P (dataframe P m) b p.1 p.2)

theorem toCsv_eq (P : Pandas ν) (m : Mtx Txt ν) (b : Bool) :
    toCsv P m b = ((if b then [[]] else []) ++ m.cols) :: bodyLines P m b := rfl

theorem bodyLines_length (P : Pandas ν) (m : Mtx Txt ν) (b : Bool) : (bodyLines P m b).length = m.rows.length := by
  unfold bodyLines; simp

theorem lines_fit (P : Pandas ν) (m : Mtx Txt ν) (b : Bool) :
    ((bodyLines P m b).all fun r => decide (r.length = ((if b then [[]] else []) ++ m.cols : List Txt).length)) = true := by
  rw [List.all_eq_true]
  intro r hr
  obtain ⟨p, _, rfl⟩ := List.mem_map.1 hr
  rw [line_length]
  cases b <;> simp [dataframe]
  omega

theorem column_value {P : Pandas ν} (hP : Faithful P) (m : Mtx Txt ν) (b : Bool) {j k : Nat} (hj : j < m.cols.length)
    (hk : k = (if b then j + 1 else j)) :
    column P (bodyLines P m b) k = (List.range m.rows.length).map (fun i => cellOf P m.body i j) := by
  unfold column bodyLines
  rw [List.map_map]
  have e : ((fun r : List Txt => r.getD k []) ∘ fun p : Txt × Nat => line P (dataframe P m) b p.1 p.2) =
      fun p => P.field (cellOf P m.body p.2 j) := by
    funext p
    subst hk
    cases b
    · exact line_plain P (dataframe P m) p.1 p.2 hj
    · exact line_succ P (dataframe P m) p.1 p.2 hj
  rw [e, zipIdx_snd m.rows (fun i => P.field (cellOf P m.body i j)),
    show (List.range m.rows.length).map (fun i => P.field (cellOf P m.body i j)) =
      ((List.range m.rows.length).map (fun i => cellOf P m.body i j)).map P.field by rw [List.map_map]; rfl]
  apply hP.column
  intro s hs
  obtain ⟨i, _, hi⟩ := List.mem_map.1 hs
  exact cellOf_notext hP _ _ _ _ hi

theorem column_names {P : Pandas ν} {m : Mtx Txt ν} (hn : PlainNames P m) :
    column P (bodyLines P m true) 0 = m.rows.map .text := by
  unfold column bodyLines
  rw [List.map_map]
  have e : ((fun r : List Txt => r.getD 0 []) ∘ fun p : Txt × Nat => line P (dataframe P m) true p.1 p.2) = fun p => p.1 :=
    funext fun p => line_zero P (dataframe P m) p.1 p.2
  rw [e, zipIdx_fst, hn.rows]

theorem header_kept (l : List Txt) (h : [] ∉ l) (n : Nat) :
    (l.zipIdx n).map (fun p => if p.1 = [] then unnamed p.2 else p.1) = l := by
  induction l generalizing n with
  | nil => rfl
  | cons a l ih =>
    have ha : a ≠ [] := fun e => h (by simp [e])
    simp only [List.zipIdx_cons, List.map_cons, if_neg ha]
    rw [ih (fun e => h (by simp [e]))]

theorem names_plain {P : Pandas ν} (hP : Faithful P) {m : Mtx Txt ν} (hn : PlainNames P m) : headerNames P m.cols = m.cols := by
  unfold headerNames
  rw [header_kept _ hn.empty]
  exact hP.header _ hn.cols

theorem names_index {P : Pandas ν} (hP : Faithful P) {m : Mtx Txt ν} (hn : PlainNames P m) :
    headerNames P ([] :: m.cols) = "Unnamed: 0".toList :: m.cols := by
  unfold headerNames
  rw [List.zipIdx_cons, List.map_cons, header_kept _ hn.empty]
  exact hP.header _ (List.nodup_cons.2 ⟨hn.unnamed, hn.cols⟩)

theorem readFrame_index (P : Pandas ν) {header : List Txt} {rows : List (List Txt)} {a : Txt} {cs : List Txt}
    (h : (rows.all fun r => decide (r.length = header.length)) = true) (hn : headerNames P header = a :: cs) :
    readFrame P true (header :: rows) = .ok ⟨(column P rows 0).map .of, cs.map asText,
      fun i j => ((column P rows (j + 1))[i]?).getD .nan⟩ := by
  unfold readFrame
  simp only
  rw [if_pos h, if_pos trivial, hn]
  rfl

theorem readFrame_plain (P : Pandas ν) {header : List Txt} {rows : List (List Txt)}
    (h : (rows.all fun r => decide (r.length = header.length)) = true) :
    readFrame P false (header :: rows) = .ok ⟨(List.range rows.length).map .pos, (headerNames P header).map asText,
      fun i j => ((column P rows j)[i]?).getD .nan⟩ := by
  unfold readFrame
  simp only
  rw [if_pos h, if_neg (by decide)]
  rfl

/-- The frame that is read with `index_col=0`. -/
theorem read_indexed {P : Pandas ν} (hP : Faithful P) {m : Mtx Txt ν} (hn : PlainNames P m) :
    ∃ f, readFrame P true (toCsv P m) = .ok f ∧ f.index = m.rows.map asText ∧ f.columns = m.cols.map asText ∧
      ∀ i < m.rows.length, ∀ j < m.cols.length, f.cell i j = cellOf P m.body i j := by
  rw [toCsv_eq, readFrame_index P (lines_fit P m true) (names_index hP hn)]
  refine ⟨_, rfl, ?_, rfl, ?_⟩
  · simp only
    rw [column_names hn, List.map_map]
    rfl
  · intro i hi j hj
    simp only
    rw [column_value hP m true (k := j + 1) hj rfl]
    simp [hi]

/-- The frame that is read by default. -/
theorem read_default {P : Pandas ν} (hP : Faithful P) {m : Mtx Txt ν} (hn : PlainNames P m) :
    ∃ f, readFrame P false (toCsv P m) = .ok f ∧ f.index = (List.range m.rows.length).map .pos ∧
      f.columns = ("Unnamed: 0".toList :: m.cols).map asText ∧
      (∀ i (hi : i < m.rows.length), f.cell i 0 = .text m.rows[i]) ∧
      ∀ i < m.rows.length, ∀ j < m.cols.length, f.cell i (j + 1) = cellOf P m.body i j := by
  rw [toCsv_eq, readFrame_plain P (lines_fit P m true)]
  refine ⟨_, rfl, ?_, congrArg (List.map asText) (names_index hP hn), ?_, ?_⟩
  · simp only
    rw [bodyLines_length]
  · intro i hi
    simp only
    rw [column_names hn]
    simp [hi]
  · intro i hi j hj
    simp only
    rw [column_value hP m true (k := j + 1) hj rfl]
    simp [hi]

/-- The frame of a file without row names that is read by default. -/
theorem read_noindex {P : Pandas ν} (hP : Faithful P) {m : Mtx Txt ν} (hn : PlainNames P m) :
    ∃ f, readFrame P false (toCsv P m false) = .ok f ∧ f.index = (List.range m.rows.length).map .pos ∧
      f.columns = m.cols.map asText ∧
      ∀ i < m.rows.length, ∀ j < m.cols.length, f.cell i j = cellOf P m.body i j := by
  rw [toCsv_eq, readFrame_plain P (lines_fit P m false)]
  refine ⟨_, rfl, ?_, congrArg (List.map asText) (names_plain hP hn), ?_⟩
  · simp only
    rw [bodyLines_length]
  · intro i hi j hj
    simp only
    rw [column_value hP m false (k := j) hj rfl]
    simp [hi]

variable [Zero ν] [DecidableEq ν] [AllClose ν]

theorem csrOf_val (nr nc : Nat) (cell : Nat → Nat → Cell ν) {i j : Nat} (hi : i < nr) (hj : j < nc) :
    (csrOf nr nc cell).val i j = cell i j := by
  unfold csrOf Sp.val Sp.stored
  have hq := get?_map_filter ((List.range nr).product (List.range nc)) (fun p => cell p.1 p.2) (fun v => decide (v ≠ .num 0)) (i, j)
  simp only at hq
  rw [hq]
  have hm : (i, j) ∈ (List.range nr).product (List.range nc) := List.mem_product.2 ⟨List.mem_range.2 hi, List.mem_range.2 hj⟩
  by_cases h0 : cell i j = .num 0
  · rw [if_neg (by simp [h0]), h0]; rfl
  · rw [if_pos ⟨hm, by simpa using h0⟩]; rfl

theorem no_text {nr nc : Nat} {cell : Nat → Nat → Cell ν} (h : ∀ i < nr, ∀ j < nc, ∀ s, cell i j ≠ .text s) : hasText nr nc cell = false := by
  unfold hasText
  rw [List.any_eq_false]
  intro i hi
  rw [Bool.not_eq_true, List.any_eq_false]
  intro j hj
  have := h i (List.mem_range.1 hi) j (List.mem_range.1 hj)
  cases hc : cell i j with
  | text s => exact absurd hc (this s)
  | num v => simp
  | nan => simp

theorem some_text {nr nc : Nat} {cell : Nat → Nat → Cell ν} {i j : Nat} (hi : i < nr) (hj : j < nc) {s : Txt} (h : cell i j = .text s) :
    hasText nr nc cell = true := by
  unfold hasText
  rw [List.any_eq_true]
  refine ⟨i, List.mem_range.2 hi, ?_⟩
  rw [List.any_eq_true]
  refine ⟨j, List.mem_range.2 hj, ?_⟩
  rw [h]

/-- From a frame of numbers to the matrix. -/
theorem from_numbers {f : Frame (Lbl ν) ν} (ht : ∀ i < f.index.length, ∀ j < f.columns.length, ∀ s, f.cell i j ≠ .text s) :
    (∃ u, fromDataframe f true = .ok u ∧ (∃ s, u.body = .sp s ∧ s.fmt = .csr) ∧ u.rows = f.index ∧ u.cols = f.columns ∧
      ∀ i < f.index.length, ∀ j < f.columns.length, u.body.val i j = f.cell i j) ∧
    ((looksSymmetric f.index.length f.columns.length f.cell = true → f.index = f.columns) →
      ∃ u, fromDataframe f false = .ok u ∧ (∃ d, u.body = .dn d) ∧ u.rows = f.index ∧ u.cols = f.columns ∧
      ∀ i < f.index.length, ∀ j < f.columns.length, u.body.val i j = f.cell i j) := by
  constructor
  · unfold fromDataframe
    simp only [if_true]
    rw [no_text ht, if_neg (by decide)]
    exact ⟨_, rfl, ⟨_, rfl, rfl⟩, rfl, rfl, fun i hi j hj => csrOf_val _ _ _ hi hj⟩
  · intro hs
    unfold fromDataframe
    simp only [Bool.false_eq_true, if_false]
    rw [no_text ht, if_neg (by simp), if_neg (fun h => h.2 (hs h.1))]
    exact ⟨_, rfl, ⟨_, rfl⟩, rfl, rfl, fun _ _ _ _ => rfl⟩

/-! ## C158 -/

/-- The claim for one call: the matrix that is read has the names and the entries of the one written. -/
def Same (m : Mtx Txt ν) (u : Mtx (Lbl ν) (Cell ν)) : Prop :=
  u.rows = m.rows.map asText ∧ u.cols = m.cols.map asText ∧
    ∀ i < m.rows.length, ∀ j < m.cols.length, u.body.val i j = .num (m.body.val i j)

theorem cellOf_shown {P : Pandas ν} {m : Mtx Txt ν} (h : (∃ d, m.body = .dn d) ∨ P.fill = .num 0) (i j : Nat) :
    cellOf P m.body i j = .num (m.body.val i j) := by
  rcases h with ⟨d, hd⟩ | h
  · rw [hd]; rfl
  · cases hb : m.body with
    | dn d => rfl
    | sp s =>
      unfold cellOf Body.val Sp.val
      simp only
      cases s.stored i j with
      | none => exact h
      | some v => rfl

/-- **C158**, true part: with `index_col=0` an array, and a sparse matrix if pandas takes what is not stored for 0, comes back
from the table, as sparse matrix or as array (the latter unless the entries look symmetric and the names differ). -/
theorem C158_partial {P : Pandas ν} (hP : Faithful P) {m : Mtx Txt ν} (hn : PlainNames P m)
    (hf : (∃ d, m.body = .dn d) ∨ P.fill = .num 0) :
    (∃ u, readCsv P (toCsv P m) true true = .ok u ∧ Same m u) ∧
    ((m.rows.length = m.cols.length →
        (∀ i < m.rows.length, ∀ j < m.rows.length, AllClose.close (m.body.val i j) (m.body.val j i) = true) → m.rows = m.cols) →
      ∃ u, readCsv P (toCsv P m) true = .ok u ∧ Same m u) := by
  obtain ⟨f, h1, h2, h3, h4⟩ := read_indexed hP hn
  have l1 : f.index.length = m.rows.length := by rw [h2]; simp
  have l2 : f.columns.length = m.cols.length := by rw [h3]; simp
  have ht : ∀ i < f.index.length, ∀ j < f.columns.length, ∀ s, f.cell i j ≠ .text s := by
    intro i hi j hj s
    rw [h4 i (l1 ▸ hi) j (l2 ▸ hj)]
    exact cellOf_notext hP _ _ _ _
  obtain ⟨a, b⟩ := from_numbers ht
  unfold readCsv
  simp only [h1, bind, Except.bind]
  constructor
  · obtain ⟨u, u1, _, u2, u3, u4⟩ := a
    refine ⟨u, u1, u2.trans h2, u3.trans h3, fun i hi j hj => ?_⟩
    rw [u4 i (l1 ▸ hi) j (l2 ▸ hj), h4 i hi j hj, cellOf_shown hf]
  · intro hs
    obtain ⟨u, u1, _, u2, u3, u4⟩ := b (by
      intro hl
      unfold looksSymmetric at hl
      rw [l1, l2] at hl
      simp only [Bool.and_eq_true, decide_eq_true_eq, List.all_eq_true, List.mem_range] at hl
      rw [h2, h3, hs hl.1 (fun i hi j hj => ?_)]
      have := hl.2 i hi j (by rw [← hl.1]; exact hj)
      rw [h4 i hi j (by rw [← hl.1]; exact hj), h4 j hj i (by rw [← hl.1]; exact hi), cellOf_shown hf, cellOf_shown hf] at this
      exact this)
    refine ⟨u, u1, u2.trans h2, u3.trans h3, fun i hi j hj => ?_⟩
    rw [u4 i (l1 ▸ hi) j (l2 ▸ hj), h4 i hi j hj, cellOf_shown hf]

/-- **C158**, what happens by default: the row names become a column of texts called `Unnamed: 0` and the rows are numbered, so
that reading as sparse matrix, or a table with one row more than columns, is a `TypeError`. -/
theorem C158_default {P : Pandas ν} (hP : Faithful P) {m : Mtx Txt ν} (hn : PlainNames P m) (hr : m.rows ≠ []) :
    readCsv P (toCsv P m) false true = .error .typeError ∧
    (m.rows.length = m.cols.length + 1 → readCsv P (toCsv P m) = .error .typeError) ∧
    (m.rows.length ≠ m.cols.length + 1 → ∃ u, readCsv P (toCsv P m) = .ok u ∧
      u.rows = (List.range m.rows.length).map .pos ∧ u.cols = ("Unnamed: 0".toList :: m.cols).map asText ∧
      (∀ i (hi : i < m.rows.length), u.body.val i 0 = .text m.rows[i]) ∧
      ∀ i < m.rows.length, ∀ j < m.cols.length, u.body.val i (j + 1) = cellOf P m.body i j) := by
  obtain ⟨f, h1, h2, h3, h4, h5⟩ := read_default hP hn
  have l1 : f.index.length = m.rows.length := by rw [h2]; simp
  have l2 : f.columns.length = m.cols.length + 1 := by rw [h3]; simp
  have hpos : 0 < m.rows.length := List.length_pos_of_ne_nil hr
  have ht : hasText f.index.length f.columns.length f.cell = true :=
    some_text (i := 0) (j := 0) (l1 ▸ hpos) (by omega) (h4 0 hpos)
  unfold readCsv
  simp only [h1, bind, Except.bind]
  refine ⟨?_, fun h => ?_, fun h => ?_⟩
  · unfold fromDataframe
    simp only [if_true]
    rw [if_pos ht]
  · unfold fromDataframe
    simp only [Bool.false_eq_true, if_false]
    rw [if_pos ⟨by omega, ht⟩]
  · unfold fromDataframe
    simp only [Bool.false_eq_true, if_false]
    have hns : looksSymmetric f.index.length f.columns.length f.cell = false := by
      unfold looksSymmetric
      rw [decide_eq_false (by omega)]
      rfl
    rw [if_neg (fun hh => absurd hh.1 (by omega)), hns, if_neg (by simp)]
    exact ⟨_, rfl, h2, h3, h4, h5⟩

/-- **C158**, sparse matrices where pandas shows what is not stored as `nan` (as it does for floats): these entries come back as
`nan` instead of 0, and are stored in the sparse matrix that is read. -/
theorem C158_nan {P : Pandas ν} (hP : Faithful P) {m : Mtx Txt ν} (hn : PlainNames P m) {s : Sp ν} (hb : m.body = .sp s)
    (hf : P.fill = .nan) :
    ∃ u, readCsv P (toCsv P m) true true = .ok u ∧ u.rows = m.rows.map asText ∧ u.cols = m.cols.map asText ∧
      ∀ i < m.rows.length, ∀ j < m.cols.length, (∀ v, s.stored i j = some v → u.body.val i j = .num v) ∧
        (s.stored i j = none → m.body.val i j = 0 ∧ u.body.val i j = .nan) := by
  obtain ⟨f, h1, h2, h3, h4⟩ := read_indexed hP hn
  have l1 : f.index.length = m.rows.length := by rw [h2]; simp
  have l2 : f.columns.length = m.cols.length := by rw [h3]; simp
  have ht : ∀ i < f.index.length, ∀ j < f.columns.length, ∀ s, f.cell i j ≠ .text s := by
    intro i hi j hj s
    rw [h4 i (l1 ▸ hi) j (l2 ▸ hj)]
    exact cellOf_notext hP _ _ _ _
  obtain ⟨⟨u, u1, _, u2, u3, u4⟩, _⟩ := from_numbers ht
  unfold readCsv
  simp only [h1, bind, Except.bind]
  refine ⟨u, u1, u2.trans h2, u3.trans h3, fun i hi j hj => ⟨fun v hv => ?_, fun hv => ⟨?_, ?_⟩⟩⟩
  · rw [u4 i (l1 ▸ hi) j (l2 ▸ hj), h4 i hi j hj, hb]
    simp only [cellOf, hv]
  · rw [hb]; simp only [Body.val, Sp.val, hv]; rfl
  · rw [u4 i (l1 ▸ hi) j (l2 ▸ hj), h4 i hi j hj, hb]
    simp only [cellOf, hv, hf]

/-- **C158**, the same read as an array: `nan` is close to nothing, so where some entry is not stored the table is never refused for
looking symmetric, and these entries come back as `nan`. -/
theorem C158_nan_array {P : Pandas ν} (hP : Faithful P) {m : Mtx Txt ν} (hn : PlainNames P m) {s : Sp ν} (hb : m.body = .sp s)
    (hf : P.fill = .nan) {a b : Nat} (ha : a < m.rows.length) (hab : b < m.cols.length) (hs : s.stored a b = none) :
    ∃ u, readCsv P (toCsv P m) true = .ok u ∧ u.rows = m.rows.map asText ∧ u.cols = m.cols.map asText ∧
      ∀ i < m.rows.length, ∀ j < m.cols.length, (∀ v, s.stored i j = some v → u.body.val i j = .num v) ∧
        (s.stored i j = none → m.body.val i j = 0 ∧ u.body.val i j = .nan) := by
  obtain ⟨f, h1, h2, h3, h4⟩ := read_indexed hP hn
  have l1 : f.index.length = m.rows.length := by rw [h2]; simp
  have l2 : f.columns.length = m.cols.length := by rw [h3]; simp
  have ht : ∀ i < f.index.length, ∀ j < f.columns.length, ∀ s, f.cell i j ≠ .text s := by
    intro i hi j hj s
    rw [h4 i (l1 ▸ hi) j (l2 ▸ hj)]
    exact cellOf_notext hP _ _ _ _
  have hnan : f.cell a b = .nan := by
    rw [h4 a ha b hab, hb]
    simp only [cellOf, hs, hf]
  have hsym : looksSymmetric f.index.length f.columns.length f.cell = false := by
    unfold looksSymmetric
    rw [Bool.and_eq_false_iff, decide_eq_false_iff_not]
    right
    rw [List.all_eq_false]
    refine ⟨a, List.mem_range.2 (l1 ▸ ha), ?_⟩
    rw [List.all_eq_true]
    intro hall
    have := hall b (List.mem_range.2 (l2 ▸ hab))
    rw [hnan] at this
    exact Bool.false_ne_true this
  obtain ⟨_, hu⟩ := from_numbers ht
  obtain ⟨u, u1, _, u2, u3, u4⟩ := hu (fun h => by rw [hsym] at h; cases h)
  unfold readCsv
  simp only [h1, bind, Except.bind]
  refine ⟨u, u1, u2.trans h2, u3.trans h3, fun i hi j hj => ⟨fun v hv => ?_, fun hv => ⟨?_, ?_⟩⟩⟩
  · rw [u4 i (l1 ▸ hi) j (l2 ▸ hj), h4 i hi j hj, hb]
    simp only [cellOf, hv]
  · rw [hb]; simp only [Body.val, Sp.val, hv]; rfl
  · rw [u4 i (l1 ▸ hi) j (l2 ▸ hj), h4 i hi j hj, hb]
    simp only [cellOf, hv, hf]

/-- **C158**: a table written without row names (`index=False`) gives entries and column names by default, and numbered rows. -/
theorem C158_noindex {P : Pandas ν} (hP : Faithful P) {m : Mtx Txt ν} (hn : PlainNames P m)
    (hf : (∃ d, m.body = .dn d) ∨ P.fill = .num 0) :
    ∃ u, readCsv P (toCsv P m false) false true = .ok u ∧ u.rows = (List.range m.rows.length).map .pos ∧
      u.cols = m.cols.map asText ∧ ∀ i < m.rows.length, ∀ j < m.cols.length, u.body.val i j = .num (m.body.val i j) := by
  obtain ⟨f, h1, h2, h3, h4⟩ := read_noindex hP hn
  have l1 : f.index.length = m.rows.length := by rw [h2]; simp
  have l2 : f.columns.length = m.cols.length := by rw [h3]; simp
  have ht : ∀ i < f.index.length, ∀ j < f.columns.length, ∀ s, f.cell i j ≠ .text s := by
    intro i hi j hj s
    rw [h4 i (l1 ▸ hi) j (l2 ▸ hj)]
    exact cellOf_notext hP _ _ _ _
  obtain ⟨⟨u, u1, _, u2, u3, u4⟩, _⟩ := from_numbers ht
  unfold readCsv
  simp only [h1, bind, Except.bind]
  refine ⟨u, u1, u2.trans h2, u3.trans h3, fun i hi j hj => ?_⟩
  rw [u4 i (l1 ▸ hi) j (l2 ▸ hj), h4 i hi j hj, cellOf_shown hf]

/-! ### A pandas that meets the hypotheses, and the counterexample -/

/-- Numbers are written as `#` and that many strokes. -/
def demoRead : Txt → Cell Int
  | [] => .nan
  | '#' :: s => .num s.length
  | '-' :: s => .num (-s.length)
  | s => .text s

/-- A pandas for the examples. -/
def demo (fill : Cell Int) : Pandas Int where
  put v := if 0 ≤ v then '#' :: List.replicate v.toNat 'i' else '-' :: List.replicate (-v).toNat 'i'
  infer l := if l.all (fun s => match demoRead s with | .text _ => false | _ => true) then l.map demoRead else l.map .text
  fill := fill
  mangle l := l

theorem demo_read (fill c : Cell Int) (h : ∀ s, c ≠ .text s) : demoRead ((demo fill).field c) = c := by
  cases c with
  | nan => rfl
  | text s => exact absurd rfl (h s)
  | num v =>
    unfold Pandas.field demo
    simp only
    split
    · next hv => simp [demoRead, hv]
    · next hv =>
      have : ((-v).toNat : Int) = -v := Int.toNat_of_nonneg (by omega)
      simp [demoRead, this]

theorem demo_faithful (fill : Cell Int) (hf : ∀ s, fill ≠ .text s) : Faithful (demo fill) := by
  refine ⟨?_, fun _ _ => rfl, hf⟩
  intro l hl
  have hd : ∀ c ∈ l, demoRead ((demo fill).field c) = c := fun c hc => demo_read fill c (fun s e => hl s (e ▸ hc))
  have e : (l.map (demo fill).field).map demoRead = l := by
    rw [List.map_map]
    exact (List.map_congr_left (fun c hc => hd c hc)).trans (List.map_id l)
  show (if _ then (l.map (demo fill).field).map demoRead else _) = l
  rw [if_pos, e]
  rw [List.all_eq_true]
  intro s hs
  obtain ⟨c, hc, rfl⟩ := List.mem_map.1 hs
  rw [hd c hc]
  cases c with
  | nan => rfl
  | num v => rfl
  | text s => exact absurd hc (hl s)

/-- Two rows, two columns, one entry not stored. -/
def small : Mtx Txt Int := ⟨.sp ⟨.csr, 2, 2, [((0, 0), 3), ((1, 0), -2), ((1, 1), 1)]⟩, [['a'], ['b']], [['x'], ['y']]⟩

theorem small_plain (fill : Cell Int) : PlainNames (demo fill) small :=
  ⟨rfl, by decide, by decide, by decide⟩

/-- **C158 is false**: read with the defaults, the table has three columns and rows 0 and 1; with `index_col=0` the entry that
was 0 is `nan`. -/
theorem C158_false : ∃ (P : Pandas Int) (m : Mtx Txt Int) (u v : Mtx (Lbl Int) (Cell Int)), Faithful P ∧ PlainNames P m ∧
    readCsv P (toCsv P m) = .ok u ∧ ¬ Same m u ∧ readCsv P (toCsv P m) true true = .ok v ∧ ¬ Same m v ∧
    m.body.val 0 1 = 0 ∧ v.body.val 0 1 = .nan := by
  have hP := demo_faithful .nan (by simp)
  obtain ⟨u, h1, h2, _⟩ := (C158_default hP (small_plain .nan) (by simp [small])).2.2 (by simp [small])
  obtain ⟨v, k1, k2, k3, k4⟩ := C158_nan hP (small_plain .nan) (s := ⟨.csr, 2, 2, [((0, 0), 3), ((1, 0), -2), ((1, 1), 1)]⟩) rfl rfl
  have e := (k4 0 (by simp [small]) 1 (by simp [small])).2 (by decide)
  refine ⟨demo .nan, small, u, v, hP, small_plain _, h1, ?_, k1, ?_, e.1, e.2⟩
  · rintro ⟨hr, _⟩
    rw [h2] at hr
    simp [small, asText, List.range_succ] at hr
  · rintro ⟨_, _, h⟩
    have := h 0 (by simp [small]) 1 (by simp [small])
    rw [e.2] at this
    cases this

/-- Non-vacuity for the other parts. -/
example : Faithful (demo (.num 0)) ∧ PlainNames (demo (.num 0)) small ∧ (demo (.num 0)).fill = .num 0 ∧ small.rows ≠ [] ∧
    toCsv (demo (.num 0)) small = [[[], ['x'], ['y']], [['a'], ['#', 'i', 'i', 'i'], ['#']], [['b'], ['-', 'i', 'i'], ['#', 'i']]] :=
  ⟨demo_faithful _ (by simp), small_plain _, rfl, by simp [small], rfl⟩

end Verif.Matrix.Csv
