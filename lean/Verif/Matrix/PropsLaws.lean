import Verif.Matrix.PropsSelect
import Verif.Matrix.PropsMerge
import Verif.Matrix.PropsFilter
import Verif.Matrix.PropsToken

/-!
# C137-C140: selecting in steps, selecting and transposing, merging in any order, cutting off in steps
-/

namespace Verif.Matrix
open Verif.Py
set_option linter.unusedSectionVars false

variable {κ ν : Type} [LinearOrder κ]

/-! ### Specification -/

/-- Both results are `None`, or both are matrices with the same names in the same order and the same entries. -/
def Agree [Zero ν] : Option (Mtx κ ν) → Option (Mtx κ ν) → Prop
  | none, none => True
  | some u, some w => SameNamed u w
  | _, _ => False

/-- A request repeats no name. -/
def Plainly (req : Option (List κ)) : Prop := ∀ l, req = some l → l.Nodup

/-- The request that asks for what two requests, one after the other, ask for. -/
def inner (req req' : Option (List κ)) : Option (List κ) :=
  match req, req' with
  | none, r => r
  | some l, none => some l
  | some l, some l' => some (l'.filter (fun e => decide (e ∈ l)))

/-! ### Lemmas -/

theorem kept_nodup {items : List κ} (h : items.Nodup) {req : Option (List κ)} (hr : Plainly req) : (kept items req).Nodup := by
  cases req with
  | none => exact h
  | some l => exact (hr l rfl).filter _

/-- A request finds nothing. -/
def Finds (items : List κ) (req : Option (List κ)) : Prop := req ≠ none → kept items req ≠ []

theorem submatrix_spec [Zero ν] [AllClose ν] {m : Mtx κ ν} (hm : Valid m) (hc : IsCompressed m) {row col : Option (List κ)}
    (hr : Plainly row) (hcl : Plainly col) :
    (¬ (Finds m.rows row ∧ Finds m.cols col) ∧ submatrix m row col = .ok none) ∨
    ((Finds m.rows row ∧ Finds m.cols col) ∧ ∃ u, submatrix m row col = .ok (some u) ∧ Valid u ∧ IsCompressed u ∧
      u.rows = kept m.rows row ∧ u.cols = kept m.cols col ∧ ∀ r ∈ u.rows, ∀ c ∈ u.cols, entry u r c = entry m r c) := by
  rcases C23_submatrix_partial hm hc row col with ⟨h, h'⟩ | ⟨h1, h2, u, s, k1, k2, k3, k4, k5, k6, k7, k8, -, k9⟩
  · left
    refine ⟨?_, h'⟩
    rintro ⟨f1, f2⟩
    rcases h with ⟨a, b⟩ | ⟨a, b⟩
    · exact f1 a b
    · exact f2 a b
  · right
    have hv : Valid u := ⟨by rw [k4]; exact k5, by rw [k4]; exact k6, by rw [k2]; exact kept_nodup hm.rows hr,
      by rw [k3]; exact kept_nodup hm.cols hcl, by intro t ht; rw [k4] at ht; cases ht; exact k7⟩
    refine ⟨⟨h1, h2⟩, u, k1, hv, k8, k2, k3, ?_⟩
    intro r hr' c hc'
    have e := k9 r hr' c hc'
    rw [getValue_spec hv k8 hr' hc', getValue_spec hm hc (kept_sub row (k2 ▸ hr')) (kept_sub col (k3 ▸ hc'))] at e
    exact Except.ok.inj e

theorem sameNamed_of [Zero ν] {u w : Mtx κ ν} (h1 : u.rows = w.rows) (h2 : u.cols = w.cols)
    (h3 : ∀ r ∈ u.rows, ∀ c ∈ u.cols, entry u r c = entry w r c) : SameNamed u w := by
  refine ⟨h1, h2, ?_⟩
  intro r c
  by_cases hr : r ∈ u.rows
  · by_cases hc : c ∈ u.cols
    · exact h3 r hr c hc
    · rw [entry_col_absent r hc, entry_col_absent r (by rw [← h2]; exact hc)]
  · rw [entry_row_absent hr, entry_row_absent (by rw [← h1]; exact hr)]

theorem kept_kept {items : List κ} {req req' : Option (List κ)} :
    kept (kept items req) req' = kept items (inner req req') := by
  cases req with
  | none => cases req' <;> rfl
  | some l =>
    cases req' with
    | none => rfl
    | some l' =>
      simp only [kept, inner, List.filter_filter, List.mem_filter, decide_eq_true_eq]
      apply List.filter_congr
      intro e _
      by_cases h1 : e ∈ l <;> by_cases h2 : e ∈ items <;> simp [h1, h2]

theorem inner_plainly {req req' : Option (List κ)} (h : Plainly req) (h' : Plainly req') : Plainly (inner req req') := by
  cases req with
  | none => exact h'
  | some l =>
    cases req' with
    | none => exact h
    | some l' =>
      intro k hk
      cases hk
      exact (h' l' rfl).filter _

theorem finds_inner {items : List κ} {req req' : Option (List κ)} (h : Finds items req) :
    Finds (kept items req) req' ↔ Finds items (inner req req') := by
  unfold Finds
  rw [kept_kept]
  cases req with
  | none => rfl
  | some l =>
    cases req' with
    | none =>
      have := h (by simp)
      simp only [inner]
      constructor
      · intro _ _; exact this
      · intro _ hc; exact absurd rfl hc
    | some l' => simp [inner]

/-! ### C137 -/

/-- **C137**.  Of a sparse matrix: selecting from a selection gives the same as selecting once with the request for what both ask
for — `None` in the same cases, otherwise the same names in the same order with the same entries. -/
theorem C137_steps [Zero ν] [AllClose ν] {m : Mtx κ ν} (hm : Valid m) (hc : IsCompressed m) {row col row' col' : Option (List κ)}
    (h1 : Plainly row) (h2 : Plainly col) (h3 : Plainly row') (h4 : Plainly col') {u : Mtx κ ν}
    (hu : submatrix m row col = .ok (some u)) :
    ∃ a b, submatrix u row' col' = .ok a ∧ submatrix m (inner row row') (inner col col') = .ok b ∧ Agree a b := by
  rcases submatrix_spec hm hc h1 h2 with ⟨_, h⟩ | ⟨⟨f1, f2⟩, u', k1, k2, k3, k4, k5, k6⟩
  · rw [hu] at h; cases h
  · rw [hu] at k1
    cases k1
    rcases submatrix_spec k2 k3 h3 h4 with ⟨f, h⟩ | ⟨f, w, l1, l2, l3, l4, l5, l6⟩
    · rcases submatrix_spec hm hc (inner_plainly h1 h3) (inner_plainly h2 h4) with ⟨g, h'⟩ | ⟨g, _⟩
      · exact ⟨none, none, h, h', trivial⟩
      · exfalso
        apply f
        rw [k4, k5, finds_inner f1, finds_inner f2]
        exact g
    · rcases submatrix_spec hm hc (inner_plainly h1 h3) (inner_plainly h2 h4) with ⟨g, _⟩ | ⟨g, w', j1, j2, j3, j4, j5, j6⟩
      · exfalso
        apply g
        rw [← finds_inner f1, ← finds_inner f2, ← k4, ← k5]
        exact f
      · refine ⟨some w, some w', l1, j1, sameNamed_of ?_ ?_ ?_⟩
        · rw [l4, j4, k4, kept_kept]
        · rw [l5, j5, k5, kept_kept]
        · intro r hr c hcc
          have hr' : r ∈ w'.rows := by rw [j4, ← kept_kept, ← k4, ← l4]; exact hr
          have hc' : c ∈ w'.cols := by rw [j5, ← kept_kept, ← k5, ← l5]; exact hcc
          rw [l6 r hr c hcc, j6 r hr' c hc', k6 r (by rw [l4] at hr; exact kept_sub _ hr) c (by rw [l5] at hcc; exact kept_sub _ hcc)]

/-- **C137** (rows and columns separately).  Selecting rows and then columns, columns and then rows, or both at once: the same, if
something is found. -/
theorem C137_rows_cols [Zero ν] [AllClose ν] {m : Mtx κ ν} (hm : Valid m) (hc : IsCompressed m) {R C : List κ}
    (hR : R.Nodup) (hC : C.Nodup) (fR : ∃ r ∈ R, r ∈ m.rows) (fC : ∃ c ∈ C, c ∈ m.cols) :
    ∃ a b u w v, submatrix m (some R) none = .ok (some a) ∧ submatrix m none (some C) = .ok (some b) ∧
      submatrix a none (some C) = .ok (some u) ∧ submatrix b (some R) none = .ok (some w) ∧
      submatrix m (some R) (some C) = .ok (some v) ∧ SameNamed u v ∧ SameNamed w v := by
  have pR : Plainly (some R) := fun l h => by cases h; exact hR
  have pC : Plainly (some C) := fun l h => by cases h; exact hC
  have pN : Plainly (none : Option (List κ)) := fun l h => by cases h
  have keyR : Finds m.rows (some R) := by
    obtain ⟨r, h1, h2⟩ := fR
    intro _ h
    exact List.ne_nil_of_mem (List.mem_filter.2 ⟨h1, by simpa using h2⟩) h
  have keyC : Finds m.cols (some C) := by
    obtain ⟨r, h1, h2⟩ := fC
    intro _ h
    exact List.ne_nil_of_mem (List.mem_filter.2 ⟨h1, by simpa using h2⟩) h
  have keyN : ∀ l : List κ, Finds l none := fun l h => absurd rfl h
  rcases submatrix_spec hm hc pR pN with ⟨f, _⟩ | ⟨_, a, ha, a2, a3, a4, a5, -⟩
  · exact absurd ⟨keyR, keyN _⟩ f
  rcases submatrix_spec hm hc pN pC with ⟨f, _⟩ | ⟨_, b, hb, b2, b3, b4, b5, -⟩
  · exact absurd ⟨keyN _, keyC⟩ f
  rcases submatrix_spec hm hc pR pC with ⟨f, _⟩ | ⟨_, v, hv, -⟩
  · exact absurd ⟨keyR, keyC⟩ f
  obtain ⟨x, y, x1, x2, x3⟩ := C137_steps hm hc pR pN pN pC ha
  obtain ⟨x', y', x1', x2', x3'⟩ := C137_steps hm hc pN pC pR pN hb
  simp only [inner] at x2 x2'
  rw [hv] at x2 x2'
  cases x2; cases x2'
  cases x with
  | none => exact absurd x3 (by simp [Agree])
  | some u =>
    cases x' with
    | none => exact absurd x3' (by simp [Agree])
    | some w => exact ⟨a, b, u, w, v, ha, hb, x1, x1', hv, x3, x3'⟩

/-! ### C138 -/

theorem transpose_compressed [AllClose ν] {m u : Mtx κ ν} (hc : IsCompressed m) (h : transpose m = .ok u) : IsCompressed u := by
  obtain ⟨s, hb, hf⟩ := hc
  unfold transpose at h
  rw [hb] at h
  simp only at h
  have := (mkMtx_inv h).1
  refine ⟨s.transpose, this, ?_⟩
  unfold Sp.transpose
  cases hs : s.fmt <;> simp [hs] at hf ⊢

theorem notSquare_of_compressed [AllClose ν] {m : Mtx κ ν} (hc : IsCompressed m) : NotSquare m := by
  obtain ⟨s, hb, _⟩ := hc
  intro d hd
  rw [hb] at hd; cases hd

/-- **C138** (selection).  Selecting from the transposed matrix with the requests exchanged gives the transposed selection. -/
theorem C138_select [Zero ν] [AllClose ν] {m : Mtx κ ν} (hm : Valid m) (hc : IsCompressed m) {row col : Option (List κ)}
    (h1 : Plainly row) (h2 : Plainly col) :
    ∃ t a b, transpose m = .ok t ∧ submatrix t col row = .ok a ∧ submatrix m row col = .ok b ∧
      (match b with
        | none => a = none
        | some w => ∃ w' a', a = some a' ∧ transpose w = .ok w' ∧ SameNamed a' w') := by
  obtain ⟨t, ht, t1, t2, t3, t4, -⟩ := C24_transpose_partial hm (notSquare_of_compressed hc)
  have tc := transpose_compressed hc ht
  rcases submatrix_spec hm hc h1 h2 with ⟨f, h⟩ | ⟨f, w, k1, k2, k3, k4, k5, k6⟩
  · rcases submatrix_spec t3 tc h2 h1 with ⟨_, h'⟩ | ⟨g, _⟩
    · exact ⟨t, none, none, ht, h', h, rfl⟩
    · rw [t1, t2] at g
      exact absurd ⟨g.2, g.1⟩ f
  · rcases submatrix_spec t3 tc h2 h1 with ⟨g, _⟩ | ⟨_, a, l1, l2, l3, l4, l5, l6⟩
    · rw [t1, t2] at g
      exact absurd ⟨f.2, f.1⟩ g
    · obtain ⟨w', hw, w1, w2, w3, w4, -⟩ := C24_transpose_partial k2 (notSquare_of_compressed k3)
      refine ⟨t, some a, some w, ht, l1, k1, w', a, rfl, hw, sameNamed_of ?_ ?_ ?_⟩
      · rw [l4, t1, w1, k5]
      · rw [l5, t2, w2, k4]
      · intro c hcc r hr
        rw [l6 c hcc r hr, t4, w4, k6 r (by rw [k4, ← t2, ← l5]; exact hr) c (by rw [k5, ← t1, ← l4]; exact hcc)]

/-- **C138** (cut-off).  Cutting off entries and transposing can be exchanged. -/
theorem C138_threshold [MulZeroOneClass ν] [LinearOrder ν] [AllClose ν] {m : Mtx κ ν} (hm : Valid m) (hc : IsCompressed m)
    {op : Op} {k : ν} (hk : ¬ (k = 0 ∧ (op = .le ∨ op = .ge))) :
    ∃ t a b b', transpose m = .ok t ∧ threshold t op k = .ok a ∧ threshold m op k = .ok b ∧ transpose b = .ok b' ∧ SameNamed a b' := by
  obtain ⟨t, ht, t1, t2, t3, t4, -⟩ := C24_transpose_partial hm (notSquare_of_compressed hc)
  obtain ⟨s, hb, _⟩ := hc
  obtain ⟨s', hb', _⟩ := transpose_compressed ⟨s, hb, ‹_›⟩ ht
  obtain ⟨a, a1, a2, a3, a4, a5⟩ := C25_threshold_value t3 hb' hk
  obtain ⟨b, b1, b2, b3, b4, b5⟩ := C25_threshold_value hm hb hk
  have hsp : NotSquare b := by
    intro d hd
    unfold threshold at b1
    rw [hb] at b1
    simp only [bind, Except.bind] at b1
    split at b1
    · cases b1
    · split at b1
      · cases b1
      · have := (mkMtx_inv b1).1
        rw [hd] at this; cases this
  obtain ⟨b', h1, h2, h3, h4, h5, -⟩ := C24_transpose_partial b2 hsp
  refine ⟨t, a, b, b', ht, a1, b1, h1, ?_, ?_, ?_⟩
  · rw [a3, t1, h2, b4]
  · rw [a4, t2, h3, b3]
  · intro c r
    rw [a5, t4, h5, b5]

/-- **C138** (merging).  Merging and transposing can be exchanged. -/
theorem C138_merge {m t : Mtx κ Int} (hm : Valid m) (ht : Valid t) (cm : IsCompressed m) (ct : IsCompressed t)
    (hne : ∃ r c, entry m r c ≠ 0) :
    ∃ m' t' u u' w, transpose m = .ok m' ∧ transpose t = .ok t' ∧ mergeByName m t = .ok u ∧ transpose u = .ok u' ∧
      mergeByName m' t' = .ok w ∧ SameNamed w u' := by
  have hst : ∀ {m : Mtx κ Int}, (∃ r c, entry m r c ≠ 0) → ∀ {s : Sp Int}, m.body = .sp s → s.data ≠ [] := by
    rintro m ⟨r, c, h⟩ s hb hd
    apply h
    rw [entry_eq_stored hb]
    unfold storedEntry
    rw [hb]
    cases m.rows.idxOf? r <;> cases m.cols.idxOf? c <;> simp [Sp.stored, hd, Dict.get?_nil]
  obtain ⟨m', h1, a1, a2, a3, a4, -⟩ := C24_transpose_partial hm (notSquare_of_compressed cm)
  obtain ⟨t', h2, b1, b2, b3, b4, -⟩ := C24_transpose_partial ht (notSquare_of_compressed ct)
  obtain ⟨s1, e1, _⟩ := transpose_compressed cm h1
  obtain ⟨s2, e2, _⟩ := transpose_compressed ct h2
  obtain ⟨s3, e3, _⟩ := cm
  obtain ⟨s4, e4, _⟩ := ct
  obtain ⟨u, u1, u2, u3, u4, u5, u6⟩ := C55_merge_partial hm ht e3 e4 (Or.inl (hst hne e3))
  have hne' : ∃ r c, entry m' r c ≠ 0 := by
    obtain ⟨r, c, h⟩ := hne
    exact ⟨c, r, by rw [a4]; exact h⟩
  obtain ⟨w, w1, w2, w3, w4, w5, w6⟩ := C55_merge_partial a3 b3 e1 e2 (Or.inl (hst hne' e1))
  have hsp : NotSquare u := by
    obtain ⟨s, hs, _⟩ := u3
    intro d hd; rw [hs] at hd; cases hd
  obtain ⟨u', v1, v2, v3, v4, v5, -⟩ := C24_transpose_partial u2 hsp
  refine ⟨m', t', u, u', w, h1, h2, u1, v1, w1, ?_, ?_, ?_⟩
  · rw [w4, a1, b1, v2, u5]
  · rw [w5, a2, b2, v3, u4]
  · intro c r
    rw [w6, a4, b4, v5, u6]

/-! ### C139 -/

theorem sortedUnion_comm (a b : List κ) : sortedUnion a b = sortedUnion b a := by
  refine List.Perm.eq_of_pairwise (le := (· ≤ ·)) (fun x y _ _ => le_antisymm) (sortedUnion_sorted a b) (sortedUnion_sorted b a) ?_
  rw [List.perm_ext_iff_of_nodup (sortedUnion_nodup _ _) (sortedUnion_nodup _ _)]
  intro e
  rw [sortedUnion_mem, sortedUnion_mem, or_comm]

theorem sortedUnion_assoc (a b c : List κ) : sortedUnion (sortedUnion a b) c = sortedUnion a (sortedUnion b c) := by
  refine List.Perm.eq_of_pairwise (le := (· ≤ ·)) (fun x y _ _ => le_antisymm) (sortedUnion_sorted _ _) (sortedUnion_sorted _ _) ?_
  rw [List.perm_ext_iff_of_nodup (sortedUnion_nodup _ _) (sortedUnion_nodup _ _)]
  intro e
  simp only [sortedUnion_mem, or_assoc]

theorem sum_extend {l L : List κ} (hl : l.Nodup) (hL : L.Nodup) (hs : ∀ x ∈ l, x ∈ L) (f : κ → Int) (h0 : ∀ x ∈ L, x ∉ l → f x = 0) :
    (L.map f).sum = (l.map f).sum := by
  have h1 : (L.map f).sum = ((L.filter (fun x => decide (x ∈ l))).map f).sum := by
    clear hL hs
    induction L with
    | nil => rfl
    | cons x L ih =>
      have := ih (fun y hy => h0 y (List.mem_cons_of_mem _ hy))
      by_cases hx : x ∈ l
      · simp [hx, this]
      · simp [hx, this, h0 x List.mem_cons_self hx]
  rw [h1]
  refine (List.Perm.map f ?_).sum_eq
  rw [List.perm_ext_iff_of_nodup (hL.filter _) hl]
  intro x
  rw [List.mem_filter, decide_eq_true_eq]
  exact ⟨fun h => h.2, fun h => ⟨hs x h, h⟩⟩

theorem total_extend {m : Mtx κ Int} (hm : Valid m) {rows cols : List κ} (hr : rows.Nodup) (hc : cols.Nodup)
    (h1 : ∀ r ∈ m.rows, r ∈ rows) (h2 : ∀ c ∈ m.cols, c ∈ cols) :
    (rows.map (fun r => (cols.map (fun c => entry m r c)).sum)).sum = total m := by
  rw [(C53_total hm).1]
  rw [sum_extend hm.rows hr h1]
  · congr 1
    apply List.map_congr_left
    intro r _
    exact sum_extend hm.cols hc h2 _ (fun c _ hcn => entry_col_absent r hcn)
  · intro r _ hrn
    simp [entry_row_absent hrn]

section
variable {m t w : Mtx κ Int}

/-- **C139** (order of two).  `m.merge(t)` and `t.merge(m)` have the same names in the same order and the same entries. -/
theorem C139_commutative (hm : Valid m) (ht : Valid t) {a b : Sp Int} (ha : m.body = .sp a) (hb : t.body = .sp b)
    (hne : a.data ≠ [] ∨ b.data ≠ []) : ∃ u u', mergeByName m t = .ok u ∧ mergeByName t m = .ok u' ∧ SameNamed u u' := by
  obtain ⟨u, u1, u2, u3, u4, u5, u6⟩ := C55_merge_partial hm ht ha hb hne
  obtain ⟨v, v1, v2, v3, v4, v5, v6⟩ := C55_merge_partial ht hm hb ha hne.symm
  exact ⟨u, v, u1, v1, by rw [u4, v4, sortedUnion_comm], by rw [u5, v5, sortedUnion_comm], fun r c => by rw [u6, v6, add_comm]⟩

/-- A merge with a non-zero entry stores it. -/
theorem stores_of_entry {s : Sp Int} (hb : m.body = .sp s) (h : ∃ r c, entry m r c ≠ 0) : s.data ≠ [] := by
  intro hd
  obtain ⟨r, c, h⟩ := h
  apply h
  rw [entry_eq_stored hb]
  unfold storedEntry
  rw [hb]
  cases m.rows.idxOf? r <;> cases m.cols.idxOf? c <;> simp [Sp.stored, hd, Dict.get?_nil]

/-- **C139** (order of three).  Merging three matrices of counts in either grouping gives the same, if not two neighbours are empty. -/
theorem C139_associative (hm : Valid m) (ht : Valid t) (hw : Valid w) {a b c : Sp Int} (ha : m.body = .sp a) (hb : t.body = .sp b)
    (hc : w.body = .sp c) (hp : ∀ r c, 0 ≤ entry m r c ∧ 0 ≤ entry t r c ∧ 0 ≤ entry w r c)
    (h1 : ∃ r c, 0 < entry m r c ∨ 0 < entry t r c) (h2 : ∃ r c, 0 < entry t r c ∨ 0 < entry w r c) :
    ∃ u v x y, mergeByName m t = .ok u ∧ mergeByName u w = .ok x ∧ mergeByName t w = .ok v ∧ mergeByName m v = .ok y ∧
      SameNamed x y := by
  have st : ∀ {m : Mtx κ Int} {s : Sp Int}, m.body = .sp s → (∃ r c, 0 < entry m r c) → s.data ≠ [] := by
    rintro m s hb ⟨r, c, h⟩
    exact stores_of_entry hb ⟨r, c, by omega⟩
  have n1 : a.data ≠ [] ∨ b.data ≠ [] := by
    obtain ⟨r, c, h | h⟩ := h1
    · exact Or.inl (st ha ⟨r, c, h⟩)
    · exact Or.inr (st hb ⟨r, c, h⟩)
  have n2 : b.data ≠ [] ∨ c.data ≠ [] := by
    obtain ⟨r, c, h | h⟩ := h2
    · exact Or.inl (st hb ⟨r, c, h⟩)
    · exact Or.inr (st hc ⟨r, c, h⟩)
  obtain ⟨u, u1, u2, ⟨su, us, -⟩, u4, u5, u6⟩ := C55_merge_partial hm ht ha hb n1
  obtain ⟨v, v1, v2, ⟨sv, vs, -⟩, v4, v5, v6⟩ := C55_merge_partial ht hw hb hc n2
  have hu := st us (by obtain ⟨r, c, h⟩ := h1; exact ⟨r, c, by rw [u6]; have := hp r c; omega⟩)
  have hv := st vs (by obtain ⟨r, c, h⟩ := h2; exact ⟨r, c, by rw [v6]; have := hp r c; omega⟩)
  obtain ⟨x, x1, x2, x3, x4, x5, x6⟩ := C55_merge_partial u2 hw us hc (Or.inl hu)
  obtain ⟨y, y1, y2, y3, y4, y5, y6⟩ := C55_merge_partial hm v2 ha vs (Or.inr hv)
  refine ⟨u, v, x, y, u1, x1, v1, y1, ?_, ?_, ?_⟩
  · rw [x4, y4, u4, v4, sortedUnion_assoc]
  · rw [x5, y5, u5, v5, sortedUnion_assoc]
  · intro r c
    rw [x6, y6, u6, v6, add_assoc]

/-- **C139** (totals).  The sum of all entries of a merged matrix is the sum of the two sums. -/
theorem C139_total (hm : Valid m) (ht : Valid t) {a b : Sp Int} (ha : m.body = .sp a) (hb : t.body = .sp b)
    (hne : a.data ≠ [] ∨ b.data ≠ []) : ∃ u, mergeByName m t = .ok u ∧ total u = total m + total t := by
  obtain ⟨u, u1, u2, u3, u4, u5, u6⟩ := C55_merge_partial hm ht ha hb hne
  refine ⟨u, u1, ?_⟩
  rw [(C53_total u2).1]
  have e : u.rows.map (fun r => (u.cols.map (fun c => entry u r c)).sum) =
      u.rows.map (fun r => (u.cols.map (fun c => entry m r c)).sum + (u.cols.map (fun c => entry t r c)).sum) := by
    apply List.map_congr_left
    intro r _
    rw [← List.sum_map_add]
    simp only [u6]
  rw [e, List.sum_map_add, total_extend hm u2.rows u2.cols, total_extend ht u2.rows u2.cols]
  · intro r hr; rw [u4, sortedUnion_mem]; exact Or.inr hr
  · intro c hc; rw [u5, sortedUnion_mem]; exact Or.inr hc
  · intro r hr; rw [u4, sortedUnion_mem]; exact Or.inl hr
  · intro c hc; rw [u5, sortedUnion_mem]; exact Or.inl hc

end

/-! ### C140 -/

theorem threshold_sp [MulZeroOneClass ν] [LinearOrder ν] [AllClose ν] {m b : Mtx κ ν} {op : Op} {k : ν}
    (h : threshold m op k = .ok b) : ∃ s, b.body = .sp s := by
  unfold threshold at h
  cases hb : m.body with
  | dn d => rw [hb] at h; cases h
  | sp s =>
    rw [hb] at h
    simp only [bind, Except.bind] at h
    split at h
    · cases h
    · split at h
      · cases h
      · exact ⟨_, (mkMtx_inv h).1⟩

/-- **C140**.  Cutting off at `k` and then at `k'` is cutting off at the larger; the order does not matter, and
cutting off twice at the same number changes nothing. -/
theorem C140_steps [MulZeroOneClass ν] [LinearOrder ν] [AllClose ν] {m : Mtx κ ν} (hm : Valid m) {s : Sp ν} (hb : m.body = .sp s) (k k' : ν) :
    ∃ u v w x, threshold m .gt k = .ok u ∧ threshold u .gt k' = .ok v ∧ threshold m .gt (max k k') = .ok w ∧ SameNamed v w ∧
      threshold u .gt k = .ok x ∧ SameNamed x u := by
  obtain ⟨u, u1, u2, u3, u4, u5⟩ := C25_threshold_value hm hb (op := .gt) (k := k) (by simp)
  obtain ⟨su, hsu⟩ := threshold_sp u1
  obtain ⟨v, v1, v2, v3, v4, v5⟩ := C25_threshold_value u2 hsu (op := .gt) (k := k') (by simp)
  obtain ⟨x, x1, x2, x3, x4, x5⟩ := C25_threshold_value u2 hsu (op := .gt) (k := k) (by simp)
  obtain ⟨w, w1, w2, w3, w4, w5⟩ := C25_threshold_value hm hb (op := .gt) (k := max k k') (by simp)
  refine ⟨u, v, w, x, u1, v1, w1, ⟨by rw [v3, u3, w3], by rw [v4, u4, w4], ?_⟩, x1, ⟨x3, x4, ?_⟩⟩
  · intro r c
    rw [v5, u5, w5]
    simp only [Op.holds, decide_eq_true_eq, max_lt_iff]
    by_cases h1 : k < entry m r c
    · by_cases h2 : k' < entry m r c <;> simp [h1, h2]
    · simp [h1]
  · intro r c
    rw [x5, u5]
    simp only [Op.holds, decide_eq_true_eq]
    by_cases h1 : k < entry m r c <;> simp [h1]

/-- **C140** (fewer entries).  A higher cut-off keeps no entry that a lower one drops, and every entry it keeps unchanged. -/
theorem C140_monotone [MulZeroOneClass ν] [LinearOrder ν] [AllClose ν] {m : Mtx κ ν} (hm : Valid m) {s : Sp ν} (hb : m.body = .sp s)
    {k k' : ν} (hk : k ≤ k') :
    ∃ u v, threshold m .gt k = .ok u ∧ threshold m .gt k' = .ok v ∧ ∀ r c, entry v r c ≠ 0 → entry u r c = entry m r c ∧
      entry v r c = entry m r c := by
  obtain ⟨u, u1, u2, u3, u4, u5⟩ := C25_threshold_value hm hb (op := .gt) (k := k) (by simp)
  obtain ⟨v, v1, v2, v3, v4, v5⟩ := C25_threshold_value hm hb (op := .gt) (k := k') (by simp)
  refine ⟨u, v, u1, v1, ?_⟩
  intro r c h
  rw [v5] at h
  rw [v5, u5]
  simp only [Op.holds, decide_eq_true_eq] at h ⊢
  by_cases h1 : k' < entry m r c
  · rw [if_pos h1, if_pos (lt_of_le_of_lt hk h1)]
    exact ⟨rfl, rfl⟩
  · rw [if_neg h1] at h
    exact absurd rfl h

/-! ### Witnesses -/

/-- A matrix with three entries. -/
def lawMtx : Mtx Nat Int :=
  ⟨.sp { fmt := .csr, nr := 2, nc := 3, data := [((0, 0), 3), ((0, 2), 1), ((1, 1), 7)] }, [1, 2], [7, 8, 9]⟩

theorem lawMtx_valid : Valid lawMtx := by
  refine ⟨rfl, rfl, by decide, by decide, ?_⟩
  intro s h; cases h
  exact ⟨by unfold Dict.WF; decide, by decide⟩

theorem lawMtx_compressed : IsCompressed lawMtx := ⟨_, rfl, by decide⟩

example : ∃ a b u w v, submatrix lawMtx (some [2, 5, 1]) none = .ok (some a) ∧ submatrix lawMtx none (some [9, 8]) = .ok (some b) ∧
    submatrix a none (some [9, 8]) = .ok (some u) ∧ submatrix b (some [2, 5, 1]) none = .ok (some w) ∧
    submatrix lawMtx (some [2, 5, 1]) (some [9, 8]) = .ok (some v) ∧ SameNamed u v ∧ SameNamed w v :=
  C137_rows_cols lawMtx_valid lawMtx_compressed (by decide) (by decide) ⟨2, by decide, by decide⟩ ⟨9, by decide, by decide⟩

example : ∃ u, mergeByName lawMtx lawMtx = .ok u ∧ total u = total lawMtx + total lawMtx ∧ total lawMtx = 11 := by
  obtain ⟨u, h1, h2⟩ := C139_total lawMtx_valid lawMtx_valid rfl rfl (Or.inl (by decide))
  exact ⟨u, h1, h2, by decide⟩

example : ∃ u v w x, threshold lawMtx .gt 1 = .ok u ∧ threshold u .gt 3 = .ok v ∧ threshold lawMtx .gt (max 1 3) = .ok w ∧
    SameNamed v w ∧ threshold u .gt 1 = .ok x ∧ SameNamed x u :=
  C140_steps lawMtx_valid rfl 1 3

example : ∃ r c, entry lawMtx r c ≠ 0 := ⟨1, 7, by decide⟩

end Verif.Matrix
