import Verif.Matrix.PropsLaws

/-! # Property theorems C222 (dividing a matrix and putting it together again) -/

namespace Verif.Matrix
open Verif.Py
set_option linter.unusedSectionVars false

variable {κ ν : Type} [LinearOrder κ]

theorem kept_part {items l : List κ} (h : ∀ e ∈ l, e ∈ items) : kept items (some l) = l := by
  unfold kept
  exact List.filter_eq_self.2 (fun e he => by simpa using h e he)

/-! ## C222 -/

/-- **C222**, rows: if the rows of a sparse matrix are divided in two, the selections of the two parts, concatenated, hold the rows of
the first and then of the second part, with the columns and the entries of the matrix. -/
theorem C222_rows [Zero ν] [AllClose ν] {m : Mtx κ ν} (hm : Valid m) (hc : IsCompressed m) {l l' : List κ} (hl : l ≠ []) (hl' : l' ≠ [])
    (hp : (l ++ l').Perm m.rows) :
    ∃ a b u, submatrix m (some l) none = .ok (some a) ∧ submatrix m (some l') none = .ok (some b) ∧ concatRows a b = .ok u ∧ Valid u ∧
      u.rows = l ++ l' ∧ u.cols = m.cols ∧ ∀ r c, entry u r c = entry m r c := by
  have hnd : (l ++ l').Nodup := hp.nodup_iff.2 hm.rows
  obtain ⟨n1, n2, n3⟩ := List.nodup_append.1 hnd
  have s1 : ∀ e ∈ l, e ∈ m.rows := fun e he => hp.mem_iff.1 (List.mem_append_left _ he)
  have s2 : ∀ e ∈ l', e ∈ m.rows := fun e he => hp.mem_iff.1 (List.mem_append_right _ he)
  have pN : Plainly (none : Option (List κ)) := fun l h => by cases h
  have fN : Finds m.cols none := fun h => absurd rfl h
  have f1 : Finds m.rows (some l) := fun _ => by rw [kept_part s1]; exact hl
  have f2 : Finds m.rows (some l') := fun _ => by rw [kept_part s2]; exact hl'
  rcases submatrix_spec hm hc (row := some l) (fun _ h => by cases h; exact n1) pN with ⟨h, _⟩ | ⟨_, a, a1, a2, a3, a4, a5, a6⟩
  · exact absurd ⟨f1, fN⟩ h
  rcases submatrix_spec hm hc (row := some l') (fun _ h => by cases h; exact n2) pN with ⟨h, _⟩ | ⟨_, b, b1, b2, b3, b4, b5, b6⟩
  · exact absurd ⟨f2, fN⟩ h
  rw [kept_part s1] at a4
  rw [kept_part s2] at b4
  obtain ⟨sa, ea, _⟩ := a3
  obtain ⟨sb, eb, _⟩ := b3
  obtain ⟨u, u1, u2, u3, u4, u5, u6, _⟩ := C24_concatRows_partial a2 b2 ea eb (by rw [a5, b5])
    (fun r hr hr' => n3 r (a4 ▸ hr) r (b4 ▸ hr') rfl)
  refine ⟨a, b, u, a1, b1, u1, u4, by rw [u2, a4, b4], by rw [u3, a5]; rfl, fun r c => ?_⟩
  have hcu : u.cols = m.cols := by rw [u3, a5]; rfl
  by_cases hcc : c ∈ m.cols
  · by_cases hr : r ∈ l
    · rw [u5 r (a4 ▸ hr) c, a6 r (a4 ▸ hr) c (by rw [a5]; exact hcc)]
    · by_cases hr' : r ∈ l'
      · rw [u6 r (b4 ▸ hr') c, b6 r (b4 ▸ hr') c (by rw [b5]; exact hcc)]
      · rw [entry_row_absent (by rw [u2, a4, b4]; simp [hr, hr']), entry_row_absent (fun h => by
          rcases List.mem_append.1 (hp.mem_iff.2 h) with h | h <;> contradiction)]
  · rw [entry_col_absent r (by rw [hcu]; exact hcc), entry_col_absent r hcc]

/-- **C222**, columns: the same for columns. -/
theorem C222_cols [Zero ν] [AllClose ν] {m : Mtx κ ν} (hm : Valid m) (hc : IsCompressed m) {l l' : List κ} (hl : l ≠ []) (hl' : l' ≠ [])
    (hp : (l ++ l').Perm m.cols) :
    ∃ a b u, submatrix m none (some l) = .ok (some a) ∧ submatrix m none (some l') = .ok (some b) ∧ concatCols a b = .ok u ∧ Valid u ∧
      u.rows = m.rows ∧ u.cols = l ++ l' ∧ ∀ r c, entry u r c = entry m r c := by
  have hnd : (l ++ l').Nodup := hp.nodup_iff.2 hm.cols
  obtain ⟨n1, n2, n3⟩ := List.nodup_append.1 hnd
  have s1 : ∀ e ∈ l, e ∈ m.cols := fun e he => hp.mem_iff.1 (List.mem_append_left _ he)
  have s2 : ∀ e ∈ l', e ∈ m.cols := fun e he => hp.mem_iff.1 (List.mem_append_right _ he)
  have pN : Plainly (none : Option (List κ)) := fun l h => by cases h
  have fN : Finds m.rows none := fun h => absurd rfl h
  have f1 : Finds m.cols (some l) := fun _ => by rw [kept_part s1]; exact hl
  have f2 : Finds m.cols (some l') := fun _ => by rw [kept_part s2]; exact hl'
  rcases submatrix_spec hm hc (col := some l) pN (fun _ h => by cases h; exact n1) with ⟨h, _⟩ | ⟨_, a, a1, a2, a3, a4, a5, a6⟩
  · exact absurd ⟨fN, f1⟩ h
  rcases submatrix_spec hm hc (col := some l') pN (fun _ h => by cases h; exact n2) with ⟨h, _⟩ | ⟨_, b, b1, b2, b3, b4, b5, b6⟩
  · exact absurd ⟨fN, f2⟩ h
  rw [kept_part s1] at a5
  rw [kept_part s2] at b5
  obtain ⟨sa, ea, _⟩ := a3
  obtain ⟨sb, eb, _⟩ := b3
  obtain ⟨u, u1, u2, u3, u4, u5, u6⟩ := C24_concatCols_partial a2 b2 ea eb (by rw [a4, b4])
    (fun r hr hr' => n3 r (a5 ▸ hr) r (b5 ▸ hr') rfl)
  have hru : u.rows = m.rows := by rw [u2, a4]; rfl
  refine ⟨a, b, u, a1, b1, u1, u4, hru, by rw [u3, a5, b5], fun r c => ?_⟩
  by_cases hr : r ∈ m.rows
  · by_cases hcc : c ∈ l
    · rw [u5 r c (a5 ▸ hcc), a6 r (by rw [a4]; exact hr) c (a5 ▸ hcc)]
    · by_cases hcc' : c ∈ l'
      · rw [u6 r c (b5 ▸ hcc'), b6 r (by rw [b4]; exact hr) c (b5 ▸ hcc')]
      · rw [entry_col_absent r (by rw [u3, a5, b5]; simp [hcc, hcc']), entry_col_absent r (fun h => by
          rcases List.mem_append.1 (hp.mem_iff.2 h) with h | h <;> contradiction)]
  · rw [entry_row_absent (by rw [hru]; exact hr), entry_row_absent hr]

/-- **C222**, merging: selecting from a merged matrix gives the entries that the selections from the two matrices, merged, have; the
names are those asked for that either matrix has. -/
theorem C222_merge {m t : Mtx κ Int} (hm : Valid m) (ht : Valid t) (cm : IsCompressed m) (ct : IsCompressed t)
    {row col : Option (List κ)} (pr : Plainly row) (pc : Plainly col) {a b : Mtx κ Int} (ha : submatrix m row col = .ok (some a))
    (hb : submatrix t row col = .ok (some b)) (hne : ∃ r c, entry a r c ≠ 0) :
    ∃ u v w, mergeByName m t = .ok u ∧ submatrix u row col = .ok (some v) ∧ mergeByName a b = .ok w ∧
      v.rows.Perm w.rows ∧ v.cols.Perm w.cols ∧ ∀ r c, entry v r c = entry w r c := by
  have hst : ∀ {m : Mtx κ Int}, (∃ r c, entry m r c ≠ 0) → ∀ {s : Sp Int}, m.body = .sp s → s.data ≠ [] := by
    rintro m ⟨r, c, h⟩ s hb hd
    apply h
    rw [entry_eq_stored hb]
    unfold storedEntry
    rw [hb]
    cases m.rows.idxOf? r <;> cases m.cols.idxOf? c <;> simp [Sp.stored, hd, Dict.get?_nil]
  rcases submatrix_spec hm cm pr pc with ⟨_, h⟩ | ⟨⟨fm1, fm2⟩, a', a1, a2, a3, a4, a5, a6⟩
  · rw [ha] at h; cases h
  rcases submatrix_spec ht ct pr pc with ⟨_, h⟩ | ⟨⟨ft1, ft2⟩, b', b1, b2, b3, b4, b5, b6⟩
  · rw [hb] at h; cases h
  rw [ha] at a1; cases a1
  rw [hb] at b1; cases b1
  -- entries of the selections for all names
  have in_iff : ∀ {items : List κ} {req : Option (List κ)} {e : κ}, e ∈ kept items req ↔ e ∈ items ∧ ∀ l, req = some l → e ∈ l := by
    intro items req e
    cases req with
    | none => simp [kept]
    | some l => simp [kept, and_comm]
  have ea : ∀ r c, entry a r c = if (∀ l, row = some l → r ∈ l) ∧ (∀ l, col = some l → c ∈ l) then entry m r c else 0 := by
    intro r c
    by_cases hr : r ∈ a.rows
    · by_cases hcc : c ∈ a.cols
      · rw [if_pos ⟨(in_iff.1 (a4 ▸ hr)).2, (in_iff.1 (a5 ▸ hcc)).2⟩, a6 r hr c hcc]
      · rw [entry_col_absent r hcc]
        split
        · rename_i h
          rw [entry_col_absent r (fun h' => hcc (by rw [a5]; exact in_iff.2 ⟨h', h.2⟩))]
        · rfl
    · rw [entry_row_absent hr]
      split
      · rename_i h
        rw [entry_row_absent (fun h' => hr (by rw [a4]; exact in_iff.2 ⟨h', h.1⟩))]
      · rfl
  have eb : ∀ r c, entry b r c = if (∀ l, row = some l → r ∈ l) ∧ (∀ l, col = some l → c ∈ l) then entry t r c else 0 := by
    intro r c
    by_cases hr : r ∈ b.rows
    · by_cases hcc : c ∈ b.cols
      · rw [if_pos ⟨(in_iff.1 (b4 ▸ hr)).2, (in_iff.1 (b5 ▸ hcc)).2⟩, b6 r hr c hcc]
      · rw [entry_col_absent r hcc]
        split
        · rename_i h
          rw [entry_col_absent r (fun h' => hcc (by rw [b5]; exact in_iff.2 ⟨h', h.2⟩))]
        · rfl
    · rw [entry_row_absent hr]
      split
      · rename_i h
        rw [entry_row_absent (fun h' => hr (by rw [b4]; exact in_iff.2 ⟨h', h.1⟩))]
      · rfl
  have hne' : ∃ r c, entry m r c ≠ 0 := by
    obtain ⟨r, c, h⟩ := hne
    rw [ea] at h
    split at h
    · exact ⟨r, c, h⟩
    · exact absurd rfl h
  obtain ⟨s1, e1, _⟩ := cm
  obtain ⟨s2, e2, _⟩ := ct
  obtain ⟨s3, e3, _⟩ := a3
  obtain ⟨s4, e4, _⟩ := b3
  obtain ⟨u, u1, u2, u3, u4, u5, u6⟩ := C55_merge_partial hm ht e1 e2 (Or.inl (hst hne' e1))
  obtain ⟨w, w1, w2, w3, w4, w5, w6⟩ := C55_merge_partial a2 b2 e3 e4 (Or.inl (hst hne e3))
  have cu : IsCompressed u := by
    obtain ⟨s, h1, h2⟩ := u3
    exact ⟨s, h1, by rw [h2]; decide⟩
  have fu : ∀ {im it iu : List κ} {req : Option (List κ)}, Finds im req → (∀ e ∈ im, e ∈ iu) → Finds iu req := by
    intro im it iu req h hs hn h0
    obtain ⟨x, hx⟩ := List.exists_mem_of_ne_nil _ (h hn)
    have : x ∈ kept iu req := in_iff.2 ⟨hs x (in_iff.1 hx).1, (in_iff.1 hx).2⟩
    rw [h0] at this
    cases this
  rcases submatrix_spec u2 cu pr pc with ⟨h, _⟩ | ⟨_, v, v1, v2, v3, v4, v5, v6⟩
  · refine absurd ⟨fu (it := t.rows) fm1 (fun e he => ?_), fu (it := t.cols) fm2 (fun e he => ?_)⟩ h
    · rw [u4, sortedUnion_mem]; exact .inl he
    · rw [u5, sortedUnion_mem]; exact .inl he
  have ev : ∀ r c, entry v r c = if (∀ l, row = some l → r ∈ l) ∧ (∀ l, col = some l → c ∈ l) then entry u r c else 0 := by
    intro r c
    by_cases hr : r ∈ v.rows
    · by_cases hcc : c ∈ v.cols
      · rw [if_pos ⟨(in_iff.1 (v4 ▸ hr)).2, (in_iff.1 (v5 ▸ hcc)).2⟩, v6 r hr c hcc]
      · rw [entry_col_absent r hcc]
        split
        · rename_i h
          rw [entry_col_absent r (fun h' => hcc (by rw [v5]; exact in_iff.2 ⟨h', h.2⟩))]
        · rfl
    · rw [entry_row_absent hr]
      split
      · rename_i h
        rw [entry_row_absent (fun h' => hr (by rw [v4]; exact in_iff.2 ⟨h', h.1⟩))]
      · rfl
  refine ⟨u, v, w, u1, v1, w1, ?_, ?_, ?_⟩
  · rw [List.perm_ext_iff_of_nodup v2.rows w2.rows]
    intro e
    rw [v4, w4, in_iff, u4, sortedUnion_mem, sortedUnion_mem, a4, b4, in_iff, in_iff]
    tauto
  · rw [List.perm_ext_iff_of_nodup v2.cols w2.cols]
    intro e
    rw [v5, w5, in_iff, u5, sortedUnion_mem, sortedUnion_mem, a5, b5, in_iff, in_iff]
    tauto
  · intro r c
    rw [ev, w6, ea, eb, u6]
    split
    · rfl
    · rfl

/-- Non-vacuity: a matrix of three rows divided in two and one. -/
example : ∃ m : Mtx Nat Int, Valid m ∧ IsCompressed m ∧ ([2, 1] ++ [3]).Perm m.rows ∧ ([6] ++ [5]).Perm m.cols ∧
    (∃ a, submatrix m (some [2, 1]) none = .ok (some a) ∧ ∃ r c, entry a r c ≠ 0) := by
  refine ⟨⟨.sp ⟨.csr, 3, 2, [((1, 1), 7), ((0, 0), 3)]⟩, [1, 2, 3], [5, 6]⟩, ⟨rfl, rfl, by decide, by decide, ?_⟩, ⟨_, rfl, by decide⟩,
    by decide, by decide, ⟨_, rfl, 1, 5, by decide +kernel⟩⟩
  intro s hs; cases hs; exact ⟨by decide, by decide⟩

end Verif.Matrix
